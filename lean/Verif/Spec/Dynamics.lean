import Verif.Model.ExprEval
import Verif.Model.Decay

/-!
Specification for the lineshapes: their values as complex functions, and mass dimensions.
-/
namespace Verif.Spec
open Verif Verif.ThreeBody

/-- `1 / (m² - s - i m Γ)`. -/
noncomputable def breitWignerValue (s m Γ : ℂ) : ℂ := 1 / (m ^ 2 - s - Complex.I * m * Γ)

/-- Symbols of the package by meaning. -/
def massOfState (i : ℤ) : Sym := ⟨"m" ++ toString i, .nonneg⟩
def massOfResonance (p : Particle) : Sym := ⟨"m_{" ++ p.latex ++ "}", .nonneg⟩
def widthOfResonance (p : Particle) : Sym := ⟨"\\Gamma_{" ++ p.latex ++ "}", .nonneg⟩
def mandelstam (k : ℤ) : Sym := ⟨"sigma" ++ toString k, .nonneg⟩
/-- `R_res`, shared by all resonances. -/
def resonanceRadius : Sym := ⟨"R_\\mathrm{res}", .nonneg⟩
def parentRadius (p : State) : Sym := ⟨"R_{" ++ p.latex ++ "}", .nonneg⟩

/-! ### Mass dimensions -/

/-- A symbol with its mass dimension: Mandelstam variables have dimension 2, masses and widths 1 and
meson radii -1. -/
inductive SymbolDim : Sym → ℤ → Prop
  | mandelstam (k) : SymbolDim (mandelstam k) 2
  | stateMass (i) : SymbolDim (massOfState i) 1
  | resonanceMass (p) : SymbolDim (massOfResonance p) 1
  | resonanceWidth (p) : SymbolDim (widthOfResonance p) 1
  | resonanceRadius : SymbolDim resonanceRadius (-1)
  | parentRadius (p) : SymbolDim (parentRadius p) (-1)

/-- `HasDim δ e d`: with symbol dimensions `δ`, the expression `e` is dimensionally consistent and has
mass dimension `d`. Form factors take a squared mass, two masses and a radius and are
dimensionless; an energy-dependent width is a mass; a breakup momentum is a mass. -/
inductive HasDim (δ : Sym → ℤ → Prop) : Expr → ℤ → Prop
  | num (q) : HasDim δ (.num q) 0
  | I : HasDim δ .I 0
  | sym {s d} : δ s d → HasDim δ (.sym s) d
  | add {a b d} : HasDim δ a d → HasDim δ b d → HasDim δ (.add a b) d
  | sub {a b d} : HasDim δ a d → HasDim δ b d → HasDim δ (.sub a b) d
  | mul {a b d d'} : HasDim δ a d → HasDim δ b d' → HasDim δ (.mul a b) (d + d')
  | div {a b d d'} : HasDim δ a d → HasDim δ b d' → HasDim δ (.div a b) (d - d')
  | neg {a d} : HasDim δ a d → HasDim δ (.neg a) d
  | pow {a d} (n : ℕ) : HasDim δ a d → HasDim δ (.pow a n) (n * d)
  | sqrt {a d} : HasDim δ a (2 * d) → HasDim δ (.sqrt a) d
  | exp {a} : HasDim δ a 0 → HasDim δ (.exp a) 0
  | ff {s m1 m2 R} (L) : HasDim δ s 2 → HasDim δ m1 1 → HasDim δ m2 1 → HasDim δ R (-1) →
      HasDim δ (.ff s m1 m2 L R) 0
  | edw {s m0 g0 m1 m2 R} (L ph) : HasDim δ s 2 → HasDim δ m0 1 → HasDim δ g0 1 →
      HasDim δ m1 1 → HasDim δ m2 1 → HasDim δ R (-1) → HasDim δ (.edw s m0 g0 m1 m2 L R ph) 1
  | bmom {s m1 m2} : HasDim δ s 2 → HasDim δ m1 1 → HasDim δ m2 1 → HasDim δ (.bmom s m1 m2) 1

/-- The external functions are covariant under a change `t` of the unit of mass. -/
structure Covariant (ι : Interp) (t : ℝ) : Prop where
  ff : ∀ s m1 m2 L R, ι.ff (t ^ 2 * s) (t * m1) (t * m2) L (t⁻¹ * R) = ι.ff s m1 m2 L R
  edw : ∀ ph s m0 g0 m1 m2 L R, ι.edw ph (t ^ 2 * s) (t * m0) (t * g0) (t * m1) (t * m2) L
    (t⁻¹ * R) = t * ι.edw ph s m0 g0 m1 m2 L R
  bmom : ∀ s m1 m2, ι.bmom (t ^ 2 * s) (t * m1) (t * m2) = t * ι.bmom s m1 m2

/-- The first three arguments of every form factor in an expression. -/
def formFactorArgs : Expr → List (Expr × Expr × Expr)
  | .num _ | .I | .sym _ | .idx _ | .phase _ | .kron .. | .wig .. | .cg .. => []
  | .add a b | .sub a b | .mul a b | .div a b => formFactorArgs a ++ formFactorArgs b
  | .neg a | .pow a _ | .sqrt a | .exp a | .abs a => formFactorArgs a
  | .ff s m1 m2 _ R => (s, m1, m2) ::
      (formFactorArgs s ++ formFactorArgs m1 ++ formFactorArgs m2 ++ formFactorArgs R)
  | .edw s m0 g0 m1 m2 _ R _ => formFactorArgs s ++ formFactorArgs m0 ++ formFactorArgs g0 ++
      formFactorArgs m1 ++ formFactorArgs m2 ++ formFactorArgs R
  | .bmom s m1 m2 => formFactorArgs s ++ formFactorArgs m1 ++ formFactorArgs m2
  | .psum body _ => formFactorArgs body

/-! ### The lineshape of a chain -/

/-- Value of the lineshape of the chain `p0 → (R → p1 p2) p3` in the Mandelstam variable `σ_k`, with an
energy-dependent or constant width and with or without the form factors of the two vertices. `a`
and `b` are the masses at the production vertex in the order of the production node.
The form factor of the decay vertex has `σ_k²` as its first argument (see C41). -/
noncomputable def lineshapeValue (ι : Interp) (edw decFF prodFF : Bool) (phsp : String) (k : ℤ)
    (R : Particle) (p0 p1 p2 : State) (a b : Sym) (Lp Ld : ℤ) : ℂ :=
  let s := ι.sym (mandelstam k)
  let m := ι.sym (massOfResonance R)
  let Γ := ι.sym (widthOfResonance R)
  let m1 := ι.sym (massOfState p1.index)
  let m2 := ι.sym (massOfState p2.index)
  let r := ι.sym resonanceRadius
  (if edw then m * Γ * breitWignerValue s m (ι.edw phsp s m Γ m1 m2 Ld r)
    else breitWignerValue s m Γ) *
  (if decFF then ι.ff (s ^ 2) m1 m2 Ld r else 1) *
  (if prodFF then ι.ff (ι.sym (massOfState 0) ^ 2) (ι.sym a) (ι.sym b) Lp (ι.sym (parentRadius p0))
    else 1)

end Verif.Spec

namespace Verif.Spec
open Verif Verif.ThreeBody

/-- The chain `p0 → (R → p1 p2) s` with a resonance `R` that is a particle and final states `p1`, `p2`, `s`;
`first` tells whether the resonance is written before the spectator. -/
def PlainChain (c : Chain) (R : Particle) (first : Bool) : Prop :=
  let r := Node.isobar (.particle R) (.leaf (.state c.product1)) (.leaf (.state c.product2)) c.outgoingLs
  let s := Node.leaf (.state c.spectator)
  c.decay = if first then .isobar (.state c.parent) r s c.incomingLs
    else .isobar (.state c.parent) s r c.incomingLs

/-- The final states are 1, 2 and 3. -/
def NumberedFinalState (c : Chain) : Prop :=
  [c.product1.index, c.product2.index, c.spectator.index].Perm [1, 2, 3]

/-- Symbols with default values that the lineshape of a chain comes with. -/
def lineshapeDefaults (decFF prodFF : Bool) (R : Particle) (c : Chain) : List (Sym × ℚ) :=
  [(massOfResonance R, R.mass), (widthOfResonance R, R.width), (resonanceRadius, 1)] ++
  (if decFF then [(massOfState c.product1.index, c.product1.mass),
    (massOfState c.product2.index, c.product2.mass)] else []) ++
  (if prodFF then [(massOfState c.spectator.index, c.spectator.mass), (massOfState 0, c.parent.mass),
    (parentRadius c.parent, 1)] else [])

/-- Angular momentum of a vertex (0 if there is no LS coupling). -/
def angularMomentum : Option LS → ℤ
  | some ls => ls.L
  | none => 0

end Verif.Spec
