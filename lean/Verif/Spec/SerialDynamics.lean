import Verif.Spec.SerialAmplitude
import Verif.Spec.Dynamics

/-!
Specification of the parameters that come with the lineshapes and form factors of a serialized
model. Of the model, only the data types are used.
-/
namespace Verif.Serialization
open Verif Verif.ThreeBody Verif.Spec

/-- `f` is the first function definition with this name. -/
def FunctionNamed (m : ModelDefinition) (name : String) (f : FunctionDefinition) : Prop :=
  ∃ pre post, m.functions = pre ++ f :: post ∧ f.name = name ∧ ∀ g ∈ pre, g.name ≠ name

/-- Symbols with the name of the resonance. -/
def massNamed (R : String) : Sym := ⟨"m_{" ++ R ++ "}", .nonneg⟩
def widthNamed (R : String) : Sym := ⟨"\\Gamma_{" ++ R ++ "}", .nonneg⟩
def radiusNamed (R : String) : Sym := ⟨"R_{" ++ R ++ "}", .nonneg⟩
/-- Width of channel `n` of the resonance. -/
def widthOfChannel (R : String) (n : ℕ) : Sym :=
  ⟨"\\Gamma_{" ++ R ++ "}^\\text{ch. " ++ toString n ++ "}", .nonneg⟩
/-- Masses in channel `n`; they do not have the name of the resonance. -/
def firstMassOfChannel (n : ℕ) : Sym := ⟨"m_{a," ++ toString n ++ "}", .nonneg⟩
def secondMassOfChannel (n : ℕ) : Sym := ⟨"m_{b," ++ toString n ++ "}", .nonneg⟩

/-- Parameters of a `BreitWigner` function for the resonance `R → i j`. -/
def breitWignerParameters (R : String) (i j : ℤ) (f : FunctionDefinition) : List (Sym × Option ℚ) :=
  [(massNamed R, f.fields.get? "mass"), (widthNamed R, f.fields.get? "width"),
    (massOfState i, f.fields.get? "ma"), (massOfState j, f.fields.get? "mb"),
    (resonanceRadius, f.fields.get? "d")]

/-- Parameters of channel `n`, which is not the first. -/
def channelParameters (R : String) (n : ℕ) (c : PyDict String ℚ) : List (Sym × Option ℚ) :=
  [(firstMassOfChannel n, c.get? "ma"), (secondMassOfChannel n, c.get? "mb"),
    (widthOfChannel R n, c.get? "gsq")]

/-- Parameters of a `MultichannelBreitWigner` function for the resonance `R → i j`, with first channel
`c` and other channels `cs`. -/
def multichannelParameters (R : String) (i j : ℤ) (f : FunctionDefinition) (c : PyDict String ℚ)
    (cs : List (PyDict String ℚ)) : List (Sym × Option ℚ) :=
  [(massNamed R, f.fields.get? "mass"), (widthNamed R, c.get? "gsq"), (massOfState i, c.get? "ma"),
    (massOfState j, c.get? "mb"), (radiusNamed R, c.get? "d")] ++
  (cs.zipIdx 2).flatMap fun x => channelParameters R x.2 x.1

/-- The function definition `f`, used for the resonance `R → i j`, gives the symbol `s` the value `v`. -/
inductive FunctionParameter (R : String) (i j : ℤ) (f : FunctionDefinition) (s : Sym) (v : ℚ) : Prop
  | breitWigner : f.type = "BreitWigner" → (s, some v) ∈ breitWignerParameters R i j f →
      FunctionParameter R i j f s v
  | multichannel (c cs) : f.type = "MultichannelBreitWigner" → f.channels = some (c :: cs) →
      (s, some v) ∈ multichannelParameters R i j f c cs → FunctionParameter R i j f s v

/-- The chain definition gives the symbol `s` the value `v`: through a propagator, or through the radius
of a form factor at a decay vertex (`R_res`) or at a production vertex (`R_{initial state}`). -/
inductive ChainParameter (m : ModelDefinition) (initial : String) (toLatex : String → String)
    (c : ChainDefinition) (s : Sym) (v : ℚ) : Prop
  | propagator (p : Propagator) (f i j) : p ∈ c.propagators → p.node = [.id i, .id j] →
      FunctionNamed m p.parametrization f → FunctionParameter (toLatex c.name) i j f s v →
      ChainParameter m initial toLatex c s v
  | decayVertex (x : Vertex) (name f i j) : x ∈ c.vertices → x.formfactor = some name → name ≠ "" →
      x.node = [.id i, .id j] → FunctionNamed m name f → f.fields.get? "radius" = some v →
      s = resonanceRadius → ChainParameter m initial toLatex c s v
  | productionVertex (x : Vertex) (name f a b k) : x ∈ c.vertices → x.formfactor = some name →
      name ≠ "" → ProductionNode x.node a b k → FunctionNamed m name f →
      f.fields.get? "radius" = some v → s = radiusNamed initial →
      ChainParameter m initial toLatex c s v

/-- All propagators are for two final states. -/
def TwoBodyPropagators (D : Distribution) : Prop :=
  ∀ c ∈ D.chains, ∀ p ∈ c.propagators, ∃ i j, p.node = [.id i, .id j]

/-- Value of a `BreitWigner` function for the resonance `R → i j` with spectator `k`. -/
noncomputable def breitWignerLine (ι : Interp) (R : String) (i j k L : ℤ) : ℂ :=
  let s := ι.sym (mandelstam k)
  let m := ι.sym (massNamed R)
  breitWignerValue s m (ι.edw "PhaseSpaceFactor" s m (ι.sym (widthNamed R)) (ι.sym (massOfState i))
    (ι.sym (massOfState j)) L (ι.sym resonanceRadius))

/-- Width of a `MultichannelBreitWigner` function for the resonance `R → i j` with spectator `k`: the
sum of the widths `Γ m / √s · F²` of the channels; `L` is the angular momentum of the first channel
and `Ls` those of the others. -/
noncomputable def multichannelWidthValue (ι : Interp) (R : String) (i j k L : ℤ) (Ls : List ℤ) : ℂ :=
  let s := ι.sym (mandelstam k)
  let m := ι.sym (massNamed R)
  let width (w a b : Sym) (L : ℤ) : ℂ := ι.sym w * m / s ^ (1 / 2 : ℂ) *
    ι.ff s (ι.sym a) (ι.sym b) L (ι.sym (radiusNamed R)) ^ 2
  width (widthNamed R) (massOfState i) (massOfState j) L +
    ((Ls.zipIdx 2).map fun x =>
      width (widthOfChannel R x.2) (firstMassOfChannel x.2) (secondMassOfChannel x.2) x.1).sum

/-- Value of a `MultichannelBreitWigner` function: a Breit-Wigner function with this width. -/
noncomputable def multichannelLine (ι : Interp) (R : String) (i j k L : ℤ) (Ls : List ℤ) : ℂ :=
  breitWignerValue (ι.sym (mandelstam k)) (ι.sym (massNamed R)) (multichannelWidthValue ι R i j k L Ls)

end Verif.Serialization
