import Verif.Model.ExprEval
import Verif.Spec.Builder
import Mathlib.Data.Fintype.BigOperators
import Mathlib.Algebra.BigOperators.Pi

/-!
Specification of the amplitude and the intensity in the Dalitz-plot decomposition, as complex
numbers. `ι` gives the values of all symbols and the functions of SymPy and AmpForm.
-/
namespace Verif.Spec
open Verif Verif.ThreeBody

/-- `-j, -j+1, ..., j`. -/
def projections (j : ℚ) : Finset ℚ :=
  (Finset.range (⌊2 * j⌋ + 1).toNat).image fun n : ℕ => -j + n

/-- All helicity combinations of the four states. -/
def helicities (d : Decay) : Finset (Fin 4 → ℚ) :=
  Fintype.piFinset fun i => projections (d.spin i)

/-- The subsystems that have chains, by the ID of the spectator. -/
def subsystems (d : Decay) : Finset ℤ := (d.chains.map fun c => c.spectator.index).toFinset

/-- The phase `(-1)^x = exp(i π x)`. -/
noncomputable def minusOnePow (x : ℚ) : ℂ := Complex.exp (Real.pi * Complex.I * (x : ℂ))

/-- Clebsch-Gordan factor of a vertex `J → 1 2` in the LS basis:
`√((2L+1)/(2J+1)) ⟨L 0 S λ₁-λ₂ | J λ₁-λ₂⟩ ⟨s₁ λ₁ s₂ -λ₂ | S λ₁-λ₂⟩`. -/
noncomputable def lsFactor (ι : Interp) (J s1 s2 : ℚ) (ls : LS) (h1 h2 : ℚ) : ℂ :=
  (((2 * ls.L + 1) / (2 * J + 1) : ℚ) : ℂ) ^ (1 / 2 : ℂ) *
    ι.cg ls.L 0 ls.S (h1 - h2) J (h1 - h2) * ι.cg s1 h1 s2 (-h2) ls.S (h1 - h2)

/-- Indices of a coupling: the helicities of the two children, or `L` and `S`. -/
def couplingIndices (hel : Bool) (ls : Option LS) (h1 h2 : ℚ) : List ℚ :=
  match hel, ls with
  | true, _ => [h1, h2]
  | false, some x => [x.L, x.S]
  | false, none => []

/-- Name of the production or decay couplings. -/
def couplingName (hel : Bool) (vertex : String) : String :=
  if hel then "\\mathcal{H}^\\mathrm{" ++ vertex ++ "}"
  else "\\mathcal{H}^\\mathrm{LS," ++ vertex ++ "}"

/-- Name of the coefficients that replace the product of the couplings. -/
def coefficientName (R : String) (prodHel decHel : Bool) : String :=
  match prodHel, decHel with
  | true, true => "\\mathcal{H}^\\mathrm{" ++ R ++ "}"
  | true, false => "\\mathcal{H}^\\mathrm{LS,\\lambda," ++ R ++ "}"
  | false, true => "\\mathcal{H}^\\mathrm{\\lambda,LS," ++ R ++ "}"
  | false, false => "\\mathcal{H}^\\mathrm{LS," ++ R ++ "}"

/-- The couplings of a chain: production times decay coupling, or one coefficient. -/
noncomputable def couplings (ι : Interp) (b : Builder) (c : Chain) (useCoefficients : Bool)
    (lR lk li lj : ℚ) : ℂ :=
  let R := c.resonance.toP.latex
  let p := couplingIndices b.useProdHel c.incomingLs lR lk
  let q := couplingIndices b.useDecHel c.outgoingLs li lj
  if useCoefficients then ι.idx (coefficientName R b.useProdHel b.useDecHel) none (p ++ q)
  else ι.idx (couplingName b.useProdHel "production") (some R) p *
    ι.idx (couplingName b.useDecHel "decay") (some R) q

/-- The resonance is written before the spectator in the production node. -/
def ResonanceFirst (c : Chain) : Prop := ∃ p r a1 a2 x n y, c.decay = .isobar p (.isobar r a1 a2 x) n y

open Classical in
/-- Factor of the production vertex. -/
noncomputable def productionFactor (ι : Interp) (b : Builder) (c : Chain) (lR lk : ℚ) : ℂ :=
  match b.useProdHel, c.incomingLs with
  | true, _ => 1
  | false, none => 1
  | false, some ls =>
    if ResonanceFirst c then
      lsFactor ι c.parent.spin c.resonance.toP.spin c.spectator.spin ls lR lk
    else lsFactor ι c.parent.spin c.spectator.spin c.resonance.toP.spin ls lk lR

/-- Factor of the decay vertex; `l` are the helicities of the final states by ID. -/
noncomputable def decayFactor (ι : Interp) (b : Builder) (c : Chain) (l : ℤ → ℚ) : ℂ :=
  match b.useDecHel, c.outgoingLs with
  | true, _ => 1
  | false, none => 1
  | false, some ls => lsFactor ι c.resonance.toP.spin c.product1.spin c.product2.spin ls
      (l c.product1.index) (l c.product2.index)

open Classical in
/-- Contribution of a chain with spectator `k` and decay products `i`, `j` to `A^k[l]`. The
resonance has helicity `λ0 + λk`; there is no contribution if this is not a projection of its
spin. -/
noncomputable def chainValue (ι : Interp) (b : Builder) (useCoefficients : Bool) (lineshape : Chain → ℂ)
    (i j k : ℤ) (l : ℤ → ℚ) (c : Chain) : ℂ :=
  if Projection c.resonance.toP.spin (l 0 + l k) then
    minusOnePow (b.decay.spin k - l k) * minusOnePow (b.decay.spin j - l j) * lineshape c *
      ι.wig c.resonance.toP.spin (l 0 + l k) (l i - l j)
        (ι.sym ⟨"theta_" ++ toString i ++ toString j, .real⟩) *
      couplings ι b c useCoefficients (l 0 + l k) (l k) (l i) (l j) *
      decayFactor ι b c l * productionFactor ι b c (l 0 + l k) (l k)
  else 0

/-- The value of a lineshape does not depend on helicity symbols. -/
def HelicityFree (e : Expr) : Prop := ∀ (ι : Interp) (η η' : Sym → ℚ), e.eval ι η = e.eval ι η'

/-- The symbol of `ζ^i_{k(ref)}`. -/
def zetaSymbol (i k ref : ℤ) : Sym :=
  ⟨"\\zeta^" ++ toString i ++ "_{" ++ toString k ++ "(" ++ toString ref ++ ")}", .real⟩

/-- Alignment rotation of state `i` from subsystem `k` to the reference subsystem: no rotation for
spin 0. -/
noncomputable def rotation (ι : Interp) (d : Decay) (ref k : ℤ) (i : Fin 4) (m m' : ℚ) : ℂ :=
  if d.spin i = 0 then 1 else ι.wig (d.spin i) m m' (ι.sym (zetaSymbol i k ref))

/-- The aligned amplitude: `Σ_λ' Σ_k A^k[λ'] d(λ0, λ0') Π_i d(λi', λi)`, where `A k λ'` are the
values of the subsystem amplitudes. -/
noncomputable def aligned (ι : Interp) (d : Decay) (ref : ℤ) (A : ℤ → (Fin 4 → ℚ) → ℂ)
    (l : Fin 4 → ℚ) : ℂ :=
  ∑ l' ∈ helicities d, ∑ k ∈ subsystems d,
    A k l' * rotation ι d ref k 0 (l 0) (l' 0) * rotation ι d ref k 1 (l' 1) (l 1) *
      rotation ι d ref k 2 (l' 2) (l 2) * rotation ι d ref k 3 (l' 3) (l 3)

/-- The intensity: the aligned amplitude squared, summed over the helicities. -/
noncomputable def intensity (ι : Interp) (d : Decay) (ref : ℤ) (A : ℤ → (Fin 4 → ℚ) → ℂ) : ℝ :=
  ∑ l ∈ helicities d, ‖aligned ι d ref A l‖ ^ 2

/-- The aligned amplitude, with the subsystems `S`. -/
noncomputable def alignedOver (ι : Interp) (d : Decay) (S : Finset ℤ) (ref : ℤ)
    (A : ℤ → (Fin 4 → ℚ) → ℂ) (l : Fin 4 → ℚ) : ℂ :=
  ∑ l' ∈ helicities d, ∑ k ∈ S,
    A k l' * rotation ι d ref k 0 (l 0) (l' 0) * rotation ι d ref k 1 (l' 1) (l 1) *
      rotation ι d ref k 2 (l' 2) (l 2) * rotation ι d ref k 3 (l' 3) (l 3)

/-- The intensity, with the subsystems `S`. -/
noncomputable def intensityOver (ι : Interp) (d : Decay) (S : Finset ℤ) (ref : ℤ)
    (A : ℤ → (Fin 4 → ℚ) → ℂ) : ℝ :=
  ∑ l ∈ helicities d, ‖alignedOver ι d S ref A l‖ ^ 2

/-- The amplitude symbol `A^k[λ0, λ1, λ2, λ3]`. -/
def amplitudeSymbol (k : ℤ) (l : Fin 4 → ℚ) : Indexed :=
  ⟨"A^" ++ toString k, none, [.num (l 0), .num (l 1), .num (l 2), .num (l 3)]⟩

/-- Value of the amplitude symbol itself. -/
noncomputable def symbolValue (ι : Interp) (k : ℤ) (l : Fin 4 → ℚ) : ℂ :=
  ι.idx ("A^" ++ toString k) none [l 0, l 1, l 2, l 3]

/-- Value of the expression that the model defines for an amplitude symbol. -/
noncomputable def definedValue (m : AmplitudeModel) (ι : Interp) (η : Sym → ℚ) (k : ℤ)
    (l : Fin 4 → ℚ) : ℂ :=
  match PyDict.get? m.amplitudes (amplitudeSymbol k l) with
  | some e => e.eval ι η
  | none => 0

end Verif.Spec
