import Mathlib.MeasureTheory.Integral.IntervalIntegral.Basic
import Verif.Spec.Projection
import Verif.Spec.SerialBound
import Verif.Spec.SerialWeights

/-! Specification for C116: projections of serialized models on the mass of the resonances of one subsystem. -/
namespace Verif.Serialization
open Verif Verif.ThreeBody Verif.Spec

/-- Weight, couplings of the vertices, lineshape and form factors of a chain, for final state helicities `l`. -/
noncomputable def serialStrength (ι : Interp) (toLatex : String → String) (line : ChainDefinition → ℂ)
    (form : Vertex → ℂ) (l : ℤ → ℚ) (c : ChainDefinition) (r : Reading) : ℂ :=
  ι.sym (weightSymbol toLatex c r) * (c.vertices.map fun v => vertexValue v r.lR l).prod *
    (line c * (c.vertices.map form).prod)

/-- The spins of the resonances. -/
def serialSpins (D : Distribution) : Finset ℚ := (D.chains.map chainSpin).toFinset

/-- All chains are in subsystem `k`, with decay products `i` and `j`. -/
def InSubsystem (D : Distribution) (rd : ChainDefinition → Reading) (i j k : ℤ) : Prop :=
  ∀ c ∈ D.chains, IsSpectator c.topology k ∧ (rd c).i = i ∧ (rd c).j = j

/-- Chains that contribute for the same helicities of the final state have the same helicity `λR` of the resonance and the
same difference `λi - λj` according to their vertices. -/
def CommonHelicities (D : Distribution) (rd : ChainDefinition → Reading) : Prop :=
  ∀ c ∈ D.chains, ∀ c' ∈ D.chains, ∀ l : ℤ → ℚ, (∀ v ∈ c.vertices, vertexValue v (rd c).lR l ≠ 0) →
    (∀ v ∈ c'.vertices, vertexValue v (rd c').lR l ≠ 0) →
    (rd c).lR = (rd c').lR ∧ (rd c).li - (rd c).lj = (rd c').li - (rd c').lj

/-- Integral over the cosine of the angle `θ_ij`, where all other symbols have the values of `ι`. -/
noncomputable def angleIntegral (ι : Interp) (i j : ℤ) (e : Expr) (η : Sym → ℚ) : ℂ :=
  ∫ x in (0 : ℝ)..Real.pi, e.eval (withSymbol ι (decayAngle i j) x) η * (Real.sin x : ℂ)

end Verif.Serialization
