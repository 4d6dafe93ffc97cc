import Verif.Spec.SerialAmplitude

/-! Specification of deserialized models for spinless particles. -/
namespace Verif.Serialization
open Verif Verif.ThreeBody Verif.Spec

/-- All four states have spin 0. -/
def Spinless (D : Distribution) : Prop :=
  ∀ d ∈ D.kinematics.initialState :: D.kinematics.finalState, d.spin = some 0

/-- All helicities in the vertices are 0. -/
def Reading.Zero (r : Reading) : Prop := r.lR = 0 ∧ r.lk = 0 ∧ r.li = 0 ∧ r.lj = 0

open Classical in
/-- Factor of a vertex all of whose helicities are 0: a parity vertex counts both of its terms, so that it is 2 or
0; any other vertex is 1. -/
noncomputable def scalarFactor (v : Vertex) : ℂ :=
  if v.type = "parity" then 1 + (parityValue v.parityFactor : ℂ) else 1

/-- Contribution of a chain: weight, vertex factors, `d^J_{00}` of the angle between the decay products, lineshape and
form factors. -/
noncomputable def spinlessValue (ι : Interp) (toLatex : String → String) (line : ChainDefinition → ℂ)
    (form : Vertex → ℂ) (c : ChainDefinition) (r : Reading) : ℂ :=
  ι.sym (weightSymbol toLatex c r) * (c.vertices.map scalarFactor).prod *
    ι.wig (chainSpin c) 0 0 (ι.sym ⟨"theta_" ++ toString r.i ++ toString r.j, .real⟩) *
    (line c * (c.vertices.map form).prod)

/-- The chain of a decay and a chain definition describe the same process: the same resonance and the same decay
products. -/
def Describes (c : ChainDefinition) (r : Reading) (ch : Chain) : Prop :=
  ch.resonance.toP.name = c.name ∧ ch.product1.index = r.i ∧ ch.product2.index = r.j

/-- The chain definition describes this chain of a decay: same resonance with the same spin, same decay products. -/
def SameChain (c : ChainDefinition) (r : Reading) (ch : Chain) : Prop :=
  Describes c r ch ∧ ch.resonance.toP.spin = chainSpin c

/-- The final states have the helicities of the vertices. -/
def Reading.At (r : Reading) (l : ℤ → ℚ) : Prop := l r.i = r.li ∧ l r.j = r.lj ∧ l r.k = r.lk

open Classical in
/-- Coupling of a chain for helicities `l` of the final states, according to a serialized model: weight, lineshape and
form factors, summed over the chain definitions with this chain and these helicities. -/
noncomputable def serialCoupling (ι : Interp) (toLatex : String → String) (line : ChainDefinition → ℂ)
    (form : Vertex → ℂ) (chains : List ChainDefinition) (rd : ChainDefinition → Reading) (ch : Chain)
    (l : ℤ → ℚ) : ℂ :=
  (chains.map fun c => if SameChain c (rd c) ch ∧ (rd c).At l then
    ι.sym (weightSymbol toLatex c (rd c)) * (line c * (c.vertices.map form).prod) else 0).sum

/-- No parity vertices, the helicity of the resonance is that of the spectator (as for a decay of a particle of
spin 0), it is one that the resonance can have, and the decay products are in the order in which
`DalitzPlotDecompositionBuilder` takes them. -/
structure FromSpinZero (c : ChainDefinition) (r : Reading) : Prop where
  vertices : ∀ v ∈ c.vertices, v.type ≠ "parity"
  helicity : r.lR = r.lk
  projection : Projection (chainSpin c) r.lR
  order : EvenPerm r.i r.j r.k

end Verif.Serialization
