import Verif.Spec.Bound
import Verif.Spec.SerialAmplitude

/-! Specification for C115: upper bounds on the intensity of a serialized model. -/
namespace Verif.Serialization
open Verif Verif.ThreeBody Verif.Spec

/-- Number of helicity configurations with a coupling: a parity vertex also couples to the opposite helicities. -/
def vertexCopies (v : Vertex) : ℝ := if v.type = "parity" then 2 else 1

/-- The helicities of the resonance and of the decay products according to the vertices are projections of the spin of the
resonance. -/
structure PossibleHelicities (c : ChainDefinition) (r : Reading) : Prop where
  spin : IsHalfInteger (chainSpin c)
  resonance : Projection (chainSpin c) r.lR
  products : Projection (chainSpin c) (r.li - r.lj)

end Verif.Serialization
