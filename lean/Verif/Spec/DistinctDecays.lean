import Verif.Model.Decay

/-! Specification for C133. -/
namespace Verif.Spec
open Verif Verif.ThreeBody

/-- Two chains show the same decay: the same resonance to particles with the same names. -/
def SameDecay (c c' : Chain) : Prop :=
  c.resonance = c'.resonance ∧ c.product1.name = c'.product1.name ∧ c.product2.name = c'.product2.name

end Verif.Spec
