import Verif.Spec.SerialAmplitude
import Verif.Spec.Closure

/-!
Values of the weights of a serialized model.
-/
namespace Verif.Serialization
open Verif Verif.ThreeBody Verif.Spec

/-- Two evaluations that differ in the values of the weights of the chains only. -/
def SameExceptWeights (tl : String → String) (D : Distribution) (rd : ChainDefinition → Reading)
    (ι ι' : Interp) : Prop :=
  SameFunctions ι ι' ∧
    ∀ s, (∀ c ∈ D.chains, s ≠ weightSymbol tl c (rd c)) → ι.sym s = ι'.sym s

/-- The lineshapes and form factors have the same values for all values of the weights. -/
def WeightFree (m : ModelDefinition) (tl : String → String)
    (add : Option (PyDict String PropagatorBuilder)) (D : Distribution) (rd : ChainDefinition → Reading)
    (ι : Interp) : Prop :=
  ∃ line form, ∀ ι', SameExceptWeights tl D rd ι ι' → DynamicsValues m D.chains tl add ι' line form

/-- Two serialized models of the same decay, with the same functions and reference topology, that may
differ in their chains. -/
structure SameSetup (m m' : ModelDefinition) (D D' : Distribution) : Prop where
  head : ∃ rest, m.distributions = D :: rest
  head' : ∃ rest, m'.distributions = D' :: rest
  kinematics : D'.kinematics = D.kinematics
  reference : D'.referenceTopology = D.referenceTopology
  functions : m'.functions = m.functions

/-- A chain definition with its weight multiplied by `x + i y`. -/
def rescale (x y : ℚ) (c : ChainDefinition) : ChainDefinition :=
  { c with weight := c.weight.map fun w => (x * w.1 - y * w.2, x * w.2 + y * w.1) }

/-- The symbols have the values of `parameter_defaults`. -/
def AtDefaults (a : AmplitudeModel) (ι : Interp) : Prop :=
  ∀ s v, PyDict.get? a.parameterDefaults (.sym s) = some v → ι.sym s = v.toC

end Verif.Serialization
