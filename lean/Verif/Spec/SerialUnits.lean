import Verif.Spec.SerialDynamics
import Verif.Spec.Closure

/-! Specification of a change of the unit of mass for serialized models (C104). -/
namespace Verif.Serialization
open Verif Verif.ThreeBody Verif.Spec

/-- A symbol of a serialized model with its mass dimension: Mandelstam variables have dimension 2, masses and
widths 1 and meson radii -1. -/
inductive SerialDim : Sym → ℤ → Prop
  | mandelstam (k) : SerialDim (mandelstam k) 2
  | stateMass (i) : SerialDim (massOfState i) 1
  | mass (R) : SerialDim (massNamed R) 1
  | width (R) : SerialDim (widthNamed R) 1
  | channelWidth (R n) : SerialDim (widthOfChannel R n) 1
  | firstMass (n) : SerialDim (firstMassOfChannel n) 1
  | secondMass (n) : SerialDim (secondMassOfChannel n) 1
  | resonanceRadius : SerialDim resonanceRadius (-1)
  | radius (R) : SerialDim (radiusNamed R) (-1)

/-- `ι'` describes the kinematic point and the parameters of `ι` in a unit of mass that is smaller by the
factor `t`: masses and widths are multiplied by `t`, Mandelstam variables by `t²` and meson radii by `1/t`.
The weights of the chains and the functions are the same. -/
structure SerialRescaled (t : ℝ) (toLatex : String → String) (chains : List ChainDefinition)
    (rd : ChainDefinition → Reading) (ι ι' : Interp) : Prop where
  functions : SameFunctions ι ι'
  weights : ∀ c ∈ chains, ι'.sym (weightSymbol toLatex c (rd c)) = ι.sym (weightSymbol toLatex c (rd c))
  symbols : ∀ s d, SerialDim s d → ι'.sym s = (t : ℂ) ^ d * ι.sym s

/-- Each chain has one propagator, for two of the final states. -/
def OnePropagator (D : Distribution) : Prop :=
  ∀ c ∈ D.chains, ∃ p i j k, c.propagators = [p] ∧ p.node = [.id i, .id j] ∧ [i, j, k].Perm [1, 2, 3]

/-- No production vertex `[[i, j], k]` has a form factor (an empty name stands for none). -/
def NoProductionFormFactor (D : Distribution) : Prop :=
  ∀ c ∈ D.chains, ∀ v ∈ c.vertices, ∀ a b k, ProductionNode v.node a b k →
    v.formfactor = none ∨ v.formfactor = some ""

end Verif.Serialization
