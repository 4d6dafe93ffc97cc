import Verif.Model.Builder
import Verif.Spec.Closure

/-! Specification for C132: models whose parameters can be inserted. -/
namespace Verif.Spec
open Verif Verif.ThreeBody

/-- The parameters of the model are symbols, and none of them has the name of an angle or of a Mandelstam variable. -/
structure OrdinaryParameters (a : AmplitudeModel) : Prop where
  symbols : ∀ k ∈ PyDict.keys a.parameterDefaults, ∃ s, k = .sym s
  angles : ∀ s ∈ PyDict.keys a.angleDefs, Key.sym s ∉ PyDict.keys a.parameterDefaults
  mandelstam : ∀ n ∈ ([1, 2, 3] : List ℤ), Key.sym ⟨"sigma" ++ toString n, .nonneg⟩ ∉ PyDict.keys a.parameterDefaults

/-- The values of `ι`, but with the default values for the parameters of the model. -/
noncomputable def atDefaults (a : AmplitudeModel) (ι : Interp) : Interp :=
  { ι with sym := fun s => ((PyDict.get? a.parameterDefaults (.sym s)).map Val.toC).getD (ι.sym s) }

end Verif.Spec
