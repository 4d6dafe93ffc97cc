import Verif.Model.Serialization
import Mathlib.Data.Finset.Card

/-!
The IDs of the states in a decay and in a model definition (C124).
-/
namespace Verif
open ThreeBody Serialization

/-- The IDs of the states of a decay. -/
def decayIds (d : Decay) : Finset ℤ := (d.states.map Prod.fst).toFinset

/-- The indices of the initial and final state in the kinematics of a serialized distribution. -/
def kinematicsIds (k : Kinematics) : Finset ℤ := insert k.initialState.index (k.finalState.map (·.index)).toFinset

end Verif
