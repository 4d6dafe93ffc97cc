import Verif.Proofs.Lc2ppiK
import Verif.Model.SerialAmplitude

/-!
The assertions of `/repo/tests/io_serialization` on the model of the code. These are tests of the model
against the expectations of the authors of the code, not proofs of a property.
-/
namespace Verif.Serialization
open Verif Verif.ThreeBody

/-- The returned value satisfies the test. -/
def returns {α : Type} (x : Py α) (test : α → Bool) : Bool :=
  match x with
  | .ok a => test a
  | .error _ => false

/-! ### test_amplitude.py -/

-- `test_get_decay_product_helicities` (test_amplitude.py:22-27)
#guard getDecayProductHelicities lc0.vertices = .ok ((3, 0), (1, 1 / 2))
#guard getDecayProductHelicities lc15.vertices = .ok ((1, 1 / 2), (2, 0))
#guard getDecayProductHelicities lc25.vertices = .ok ((2, 0), (3, 0))

-- `test_get_existing_subsystem_ids` (test_amplitude.py:30-31)
#guard getExistingSubsystemIds lcModel = .ok [1, 2, 3]

-- `test_get_final_state_helicities` (test_amplitude.py:34-42)
#guard lcChains.length = 26
#guard (List.range 26).all fun n => returns (item lcChains n) fun c => getFinalStateHelicities c =
  .ok [(1, if n ∈ [19, 20, 22, 25] then -1 / 2 else 1 / 2), (2, 0), (3, 0)]

-- `test_get_resonance_helicity` (test_amplitude.py:45-56)
#guard returns (getResonanceHelicity lc0.vertices) fun | ([.id 3, .id 1], q) => q = 1 / 2 | _ => false
#guard returns (getResonanceHelicity lc1.vertices) fun | ([.id 3, .id 1], q) => q = -1 / 2 | _ => false
#guard returns (getResonanceHelicity lc25.vertices) fun | ([.id 2, .id 3], q) => q = 0 | _ => false

-- `test_get_weight` (test_amplitude.py:59-63)
#guard getWeight lc0 identityFunction = .ok (⟨"c^{L1405[1/2]}_{\\frac{1}{2}, 0, 0}", .none⟩,
  .cplx (738649400481717 / 100000000000000) (1971018433257411 / 1000000000000000))

/-! ### test_decay.py -/

-- `test_get_final_state` (test_decay.py:21-25)
#guard returns (getFinalState lcModel identityFunction) fun s =>
  s.keys = [1, 2, 3] && s.map (·.2.name) = ["p", "pi", "K"]

-- `test_get_initial_state` (test_decay.py:28-35)
#guard returns (getInitialState lcModel identityFunction) fun s => s.index = 0 && s.name = "Lc" &&
  s.latex = "Lc" && s.spin = 1 / 2 && s.mass = 228646 / 100000 && s.parity = none

-- `test_get_states` (test_decay.py:38-41)
#guard returns (getStates lcModel identityFunction) fun s =>
  s.map (fun x => (x.1, x.2.name)) = [(0, "Lc"), (1, "p"), (2, "pi"), (3, "K")]

-- `test_to_decay` (test_decay.py:44-62)
#guard returns (toDecay lcModel identityFunction) fun d =>
  returns (initialState d.states) (fun s => s.name = "Lc") &&
  ((finalStateDict d.states).map fun s => s.2.name) = ["p", "pi", "K"] &&
  d.chains.length = 12 &&
  (d.chains.map fun c => c.resonance.toP.name) = ["D1232", "D1600", "D1700", "K1430", "K700", "K892",
    "L1405", "L1520", "L1600", "L1670", "L1690", "L2000"]

-- `test_to_decay_chain` (test_decay.py:65-75)
#guard returns (do
    let initial ← getInitialState lcModel identityFunction
    let final ← getFinalState lcModel identityFunction
    toDecayChain lc0 initial final identityFunction) fun c =>
  c.resonance.toP.name = "L1405" && c.resonance.toP.spin = 1 / 2 &&
  (c.product1.name, c.product2.name) = ("K", "p") && c.spectator.name = "pi"

/-! ### test_format.py -/

/-- Equality of function definitions without channels, where the order of the fields does not matter. -/
def sameFunction (f : FunctionDefinition) (name type : String) (fields : List (String × ℚ)) : Bool :=
  f.name = name && f.type = type && f.channels.isNone && f.fields.length = fields.length &&
    fields.all fun x => f.fields.get? x.1 = some x.2

-- `test_get_function_definition_blatt_weisskopf` (test_format.py:8-22)
#guard returns (getFunctionDefinition "BlattWeisskopf_resonance_l1" lcModel) fun f =>
  sameFunction f "BlattWeisskopf_resonance_l1" "BlattWeisskopf" [("radius", 3 / 2), ("l", 1)]
#guard returns (getFunctionDefinition "BlattWeisskopf_resonance_l2" lcModel) fun f =>
  sameFunction f "BlattWeisskopf_resonance_l2" "BlattWeisskopf" [("radius", 3 / 2), ("l", 2)]

-- `test_get_function_definition_missing` (test_format.py:25-34), without the message
#guard match getFunctionDefinition "BlattWeiskopf" lcModel with
  | .error .keyError => true
  | _ => false

end Verif.Serialization
