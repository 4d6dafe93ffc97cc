import Verif.Model.Order

/-!
Model of `/repo/src/ampform_dpd/io/serialization/format.py` and
`/repo/src/ampform_dpd/io/serialization/decay.py`.

A model definition is a nested JSON object; it is represented by the records below, with an `Option` for
each key that the code treats as optional or that not every kind of object has.

Simplifications:
* A text for a rational number is represented by the number, or `none` if `sp.Rational` does not
  accept it. `weight` is represented in the same way by real and imaginary part, or `none` if
  `complex(...)` does not accept the text.
* A `node` or `topology` is a list whose items are integers or lists of this kind.
* Required keys are present (otherwise the code raises `KeyError`).
* Numbers are exact rationals.
* Warnings are only modelled in `getDistributionDef`.
-/
namespace Verif.Serialization
open Verif Verif.ThreeBody

/-- `FinalStateID | Node` and `FinalStateID | Topology` (format.py:42, 80): an ID or a list. -/
inductive Tree where
  | id (i : ℤ)
  | seq (items : List Tree)
  deriving Repr

/-- `isinstance(i, int)` (decay.py:82, 84, 95, 151, ...). -/
def Tree.isInt : Tree → Bool
  | .id _ => true
  | .seq _ => false

/-- `all(isinstance(i, int) for i in node)` (io/serialization/decay.py:95, io/serialization/amplitude.py:168,
233, 316, io/serialization/dynamics.py:84, 179, 196). -/
def allInt (node : List Tree) : Bool := node.all Tree.isInt

/-- `sp.Rational(text)`; raises `TypeError` for other texts (io/serialization/decay.py:59, 139,
io/serialization/amplitude.py:137, 174, 242, 261, 282, 291, 332, 343). -/
def toRational : Option ℚ → Py ℚ
  | some q => .ok q
  | none => .error .typeError

/-- `StateDefinition` (format.py:90-94). -/
structure StateDefinition where
  index : ℤ
  name : String
  spin : Option ℚ
  mass : ℚ

/-- `KinematicsDefinition` (format.py:85-87). -/
structure Kinematics where
  initialState : StateDefinition
  finalState : List StateDefinition

/-- `Propagator` (format.py:55-58). -/
structure Propagator where
  spin : Option ℚ
  node : List Tree
  parametrization : String

/-- `Vertex`, `HelicityVertex`, `ParityVertex`, `LSVertex` (format.py:61-77). -/
structure Vertex where
  type : String
  node : List Tree
  formfactor : Option String := none
  helicities : Option (List (Option ℚ)) := none
  parityFactor : Option String := none
  l : Option ℤ := none
  s : Option (Option ℚ) := none

/-- `DecayChain` (format.py:46-52). -/
structure ChainDefinition where
  name : String
  propagators : List Propagator
  vertices : List Vertex
  topology : List Tree
  weight : Option (ℚ × ℚ)

/-- `Distribution` with its `DecayDescription` (format.py:27-39). -/
structure Distribution where
  kinematics : Kinematics
  referenceTopology : List Tree
  chains : List ChainDefinition

/-- `FunctionDefinition` and its subclasses (format.py:97-126): numeric fields by key, and the
channels of a multichannel Breit-Wigner. -/
structure FunctionDefinition where
  name : String
  type : String
  fields : PyDict String ℚ := []
  channels : Option (List (PyDict String ℚ)) := none

/-- `ModelDefinition` (format.py:19-24). -/
structure ModelDefinition where
  distributions : List Distribution
  functions : List FunctionDefinition

/-- `get_distribution_def` (format.py:134-143); the boolean says whether a warning is emitted. -/
def getDistributionDef (m : ModelDefinition) : Py (Distribution × Bool) :=
  match m.distributions with
  | [] => .error .valueError
  | d :: _ => .ok (d, decide (m.distributions.length > 1))

/-- `get_decay_chains` (format.py:129-131). -/
def getDecayChains (m : ModelDefinition) : Py (List ChainDefinition) := do
  return (← getDistributionDef m).1.chains

/-- `get_function_definition` (format.py:146-158). -/
def getFunctionDefinition (name : String) (m : ModelDefinition) : Py FunctionDefinition :=
  match m.functions.find? fun f => f.name = name with
  | some f => .ok f
  | none => .error .keyError

/-- `get_reference_topology` (format.py:161-163). -/
def getReferenceTopology (m : ModelDefinition) : Py (List Tree) := do
  return (← getDistributionDef m).1.referenceTopology

/-! ### decay.py -/

/-- `lambda x: x` (decay.py:55, 133) and `identity_function` (dynamics.py:31-32). -/
def identityFunction (x : String) : String := x

/-- `_to_particle` (decay.py:129-142). -/
def toParticle (d : StateDefinition) (toLatex : String → String) : Py State := do
  let spin ← toRational d.spin
  State.new d.name (toLatex d.name) spin none d.mass 0 d.index

/-- `get_initial_state` (decay.py:109-115). -/
def getInitialState (m : ModelDefinition) (toLatex : String → String) : Py State := do
  let d ← getDistributionDef m
  toParticle d.1.kinematics.initialState toLatex

/-- `get_final_state` (decay.py:118-126). -/
def getFinalState (m : ModelDefinition) (toLatex : String → String) : Py (PyDict ℤ State) := do
  let d ← getDistributionDef m
  let states ← d.1.kinematics.finalState.mapM fun p => toParticle p toLatex
  return PyDict.ofItems (states.map fun p => (p.index, p))

/-- `get_states` (decay.py:101-106). -/
def getStates (m : ModelDefinition) (toLatex : String → String) : Py (PyDict ℤ State) := do
  let initial ← getInitialState m toLatex
  let final ← getFinalState m toLatex
  return PyDict.update [(initial.index, initial)] final

/-- The first integer in a node (decay.py:83-85). -/
def firstInt : List Tree → Option ℤ
  | [] => none
  | .id i :: _ => some i
  | .seq _ :: t => firstInt t

/-- `__find_spectator_id` (decay.py:79-87). -/
def findSpectatorId : List Vertex → Py ℤ
  | [] => .error .valueError
  | v :: t =>
    if v.node.any fun i => !i.isInt then
      match firstInt v.node with
      | some i => .ok i
      | none => findSpectatorId t
    else findSpectatorId t

/-- `__find_decay_product_ids` (decay.py:90-98). -/
def findDecayProductIds : List Vertex → Py (ℤ × ℤ)
  | [] => .error .valueError
  | v :: t =>
    match v.node with
    | [.id i, .id j] => .ok (i, j)
    | _ => findDecayProductIds t

/-- `chain_definition["propagators"][0]["spin"]` as number (decay.py:59, amplitude.py:137). -/
def resonanceSpin (c : ChainDefinition) : Py ℚ :=
  match c.propagators with
  | [] => .error .indexError
  | p :: _ => toRational p.spin

/-- `to_decay_chain` (decay.py:47-76). -/
def toDecayChain (c : ChainDefinition) (initial : State) (final : PyDict ℤ State)
    (toLatex : String → String) : Py Chain := do
  let resonance ← Particle.new c.name (toLatex c.name) (← resonanceSpin c) none 0 0
  let ids ← findDecayProductIds c.vertices
  let spectatorId ← findSpectatorId c.vertices
  let child1 ← PyDict.get final ids.1
  let child2 ← PyDict.get final ids.2
  let spectator ← PyDict.get final spectatorId
  Chain.new (.isobar (.state initial)
    (.isobar (.particle resonance) (.leaf (.state child1)) (.leaf (.state child2)) none)
    (.leaf (.state spectator)) none)

/-- `to_decay` (decay.py:33-44). -/
def toDecay (m : ModelDefinition) (toLatex : String → String) : Py Decay := do
  let initial ← getInitialState m toLatex
  let final ← getFinalState m toLatex
  let states ← getStates m toLatex
  let chains ← (← getDecayChains m).mapM fun c => toDecayChain c initial final toLatex
  let chains ← pySorted chainKey chainComparable (pySet id chains)
  Decay.new states chains

/-- `get_spectator_id` (decay.py:145-155). -/
def getSpectatorId (topology : List Tree) : Py ℤ :=
  match (topology.filterMap fun | .id i => some i | .seq _ => none).dedup with
  | [k] => .ok k
  | _ => .error .valueError

end Verif.Serialization
