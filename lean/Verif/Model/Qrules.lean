import Verif.Model.Order

/-!
Model of `/repo/src/ampform_dpd/adapter/qrules.py`, and of the parts of QRules that it uses
(`Edge`, `Topology`, `FrozenTransition`; qrules is not part of /repo, so these follow its
documentation).

Simplifications:
* The other attributes of a QRules particle (PID, charge, ...) are not modelled; neither are the
  projections and parity prefactor in `InteractionProperties`. They do not survive conversion.
* The node IDs of a topology are assumed to be `0, ..., n-1`; then the comparison `<` of the frozen
  sets of node IDs (proper subset) is the same as comparing their sorted tuples.
* A `frozenset` of edge IDs is iterated in ascending order.
* `ReactionInfo`, `ProblemSet`, `MutableTransition` and nested iterables are in
  `Model/QrulesContainers`.
-/
namespace Verif.Qrules
open Verif Verif.ThreeBody

/-- `qrules.topology.Edge` (used at adapter/qrules.py:248). -/
structure Edge where
  orig : Option ℤ
  dest : Option ℤ
  deriving DecidableEq, Repr

/-- `qrules.topology.Topology` (used at adapter/qrules.py:91-95, 247-252, 310-313, 380). -/
structure Topology where
  nodes : List ℤ
  edges : PyDict ℤ Edge
  deriving DecidableEq, Repr

/-- `qrules.topology.FrozenTransition` (used at adapter/qrules.py:40, 79-109, 122-134, 229-242). -/
structure Transition (E N : Type) where
  topology : Topology
  states : PyDict ℤ E
  interactions : PyDict ℤ N
  deriving DecidableEq

/-- `FrozenTransition.__init__`: every edge has a state, every node an interaction and there are no
others (called at adapter/qrules.py:122, 229, 294, 380). -/
def Transition.new {E N : Type} (t : Topology) (states : PyDict ℤ E) (interactions : PyDict ℤ N) :
    Py (Transition E N) :=
  if setEq t.nodes (PyDict.keys interactions) && setEq (PyDict.keys t.edges) (PyDict.keys states) then
    .ok ⟨t, states, interactions⟩
  else .error .valueError

/-- `Topology.incoming_edge_ids` (used by `initial_states`, adapter/qrules.py:47, 65, 82). -/
def Topology.incoming (t : Topology) : List ℤ :=
  sortedSet (PyDict.keys (t.edges.filter fun x => x.2.orig.isNone))

/-- `Topology.outgoing_edge_ids` (used by `final_states`, adapter/qrules.py:48, 70, 85, 394). -/
def Topology.outgoing (t : Topology) : List ℤ :=
  sortedSet (PyDict.keys (t.edges.filter fun x => x.2.dest.isNone))

/-- `Topology.intermediate_edge_ids` (used by `intermediate_states`, adapter/qrules.py:126, 201, 215). -/
def Topology.intermediate (t : Topology) : List ℤ :=
  sortedSet (PyDict.keys (t.edges.filter fun x => x.2.orig.isSome && x.2.dest.isSome))

/-- `Topology.get_edge_ids_outgoing_from_node`, sorted (qrules.py:92, 93). -/
def Topology.outOf (t : Topology) (node : ℤ) : List ℤ :=
  sortedSet (PyDict.keys (t.edges.filter fun x => x.2.orig = some node))

/-- `Topology.get_edge_ids_ingoing_to_node`, sorted (qrules.py:94). -/
def Topology.into (t : Topology) (node : ℤ) : List ℤ :=
  sortedSet (PyDict.keys (t.edges.filter fun x => x.2.dest = some node))

/-- `Topology.relabel_edges`: `{old_to_new.get(i, i): edge for i, edge in edges.items()}`
(adapter/qrules.py:313). -/
def Topology.relabelEdges (t : Topology) (oldToNew : PyDict ℤ ℤ) : Topology :=
  ⟨t.nodes, PyDict.ofItems (t.edges.map fun x => ((oldToNew.get? x.1).getD x.1, x.2))⟩

/-- `Topology.swap_edges` (adapter/qrules.py:380). -/
def Topology.swapEdges (t : Topology) (i j : ℤ) : Topology := t.relabelEdges [(i, j), (j, i)]

/-- `Topology.get_originating_final_state_edge_ids(node)`, breadth-first; one level of nodes per unit of
fuel. In a topology with `n` nodes there are at most `n` levels. An infinite loop (cyclic graph) is
reported as `RecursionError` (adapter/qrules.py:252). -/
def Topology.finalFrom (t : Topology) : ℕ → List ℤ → Py (List ℤ)
  | 0, _ => .error .recursionError
  | _ + 1, [] => .ok []
  | fuel + 1, ids => do
    let final := ids.filter fun i => i ∈ t.outgoing
    let next ← (ids.filter fun i => i ∉ t.outgoing).mapM fun i => do
      match (← PyDict.get t.edges i).dest with
      | some n => return t.outOf n
      | none => .error .valueError
    return final ++ (← t.finalFrom fuel next.flatten)

/-- `transition.filter_states(ids)`: `{i: states[i] for i in ids}` (used by the three properties at
adapter/qrules.py:47-48, 126). -/
def filterStates {E : Type} (states : PyDict ℤ E) (ids : List ℤ) : Py (PyDict ℤ E) :=
  ids.mapM fun i => do return (i, ← PyDict.get states i)

/-- `transition.initial_states` (adapter/qrules.py:47, 65, 82, 92). -/
def Transition.initialStates {E N : Type} (t : Transition E N) : Py (PyDict ℤ E) :=
  filterStates t.states t.topology.incoming

/-- `transition.final_states` (adapter/qrules.py:48, 70, 85, 394). -/
def Transition.finalStates {E N : Type} (t : Transition E N) : Py (PyDict ℤ E) :=
  filterStates t.states t.topology.outgoing

/-- `transition.intermediate_states` (adapter/qrules.py:126, 201, 215). -/
def Transition.intermediateStates {E N : Type} (t : Transition E N) : Py (PyDict ℤ E) :=
  filterStates t.states t.topology.intermediate

/-! ### Comparison -/

/-- The items of a `FrozenDict`, sorted by key: `FrozenDict`s are compared by these (`sorted` at
adapter/qrules.py:116, 383). -/
def dictItems {α : Type} (d : PyDict ℤ α) : List (ℤ × α) :=
  (sortedSet (PyDict.keys d)).filterMap fun k => (PyDict.get? d k).map fun v => (k, v)

/-- The items of `Topology.edges` that `<` compares (sorted at adapter/qrules.py:116, 383). -/
abbrev EdgesKey := List (ℤ ×ₗ WithBot ℤ ×ₗ WithBot ℤ)

/-- `Topology` as tuple (`sorted` at adapter/qrules.py:116, 383). -/
def Topology.key (t : Topology) : List ℤ ×ₗ EdgesKey :=
  toLex (t.nodes, (dictItems t.edges).map fun x => toLex (x.1, toLex (x.2.orig, x.2.dest)))

/-- Comparability of two `Edge`s (`sorted` at adapter/qrules.py:116, 383). -/
def edgeComparable (a b : Edge) : Bool :=
  if a.orig = b.orig then optComparable a.dest b.dest else optComparable a.orig b.orig

/-- Comparability of two topologies (`sorted` at adapter/qrules.py:116, 383). -/
def Topology.comparable (a b : Topology) : Bool :=
  if a.nodes ≠ b.nodes then true
  else listComparable (itemComparable edgeComparable) (dictItems a.edges) (dictItems b.edges)

/-- The tuple that `<` compares for a transition (sorted at adapter/qrules.py:116, 383). -/
abbrev TransitionKey :=
  (List ℤ ×ₗ EdgesKey) ×ₗ List (ℤ ×ₗ ObjKey) ×ₗ List (ℤ ×ₗ WithBot LSKey)

/-- A converted transition (qrules.py:115) as tuple. -/
def tkey (t : Transition Obj (Option LS)) : TransitionKey :=
  toLex (t.topology.key,
    toLex ((dictItems t.states).map fun x => toLex (x.1, objKey x.2),
      (dictItems t.interactions).map fun x => toLex (x.1, optLsKey x.2)))

/-- Comparability of two converted transitions (`sorted` at adapter/qrules.py:116). -/
def tcomparable (a b : Transition Obj (Option LS)) : Bool :=
  if a.topology.key ≠ b.topology.key then a.topology.comparable b.topology
  else if dictItems a.states ≠ dictItems b.states then
    listComparable (itemComparable objComparable) (dictItems a.states) (dictItems b.states)
  else listComparable (itemComparable optComparable) (dictItems a.interactions)
    (dictItems b.interactions)

/-! ### Conversion -/

/-- `qrules.particle.Particle` (adapter/qrules.py:142-149). -/
structure QParticle where
  name : String
  latex : Option String
  spin : ℚ
  parity : Option ℤ
  mass : ℚ
  width : ℚ
  deriving DecidableEq, Repr

/-- Objects on the edges of a transition: a QRules particle, a QRules state (particle and spin
projection), a `Particle` or `State` of `ampform_dpd`, or something else (adapter/qrules.py:137-171,
403-409). -/
inductive QObj where
  | particle (p : QParticle)
  | state (p : QParticle) (projection : ℚ)
  | dpd (o : Obj)
  | other
  deriving DecidableEq, Repr

/-- Objects on the nodes of a transition: `None`, an `LSCoupling`, QRules
`InteractionProperties` with `l_magnitude` and `s_magnitude`, or something else (adapter/qrules.py:174-187). -/
inductive QNode where
  | none
  | ls (x : LS)
  | props (l : Option ℤ) (s : Option ℚ)
  | other
  deriving DecidableEq, Repr

/-- The attributes `name`, `latex`, `spin`, `parity`, `mass` and `width` of an object, after taking
`.particle` of a QRules state (qrules.py:141-142, 154-155); `None` if it does not have them. -/
def QObj.attrs : QObj → Option QParticle
  | .particle p => some p
  | .state p _ => some p
  | .dpd o => some ⟨o.toP.name, some o.toP.latex, o.toP.spin, o.toP.parity, o.toP.mass, o.toP.width⟩
  | .other => none

/-- `int(particle.parity)` (qrules.py:147, 168). -/
def intParity : Option ℤ → Py ℤ
  | some p => .ok p
  | none => .error .typeError

/-- `_to_particle` (qrules.py:138-150). -/
def toParticle (o : QObj) : Py Particle :=
  match o.attrs with
  | none => .error .attributeError
  | some p => do
    let parity ← intParity p.parity
    Particle.new p.name (p.latex.getD p.name) p.spin (some parity) p.mass p.width

/-- `if isinstance(obj, State): index = obj.index` (qrules.py:156-157). -/
def QObj.indexOr (index : Option ℤ) : QObj → Option ℤ
  | .dpd (.state s) => some s.index
  | _ => index

/-- `_to_state` (qrules.py:153-172). -/
def toState (o : QObj) (index : Option ℤ) : Py State :=
  match o.indexOr index with
  | none => .error .valueError
  | some index =>
    match o.attrs with
    | none => .error .notImplementedError
    | some p => do
      let parity ← intParity p.parity
      State.new p.name (p.latex.getD p.name) p.spin (some parity) p.mass p.width index

/-- `_to_ls_coupling` (qrules.py:175-188). -/
def toLsCoupling : QNode → Py (Option LS)
  | .none => .ok none
  | .ls x => .ok (some x)
  | .other => .error .notImplementedError
  | .props (some l) (some s) => do return some (← LS.new l s)
  | .props _ _ => .ok none

/-- `_convert_transition` (qrules.py:119-135). -/
def convertTransition (t : Transition QObj QNode) : Py (Transition Obj (Option LS)) := do
  let states ← t.states.mapM fun x => do
    let intermediate ← t.intermediateStates
    if x.1 ∈ PyDict.keys intermediate then return (x.1, Obj.particle (← toParticle x.2))
    else return (x.1, Obj.state (← toState x.2 (some x.1)))
  let interactions ← t.interactions.mapM fun x => do return (x.1, ← toLsCoupling x.2)
  Transition.new t.topology states interactions

/-- `convert_transitions` (qrules.py:112-116). -/
def convertTransitions (ts : List (Transition QObj QNode)) :
    Py (List (Transition Obj (Option LS))) := do
  pySorted tkey tcomparable (pySet tkey (← ts.mapM convertTransition))

/-! ### Relabelling -/

/-- `{old: new for new, old in enumerate(sorted(obj.edges))}` (qrules.py:309). -/
def rankMapping (ids : List ℤ) : PyDict ℤ ℤ :=
  (sortedSet ids).zipIdx.map fun x => (x.1, (x.2 : ℤ))

/-- `normalize_state_ids` of a `Topology` (qrules.py:307-310). -/
def normalizeTopology (t : Topology) : Topology :=
  t.relabelEdges (rankMapping (PyDict.keys t.edges))

/-- `normalize_state_ids` of a transition (qrules.py:290-295). -/
def normalizeTransition {E N : Type} (t : Transition E N) : Py (Transition E N) := do
  let states ← (sortedSet (PyDict.keys t.states)).zipIdx.mapM fun x => do
    return ((x.2 : ℤ), ← PyDict.get t.states x.1)
  Transition.new (normalizeTopology t.topology) states t.interactions

/-- `normalize_state_ids` of an iterable of transitions (qrules.py:313-315). -/
def normalizeTransitions {E N : Type} (ts : List (Transition E N)) : Py (List (Transition E N)) :=
  ts.mapM normalizeTransition

/-! ### Minimal LS couplings -/

/-- `_get_decay_product_ids` (qrules.py:248-253). -/
def decayProductIds (t : Topology) (resonanceId : ℤ) : Py (List ℤ) := do
  match (← PyDict.get t.edges resonanceId).dest with
  | none => .error .valueError
  | some n => return sortedSet (← t.finalFrom (t.edges.length + 1) (t.outOf n))

/-- The keys of `grouped_transitions` (adapter/qrules.py:206-213). -/
abbrev GroupKey (E : Type) := E × List ℤ × List LS

/-- The key of a transition in `filter_min_ls` (qrules.py:215-224); an `LSCoupling` is always
truthy. `StopIteration`/unpacking errors cannot occur, because of line 204. -/
def groupKey {E : Type} (nodeIds : List ℤ) (t : Transition E (Option LS)) : Py (GroupKey E) := do
  match ← t.intermediateStates with
  | [] => .error .valueError
  | (rid, r) :: _ =>
    let ids ← decayProductIds t.topology rid
    return (r, ids, t.interactions.filterMap fun x => if x.1 ∉ nodeIds then x.2 else none)

/-- `grouped_transitions[key].append(transition)` with a `defaultdict(list)` (qrules.py:225). -/
def groupAppend {κ α : Type} [DecidableEq κ] (d : PyDict κ (List α)) (k : κ) (x : α) :
    PyDict κ (List α) :=
  PyDict.set d k ((PyDict.get? d k).getD [] ++ [x])

/-- The loop that fills `grouped_transitions` (qrules.py:214-225). -/
def groupTransitions {E : Type} [DecidableEq E] (nodeIds : List ℤ) :
    List (Transition E (Option LS)) → PyDict (GroupKey E) (List (Transition E (Option LS))) →
    Py (PyDict (GroupKey E) (List (Transition E (Option LS))))
  | [], d => .ok d
  | t :: ts, d => do
    let k ← groupKey nodeIds t
    groupTransitions nodeIds ts (groupAppend d k t)

/-- `min(...)` of the `LSCoupling`s (qrules.py:237): the first minimal element. -/
def minLs : List LS → Option LS
  | [] => none
  | x :: xs => some (xs.foldl (fun m y => if lsKey y < lsKey m then y else m) x)

/-- `any(t.interactions[i] is None for t in group)` (qrules.py:234): stops at the first `None`. -/
def anyNone {E : Type} (i : ℤ) : List (Transition E (Option LS)) → Py Bool
  | [] => .ok false
  | t :: ts => do
    match ← PyDict.get t.interactions i with
    | none => return true
    | some _ => anyNone i ts

/-- The value at node `i` of the minimal transition (qrules.py:233-242). -/
def minInteraction {E : Type} (nodeIds : List ℤ) (group : List (Transition E (Option LS)))
    (x : ℤ × Option LS) : Py (Option LS) := do
  if ← anyNone x.1 group then return none
  else if x.1 ∈ nodeIds then
    return minLs ((← group.mapM fun t => PyDict.get t.interactions x.1).filterMap id)
  else return x.2

/-- The minimal transition of a group (qrules.py:228-244). -/
def minTransition {E : Type} (nodeIds : List ℤ) (group : List (Transition E (Option LS))) :
    Py (Transition E (Option LS)) :=
  match group with
  | [] => .error .valueError
  | t0 :: _ => do
    let interactions ← t0.interactions.mapM fun x => do
      return (x.1, ← minInteraction nodeIds group x)
    Transition.new t0.topology t0.states interactions

/-- `filter_min_ls` (qrules.py:191-245); `nodeIds = none` is `node_ids=None`. -/
def filterMinLs {E : Type} [DecidableEq E] (ts : List (Transition E (Option LS)))
    (nodeIds : Option (List ℤ)) : Py (List (Transition E (Option LS))) := do
  let available := ts.flatMap fun t => PyDict.keys t.interactions
  if ¬ setEq available [0, 1] then .error .valueError
  else do
    let intermediates ← ts.mapM Transition.intermediateStates
    if intermediates.any fun x => x.length ≠ 1 then .error .valueError
    else do
      let nodeIds := nodeIds.getD available
      let groups ← groupTransitions nodeIds ts []
      groups.mapM fun g => minTransition nodeIds g.2

/-! ### Conversion to `ThreeBodyDecay` -/

/-- `_to_decay_chain` (qrules.py:78-109). -/
def toDecayChain (t : Transition Obj (Option LS)) : Py Chain := do
  let initial ← t.initialStates
  if initial.length ≠ 1 then .error .valueError
  else do
    let final ← t.finalStates
    if final.length ≠ 3 then .error .valueError
    else if t.interactions.length ≠ 2 then .error .valueError
    else
      match initial, t.topology.outOf 0, t.topology.outOf 1, t.topology.into 1, t.interactions with
      | (_, parent) :: _, [spectatorId, _], [child1Id, child2Id], resonanceId :: _,
          [(_, production), (_, decay)] => do
        let resonance ← PyDict.get t.states resonanceId
        let child1 ← PyDict.get t.states child1Id
        let child2 ← PyDict.get t.states child2Id
        let spectator ← PyDict.get t.states spectatorId
        Chain.new (.isobar parent (.isobar resonance (.leaf child1) (.leaf child2) decay)
          (.leaf spectator) production)
      | _, _, _, _, _ => .error .valueError

/-- The argument `min_ls`: a `bool` or a tuple of two (adapter/qrules.py:41, 53-62). -/
inductive MinLsArg where
  | bool (b : Bool)
  | pair (production decay : Bool)

/-- Lines 52-63 of `to_three_body_decay`. A non-empty tuple is always truthy. -/
def applyMinLs (ts : List (Transition Obj (Option LS))) : MinLsArg →
    Py (List (Transition Obj (Option LS)))
  | .bool false => .ok ts
  | .bool true => filterMinLs ts none
  | .pair p d => filterMinLs ts (some ((if p then [0] else []) ++ (if d then [1] else [])))

/-- `to_three_body_decay` after the normalisation of the IDs (qrules.py:51-75). -/
def decayOfNormalized (ts : List (Transition QObj QNode)) (minLs : MinLsArg) : Py Decay := do
  let ts ← convertTransitions ts
  let ts ← applyMinLs ts minLs
  match ts with
  | [] => .error .indexError
  | some_ :: _ =>
    match ← some_.initialStates with
    | [] => .error .valueError
    | (i, s) :: _ =>
      let s0 ← toState (.dpd s) (some i)
      let fs ← (← some_.finalStates).mapM fun x => toState (.dpd x.2) (some x.1)
      let chains ← ts.mapM toDecayChain
      let chains ← pySorted chainKey chainComparable chains
      Decay.new (PyDict.ofItems ((s0 :: fs).map fun s => (s.index, s))) chains

/-- `to_three_body_decay` (qrules.py:39-75). -/
def toThreeBodyDecay (ts : List (Transition QObj QNode)) (minLs : MinLsArg) : Py Decay := do
  match ts with
  | [] => .error .valueError
  | t0 :: _ =>
    let initial ← t0.initialStates
    let final ← t0.finalStates
    if ¬ setEq (PyDict.keys initial) [0] ∨ ¬ setEq (PyDict.keys final) [1, 2, 3] then do
      let ts ← normalizeTransitions ts
      decayOfNormalized ts minLs
    else decayOfNormalized ts minLs

/-! ### Permutation of identical final states -/

/-- `_uniqueness_repr` (qrules.py:403-409). -/
def uniquenessRepr (o : QObj) : Py String :=
  match o.attrs with
  | some p => .ok p.name
  | none => .error .notImplementedError

/-- `_get_equal_final_state_ids` (qrules.py:385-400). -/
def equalFinalStateIds {N : Type} (t : Transition QObj N) : Py (List ℤ) := do
  let final ← t.finalStates
  let named ← final.mapM fun x => do return (← uniquenessRepr x.2, x.1)
  let groups := named.foldl (fun d x => groupAppend d x.1 x.2) ([] : PyDict String (List ℤ))
  match (groups.map Prod.snd).filter fun ids => ids.length > 1 with
  | [] => return []
  | ids :: _ => return sortedSet ids

/-- `itertools.combinations(ids, 2)` (qrules.py:381). -/
def pairs : List ℤ → List (ℤ × ℤ)
  | [] => []
  | x :: xs => xs.map (fun y => (x, y)) ++ pairs xs

/-- `permute_equal_final_states` of a transition (qrules.py:369-383). The permuted transitions only
differ in their topology, so that they are `==` if their topologies are, and are sorted by
topology. -/
def permuteEqualFinalStates {N : Type} (t : Transition QObj N) : Py (List (Transition QObj N)) := do
  let ids ← equalFinalStateIds t
  if ids.isEmpty then return [t]
  else do
    let permuted ← (pairs ids).mapM fun x =>
      Transition.new (t.topology.swapEdges x.1 x.2) t.states t.interactions
    pySorted (fun x => x.topology.key) (fun a b => a.topology.comparable b.topology)
      (pySet (fun x => x.topology.key) (t :: permuted))

/-- `permute_equal_final_states` of an iterable of transitions (qrules.py:359-366). -/
def permuteAll {N : Type} (ts : List (Transition QObj N)) : Py (List (Transition QObj N)) := do
  return (← ts.mapM permuteEqualFinalStates).flatten

end Verif.Qrules
