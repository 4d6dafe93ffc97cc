import Verif.Model.Qrules

/-!
Specification of the QRules adapter, independent of its implementation.
-/
namespace Verif.Qrules
open Verif Verif.ThreeBody

/-- The number of different IDs that are smaller than `k`. -/
def rank (ids : List ℤ) (k : ℤ) : ℤ := ((ids.dedup.filter fun i => i < k).length : ℤ)

/-- What every `FrozenTransition` object satisfies: the keys of each dictionary are distinct, edges
and states have the same IDs, nodes and interactions have the same IDs. -/
structure Valid {E N : Type} (t : Transition E N) : Prop where
  edges : (PyDict.keys t.topology.edges).Nodup
  states : (PyDict.keys t.states).Nodup
  interactions : (PyDict.keys t.interactions).Nodup
  sameEdges : ∀ i, i ∈ PyDict.keys t.topology.edges ↔ i ∈ PyDict.keys t.states
  sameNodes : ∀ i, i ∈ t.topology.nodes ↔ i ∈ PyDict.keys t.interactions

/-- Two dictionaries are `==`: they have the same keys with the same values. -/
def SameDict {κ α : Type} [DecidableEq κ] (d d' : PyDict κ α) : Prop :=
  ∀ k, PyDict.get? d k = PyDict.get? d' k

/-- Two topologies are `==`. -/
def SameTopology (a b : Topology) : Prop := a.nodes = b.nodes ∧ SameDict a.edges b.edges

/-- Two transitions are `==`. -/
def Same {E N : Type} (a b : Transition E N) : Prop :=
  SameTopology a.topology b.topology ∧ SameDict a.states b.states ∧
    SameDict a.interactions b.interactions

/-- `old` and `new` are related by relabelling of the keys with `f`. -/
def Relabelled {α : Type} (f : ℤ → ℤ) (old new : PyDict ℤ α) : Prop :=
  (∀ k, k ∈ PyDict.keys new ↔ ∃ i ∈ PyDict.keys old, f i = k) ∧
    ∀ i ∈ PyDict.keys old, PyDict.get? new (f i) = PyDict.get? old i

/-- A transition with topology `a → s (r → i j)`: initial state `a`, spectator `s`, resonance `r`,
decay products `i < j`. Node 0 is the production node, node 1 the decay node. -/
structure ThreeBody {E N : Type} (t : Transition E N) (a s r i j : ℤ) : Prop where
  valid : Valid t
  nodes : t.topology.nodes = [0, 1]
  ids : ∀ k, k ∈ PyDict.keys t.topology.edges ↔ k = a ∨ k = s ∨ k = r ∨ k = i ∨ k = j
  distinct : [a, s, r, i, j].Nodup
  initial : PyDict.get? t.topology.edges a = some ⟨none, some 0⟩
  spectator : PyDict.get? t.topology.edges s = some ⟨some 0, none⟩
  resonance : PyDict.get? t.topology.edges r = some ⟨some 0, some 1⟩
  product1 : PyDict.get? t.topology.edges i = some ⟨some 1, none⟩
  product2 : PyDict.get? t.topology.edges j = some ⟨some 1, none⟩
  order : i < j

/-- A transition with interaction nodes 0 and 1 and exactly one resonance: edge `r` is the only edge
between two nodes, `m` and `n`. -/
structure OneResonance {E N : Type} (t : Transition E N) (r m n : ℤ) : Prop where
  valid : Valid t
  nodes : PyDict.keys t.interactions = [0, 1]
  edge : PyDict.get? t.topology.edges r = some ⟨some m, some n⟩
  loop : m ≠ n
  only : ∀ k e, PyDict.get? t.topology.edges k = some e → k ≠ r → e.orig = none ∨ e.dest = none

/-- `k` is the ID of a state that leaves node `n`. -/
def Leaves {E N : Type} (t : Transition E N) (n k : ℤ) : Prop :=
  ∃ e, PyDict.get? t.topology.edges k = some e ∧ e.orig = some n

/-- Two transitions with the same resonance, the same decay products and, at the nodes that are
not selected, the same LS couplings. -/
def SameGroup {E : Type} (sel : List ℤ) (t u : Transition E (Option LS)) : Prop :=
  ∃ r m n r' m' n', OneResonance t r m n ∧ OneResonance u r' m' n' ∧
    PyDict.get? t.states r = PyDict.get? u.states r' ∧ (∀ k, Leaves t n k ↔ Leaves u n' k) ∧
    ∀ i, i ∉ sel → PyDict.get? t.interactions i = PyDict.get? u.interactions i

/-- Order of LS couplings: first by `L`, then by `S`. -/
def LsLe (x y : LS) : Prop := x.L < y.L ∨ (x.L = y.L ∧ x.S ≤ y.S)

/-- `r` is `t0` with, at each selected node, the minimal LS coupling among the transitions of `ts` in
its group, or none if one of them has none. -/
structure IsMinimum {E : Type} (sel : List ℤ) (ts : List (Transition E (Option LS)))
    (t0 r : Transition E (Option LS)) : Prop where
  topology : r.topology = t0.topology
  states : r.states = t0.states
  nodes : PyDict.keys r.interactions = PyDict.keys t0.interactions
  unselected : ∀ i, i ∉ sel → PyDict.get? r.interactions i = PyDict.get? t0.interactions i
  without : ∀ i ∈ sel, (∃ u ∈ ts, SameGroup sel t0 u ∧ PyDict.get? u.interactions i = some none) →
    PyDict.get? r.interactions i = some none
  minimal : ∀ i ∈ sel, i ∈ PyDict.keys t0.interactions →
    (∀ u ∈ ts, SameGroup sel t0 u → PyDict.get? u.interactions i ≠ some none) →
    ∃ x, PyDict.get? r.interactions i = some (some x) ∧
      (∃ u ∈ ts, SameGroup sel t0 u ∧ PyDict.get? u.interactions i = some (some x)) ∧
      ∀ u ∈ ts, SameGroup sel t0 u → ∀ y, PyDict.get? u.interactions i = some (some y) → LsLe x y

/-- `fs` are the first transitions of each group, in the order of `ts`. -/
structure FirstOfGroups {E : Type} (sel : List ℤ) (ts fs : List (Transition E (Option LS))) : Prop where
  sublist : fs.Sublist ts
  different : fs.Pairwise fun t u => ¬ SameGroup sel t u
  all : ∀ t ∈ ts, ∃ f ∈ fs, SameGroup sel f t
  first : ∀ f ∈ fs, ∃ pre post, ts = pre ++ f :: post ∧ ∀ u ∈ pre, ¬ SameGroup sel u f

/-- The state with ID `k` has the name `name`. -/
def HasName {N : Type} (t : Transition QObj N) (k : ℤ) (name : String) : Prop :=
  ∃ o p, PyDict.get? t.states k = some o ∧ o.attrs = some p ∧ p.name = name

/-- `u` is `t` with states `s` and `x` in each other's place. -/
structure Exchanged {E N : Type} (t : Transition E N) (s x : ℤ) (u : Transition E N) : Prop where
  nodes : u.topology.nodes = t.topology.nodes
  states : u.states = t.states
  interactions : u.interactions = t.interactions
  edges : ∀ k, PyDict.get? u.topology.edges k
    = PyDict.get? t.topology.edges (if k = s then x else if k = x then s else k)

/-- What a decay topology satisfies in addition: the nodes are a set, edges end in nodes, no edge leads
from a node to itself, and every node is entered by some edge. -/
structure WellFormed {E N : Type} (t : Transition E N) : Prop where
  valid : Valid t
  nodes : t.topology.nodes.Pairwise (· < ·)
  origin : ∀ k e n, PyDict.get? t.topology.edges k = some e → e.orig = some n → n ∈ t.topology.nodes
  destination : ∀ k e n, PyDict.get? t.topology.edges k = some e → e.dest = some n →
    n ∈ t.topology.nodes
  noLoop : ∀ k e n, PyDict.get? t.topology.edges k = some e → e.orig = some n → e.dest ≠ some n
  entered : ∀ n ∈ t.topology.nodes, ∃ k e, PyDict.get? t.topology.edges k = some e ∧ e.dest = some n

/-- The attributes of the particle `p` are those of the object `o`. -/
def SameParticle (o : QObj) (p : Particle) : Prop :=
  ∃ q, o.attrs = some q ∧ p.name = q.name ∧ p.latex = q.latex.getD q.name ∧ p.spin = q.spin ∧
    p.parity = q.parity ∧ p.mass = q.mass ∧ p.width = q.width

/-- The LS coupling of an interaction node: an `LSCoupling` as such, or the magnitudes of L and S if
both are defined. -/
def HasCoupling : QNode → Option LS → Prop
  | .none, x => x = none
  | .ls y, x => x = some y
  | .props (some l) (some s), x => x = some ⟨l, s⟩
  | .props _ _, x => x = none
  | .other, _ => False

/-- `c` is the decay chain of the converted transition `t`: the states at the edges `a → s (r → i j)`
and the LS couplings at the nodes 0 (production) and 1 (decay). -/
def IsChainOf (t : Transition Obj (Option LS)) (c : Chain) : Prop :=
  ∃ a s r i j, ThreeBody t a s r i j ∧
    PyDict.get? t.states a = some (.state c.parent) ∧
    PyDict.get? t.states s = some (.state c.spectator) ∧
    PyDict.get? t.states r = some c.resonance ∧
    PyDict.get? t.states i = some (.state c.product1) ∧
    PyDict.get? t.states j = some (.state c.product2) ∧
    PyDict.get? t.interactions 0 = some c.incomingLs ∧
    PyDict.get? t.interactions 1 = some c.outgoingLs

/-- The decay chain `c` describes the QRules transition `t`, up to the numbering of the states. -/
def Describes (t : Transition QObj QNode) (c : Chain) : Prop :=
  ∃ a s r i j oa os or oi oj n0 n1, ThreeBody t a s r i j ∧
    (PyDict.get? t.states a = some oa ∧ SameParticle oa c.parent.toParticle) ∧
    (PyDict.get? t.states s = some os ∧ SameParticle os c.spectator.toParticle) ∧
    (PyDict.get? t.states r = some or ∧ ∃ p, c.resonance = .particle p ∧ SameParticle or p) ∧
    (PyDict.get? t.states i = some oi ∧ SameParticle oi c.product1.toParticle) ∧
    (PyDict.get? t.states j = some oj ∧ SameParticle oj c.product2.toParticle) ∧
    (PyDict.get? t.interactions 0 = some n0 ∧ HasCoupling n0 c.incomingLs) ∧
    (PyDict.get? t.interactions 1 = some n1 ∧ HasCoupling n1 c.outgoingLs)

end Verif.Qrules
