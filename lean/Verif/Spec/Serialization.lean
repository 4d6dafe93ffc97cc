import Verif.Model.Serialization
import Verif.Spec.Spin

/-!
Specification of well-formed serialized models. Only the data types of the model are used.
-/
namespace Verif.Serialization
open Verif Verif.ThreeBody Verif.Spec

/-- The only integer in the topology is `k`. -/
def IsSpectator (topology : List Tree) (k : ℤ) : Prop :=
  .id k ∈ topology ∧ ∀ i, .id i ∈ topology → i = k

/-- The node `[[a, b], k]` or `[k, [a, b]]` of a production vertex, for any items `a` and `b`. -/
def ProductionNode (node : List Tree) (a b : Tree) (k : ℤ) : Prop :=
  node = [.seq [a, b], .id k] ∨ node = [.id k, .seq [a, b]]

/-- The vertices are a production vertex `p` and a decay vertex `q`, in either order, with spectator `k`
and decay products `i`, `j`. -/
structure TwoVertices (c : ChainDefinition) (p q : Vertex) (i j k : ℤ) : Prop where
  order : c.vertices = [p, q] ∨ c.vertices = [q, p]
  production : ∃ a b, ProductionNode p.node a b k
  decay : q.node = [.id i, .id j]

/-- The spin of the first propagator is `s`. -/
def HasSpin (c : ChainDefinition) (s : ℚ) : Prop := ∃ p rest, c.propagators = p :: rest ∧ p.spin = some s

/-- The chain `p0 → (R → p1 p2) p3` without LS couplings. -/
def chainOf (p0 : State) (R : Particle) (p1 p2 p3 : State) : Chain where
  decay := .isobar (.state p0) (.isobar (.particle R) (.leaf (.state p1)) (.leaf (.state p2)) none)
    (.leaf (.state p3)) none
  parent := p0
  resonance := .particle R
  product1 := p1
  product2 := p2
  spectator := p3
  incomingLs := none
  outgoingLs := none

/-- The state that a definition describes. -/
def IsState (d : StateDefinition) (toLatex : String → String) (s : State) : Prop :=
  d.spin = some s.spin ∧ IsHalfInteger s.spin ∧ s.name = d.name ∧ s.latex = toLatex d.name ∧
    s.mass = d.mass ∧ s.index = d.index ∧ s.width = 0 ∧ s.parity = none

/-- The kinematics are those of a decay of state 0 to states 1, 2 and 3 with well-defined spins. -/
structure WellFormedKinematics (k : Kinematics) : Prop where
  initial : k.initialState.index = 0
  final : (k.finalState.map (·.index)).Perm [1, 2, 3]
  spins : ∀ d ∈ k.initialState :: k.finalState, ∃ s, d.spin = some s ∧ IsHalfInteger s

/-- The chain definition describes a decay chain to states 1, 2 and 3. -/
def WellFormedChain (c : ChainDefinition) : Prop :=
  ∃ p q i j k s, TwoVertices c p q i j k ∧ [i, j, k].Perm [1, 2, 3] ∧ HasSpin c s ∧ IsHalfInteger s

/-- Python's white space characters, i.e. those for which `str.isspace()` holds. -/
def IsWhitespace (c : Char) : Prop :=
  c.toNat ∈ [9, 10, 11, 12, 13, 28, 29, 30, 31, 32, 133, 160, 5760, 8192, 8193, 8194, 8195, 8196, 8197,
    8198, 8199, 8200, 8201, 8202, 8232, 8233, 8239, 8287, 12288]

/-- The text is `core` with white space around it. -/
def Surrounded (text : String) (core : List Char) : Prop :=
  ∃ a b, text.toList = a ++ core ++ b ∧ (∀ c ∈ a, IsWhitespace c) ∧ ∀ c ∈ b, IsWhitespace c

end Verif.Serialization
