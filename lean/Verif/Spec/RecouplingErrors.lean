import Verif.Spec.SerialAmplitude

/-! Specification for C117: the vertices for which a recoupling can be formulated. -/
namespace Verif.Serialization
open Verif Verif.ThreeBody Verif.Spec

/-- A vertex with two children and two helicities, of type `helicity` or of type `parity` with a sign. -/
def HelicityVertex (v : Vertex) : Prop :=
  v.node.length = 2 ∧ (∃ a b, v.helicities = some [some a, some b]) ∧ KnownVertex v

/-- An LS vertex with `l` and `s`, both children of which are nodes, in a chain with one propagator that has a spin. -/
def NodesLsVertex (c : ChainDefinition) (v : Vertex) : Prop :=
  v.type = "ls" ∧ (∃ x y, v.node = [.seq x, .seq y]) ∧ v.l.isSome ∧ (∃ s, v.s = some (some s)) ∧
    ∃ p s, c.propagators = [p] ∧ p.spin = some s

/-- `x` is `l[i]` in Python: the item at position `i`, counted from the end if `i` is negative. -/
def AtIndex {α : Type} (l : List α) (i : ℤ) (x : α) : Prop :=
  ∃ n : ℕ, l[n]? = some x ∧ (i = n ∨ i = n - l.length)

end Verif.Serialization
