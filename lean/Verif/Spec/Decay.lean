import Verif.Model.Decay

/-!
Specification of well-formed decays. Only the data types of the model are used (nodes, states),
none of its functions, except that a valid decay is by definition one the constructors return.
-/
namespace Verif.Spec
open Verif.ThreeBody

/-- The object that a child stands for: itself, or the parent if it is a node. -/
inductive StandsFor : Node → Obj → Prop
  | leaf (o) : StandsFor (.leaf o) o
  | isobar (p c1 c2 ls) : StandsFor (.isobar p c1 c2 ls) p

/-- `n` is the chain `p0 → (R → p1 p2) s`, written with the isobar first or second, with couplings
`inc` and `out`, and four different IDs. -/
structure IsThreeBodyChain (n : Node) (p0 : State) (R : Obj) (p1 p2 s : State)
    (inc out : Option LS) : Prop where
  shape : ∃ c1 c2, StandsFor c1 (.state p1) ∧ StandsFor c2 (.state p2) ∧
    (n = .isobar (.state p0) (.isobar R c1 c2 out) (.leaf (.state s)) inc ∨
     n = .isobar (.state p0) (.leaf (.state s)) (.isobar R c1 c2 out) inc)
  ids : [p0.index, p1.index, p2.index, s.index].Nodup

/-- The LS coupling that an argument stands for: none, the given one, or the one with the given `L` and
`S`. -/
def GivesCoupling : LSArg → Option LS → Prop
  | .none, i => i = none
  | .ls x, i => i = some x
  | .pair L S, i => ∃ x, i = some x ∧ x.L = L ∧ x.S = S ∧ ∃ n : ℤ, S = n / 2
  | _, _ => False

/-- `s` is the last of the given states with its index. -/
def LastWithIndex (s : State) (l : List State) : Prop :=
  ∃ pre post, l = pre ++ s :: post ∧ ∀ t ∈ post, t.index ≠ s.index

/-- `(i, j, k)` is an even permutation of `(1, 2, 3)`. -/
def EvenPerm (i j k : ℤ) : Prop := (i, j, k) = (1, 2, 3) ∨ (i, j, k) = (2, 3, 1) ∨ (i, j, k) = (3, 1, 2)

end Verif.Spec

namespace Verif.ThreeBody

/-- A decay object that was returned by the constructor. -/
def Decay.Valid (d : Decay) : Prop :=
  Decay.new d.states d.chains = .ok d ∧ ∀ c ∈ d.chains, Chain.new c.decay = .ok c

end Verif.ThreeBody
