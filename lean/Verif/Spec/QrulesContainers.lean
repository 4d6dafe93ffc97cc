import Verif.Model.QrulesContainers
import Verif.Spec.Qrules

/-!
Specification for nested arguments of `normalize_state_ids` and `permute_equal_final_states`.
-/
namespace Verif.Qrules
open Verif

variable {E N : Type}

mutual
/-- The items of an argument that are not themselves iterables, at any depth, from left to right. The
empty string has no items. -/
def leaves : Arg E N → List (Arg E N)
  | .iterable xs => leavesOf xs
  | .text s => if s = "" then [] else [.text s]
  | a => [a]

/-- The same, for the items of an iterable. -/
def leavesOf : List (Arg E N) → List (Arg E N)
  | [] => []
  | x :: xs => leaves x ++ leavesOf xs
end

/-- How an object is nested, whatever its items are. -/
inductive Nesting where
  | leaf
  | list (xs : List Nesting)

mutual
/-- The nesting of an argument. -/
def nesting : Arg E N → Nesting
  | .iterable xs => .list (nestings xs)
  | .text s => if s = "" then .list [] else .leaf
  | _ => .leaf

/-- The nestings of the items. -/
def nestings : List (Arg E N) → List Nesting
  | [] => []
  | x :: xs => nesting x :: nestings xs
end

/-- What is assumed about the constructor of `ReactionInfo`: the object has the given transitions,
possibly in another order, and the given formalism, and it can be constructed again from these. -/
structure ReactionClass (newReaction : NewReaction) : Prop where
  transitions : ∀ ts f r, newReaction ts f = .ok r → r.transitions.Perm ts
  formalism : ∀ ts f r, newReaction ts f = .ok r → r.formalism = f
  again : ∀ ts f r, newReaction ts f = .ok r → newReaction r.transitions r.formalism = .ok r

/-- The objects of QRules satisfy what their constructors check, and IDs are distinct. -/
def ValidLeaf : Arg E N → Prop
  | .topology t => (PyDict.keys t.edges).Nodup
  | .frozen t => Valid t
  | .mutable t => (PyDict.keys t.topology.edges).Nodup
  | .reaction r => ∀ t ∈ r.transitions, Valid t
  | .problemSet a b t => (PyDict.keys a.topology.edges).Nodup ∧
      (PyDict.keys b.topology.edges).Nodup ∧ (PyDict.keys t.edges).Nodup
  | _ => True

/-- Applying `f` to the items `xs` in order raises `e`: there is a first one for which it does. -/
def RaisesAtFirst (f : Arg E N → Py (Arg E N)) (xs : List (Arg E N)) (e : PyErr) : Prop :=
  ∃ pre x post, xs = pre ++ x :: post ∧ (∀ y ∈ pre, ∃ z, f y = .ok z) ∧ f x = .error e

end Verif.Qrules
