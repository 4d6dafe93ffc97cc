import Verif.Model.Qrules

/-!
Model of the `singledispatch` functions `normalize_state_ids` and `permute_equal_final_states` in
`/repo/src/ampform_dpd/adapter/qrules.py` for all types of arguments.

Simplifications:
* The constructor of `qrules.transition.ReactionInfo` is not part of /repo. It is a parameter
  `newReaction` of the functions; theorems say what they assume about it.
* An iterable that is not a string is the list of its items; it is finite and is iterated once. The
  limit that Python sets to the depth of nested iterables is not modelled.
* A string is an iterable of strings of length 1, each of which again is an iterable of itself:
  unless the string is empty, the recursion does not end, which Python reports as `RecursionError`.
-/
namespace Verif.Qrules
open Verif

/-- `qrules.topology.MutableTransition`. Its constructor does not check whether every edge has a
state (adapter/qrules.py:292). -/
structure Mutable (E N : Type) where
  topology : Topology
  states : PyDict ℤ E
  interactions : PyDict ℤ N

/-- `qrules.transition.ReactionInfo` (adapter/qrules.py:279-285, 353-358). -/
structure Reaction where
  transitions : List (Transition QObj QNode)
  formalism : String

/-- The constructor of `ReactionInfo` (adapter/qrules.py:281, 355). -/
abbrev NewReaction := List (Transition QObj QNode) → String → Py Reaction

/-- Objects that can be given to `normalize_state_ids` or `permute_equal_final_states`
(qrules.py:264-270, 329-341). -/
inductive Arg (E N : Type) where
  | topology (t : Topology)
  | frozen (t : Transition QObj QNode)
  | mutable (t : Mutable E N)
  | reaction (r : Reaction)
  | problemSet (facts settings : Mutable E N) (topology : Topology)
  | text (s : String)
  | iterable (xs : List (Arg E N))
  | other

variable {E N : Type}

/-- `{new: obj.states[old] for new, old in enumerate(sorted(obj.states))}` (qrules.py:294). -/
def enumerateStates (states : PyDict ℤ E) : Py (PyDict ℤ E) :=
  (sortedSet (PyDict.keys states)).zipIdx.mapM fun x => do
    return ((x.2 : ℤ), ← PyDict.get states x.1)

/-- `normalize_state_ids` of a `MutableTransition` (qrules.py:288-295). -/
def normalizeMutable (t : Mutable E N) : Py (Mutable E N) := do
  return ⟨normalizeTopology t.topology, ← enumerateStates t.states, t.interactions⟩

mutual
/-- `normalize_state_ids` (qrules.py:268-315). -/
def normalize (newReaction : NewReaction) : Arg E N → Py (Arg E N)
  | .topology t => .ok (.topology (normalizeTopology t))
  | .frozen t => do return .frozen (← normalizeTransition t)
  | .mutable t => do return .mutable (← normalizeMutable t)
  | .reaction r => do
    return .reaction (← newReaction (← r.transitions.mapM normalizeTransition) r.formalism)
  | .problemSet facts settings topology => do
    let facts ← normalizeMutable facts
    let settings ← normalizeMutable settings
    return .problemSet facts settings (normalizeTopology topology)
  | .text s => if s = "" then .ok (.iterable []) else .error .recursionError
  | .iterable xs => do return .iterable (← normalizeItems newReaction xs)
  | .other => .error .notImplementedError

/-- `[_impl_normalize_state_ids(x) for x in obj]` (qrules.py:313-315). -/
def normalizeItems (newReaction : NewReaction) : List (Arg E N) → Py (List (Arg E N))
  | [] => .ok []
  | x :: xs => do
    let y ← normalize newReaction x
    return y :: (← normalizeItems newReaction xs)
end

/-- The items that `list.extend(obj)` appends (qrules.py:365); `TypeError` if `obj` is not an
iterable. -/
def extendItems : Arg E N → Py (List (Arg E N))
  | .iterable ys => .ok ys
  | _ => .error .typeError

mutual
/-- `permute_equal_final_states` (qrules.py:341-383). -/
def permute (newReaction : NewReaction) : Arg E N → Py (Arg E N)
  | .frozen t => do return .iterable ((← permuteEqualFinalStates t).map .frozen)
  | .reaction r => do
    return .reaction (← newReaction (← permuteAll r.transitions) r.formalism)
  | .text s => if s = "" then .ok (.iterable []) else .error .recursionError
  | .iterable xs => do return .iterable (← permuteItems newReaction xs)
  | .topology _ => .error .notImplementedError
  | .mutable _ => .error .notImplementedError
  | .problemSet _ _ _ => .error .notImplementedError
  | .other => .error .notImplementedError

/-- The loop in `permute_equal_final_states` of an iterable (qrules.py:359-366). -/
def permuteItems (newReaction : NewReaction) : List (Arg E N) → Py (List (Arg E N))
  | [] => .ok []
  | x :: xs => do
    let ys ← extendItems (← permute newReaction x)
    return ys ++ (← permuteItems newReaction xs)
end

end Verif.Qrules
