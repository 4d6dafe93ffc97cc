import Verif.Model.Qrules

/-!
Model of the functions of `/repo/src/ampform_dpd/adapter/qrules.py` that take an `Iterable`, for arguments
that can be iterated once only (generators, `map` and `zip` objects). A call also changes the argument, so
it returns what is left of it.
-/
namespace Verif.Qrules
open Verif Verif.ThreeBody

/-- An argument annotated as `Iterable` (qrules.py:40, 113, 191-192): a sequence, or an iterator with the
elements that it still gives. -/
inductive Iterable (α : Type) where
  | sequence (l : List α)
  | iterator (l : List α)

/-- The elements that a loop over the object sees (qrules.py:43, 115, 195, 202, 214). -/
def Iterable.items {α : Type} : Iterable α → List α
  | .sequence l => l
  | .iterator l => l

/-- The object after a loop that runs to the end (qrules.py:43, 195, 214). -/
def Iterable.after {α : Type} : Iterable α → Iterable α
  | .sequence l => .sequence l
  | .iterator _ => .iterator []

/-- The object after a loop that ends with the first element that does not satisfy `p`, by an exception or
since `any` has found it (qrules.py:115, 202). -/
def Iterable.afterFirst {α : Type} (p : α → Bool) : Iterable α → Iterable α
  | .sequence l => .sequence l
  | .iterator l => .iterator (l.dropWhile p).tail

/-- `to_three_body_decay` (qrules.py:39-75); line 43 makes a tuple of the argument. -/
def toThreeBodyDecayI (x : Iterable (Transition QObj QNode)) (minLs : MinLsArg) :
    Py Decay × Iterable (Transition QObj QNode) :=
  (toThreeBodyDecay x.items minLs, x.after)

/-- The call returned a value. -/
def isOk {α : Type} : Py α → Bool
  | .ok _ => true
  | .error _ => false

/-- `convert_transitions` (qrules.py:112-116); the set comprehension is left at the first transition that
cannot be converted. -/
def convertTransitionsI (x : Iterable (Transition QObj QNode)) :
    Py (List (Transition Obj (Option LS))) × Iterable (Transition QObj QNode) :=
  (convertTransitions x.items, x.afterFirst fun t => isOk (convertTransition t))

/-- The loop in `any` over the intermediate states (qrules.py:202): whether the next element is looked at. -/
def oneIntermediate {E : Type} (t : Transition E (Option LS)) : Bool :=
  match t.intermediateStates with
  | .ok s => s.length = 1
  | .error _ => false

/-- `filter_min_ls` (qrules.py:191-245) with its three loops over the argument (lines 195, 202 and 214), each
over what the one before has left. -/
def filterMinLsI {E : Type} [DecidableEq E] (x : Iterable (Transition E (Option LS))) (nodeIds : Option (List ℤ)) :
    Py (List (Transition E (Option LS))) × Iterable (Transition E (Option LS)) :=
  let available := x.items.flatMap fun t => PyDict.keys t.interactions
  if ¬ setEq available [0, 1] then (.error .valueError, x.after)
  else
    let x1 := x.after
    match x1.items.mapM Transition.intermediateStates with
    | .error e => (.error e, x1.afterFirst oneIntermediate)
    | .ok intermediates =>
      let x2 := x1.afterFirst oneIntermediate
      if intermediates.any fun s => s.length ≠ 1 then (.error .valueError, x2)
      else
        let ids := nodeIds.getD available
        (do
          let groups ← groupTransitions ids x2.items []
          groups.mapM fun g => minTransition ids g.2, x2.after)

end Verif.Qrules
