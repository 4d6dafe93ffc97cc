import Verif.Model.CachedConcurrent
import Verif.Spec.Cached

/-! Words for histories of several threads and processes that use `lambdify`. -/
namespace Verif.Cached.Concurrent
open Verif Verif.Cached

variable {T P E F H : Type}

/-- No call is under way, no process has anything in memory, and nothing happened yet. A file that
can be loaded was written for the same versions of the imported functions. -/
def Started (w : Imports E F H) (s : State T P E F H) : Prop :=
  (∀ p, s.memory p = []) ∧ (∀ p, s.x64 p = false) ∧ (∀ t, s.pc t = .idle) ∧ s.log = [] ∧
  s.created = [] ∧
  ∀ h f, s.disk h = .complete f → ∀ e p b, w.hash ⟨e, p, b⟩ = h → body w e p b = .ok f

/-- Every file is either there or not: none is damaged or unfinished. -/
def Readable (s : State T P E F H) : Prop :=
  ∀ h, s.disk h = .absent ∨ ∃ f, s.disk h = .complete f

/-- What a call returns or raises if nothing is cached. -/
def Call.uncached (w : Imports E F H) (c : Call E) : Py F :=
  Cached.uncached w c.expr c.parameters c.backend

/-- How often a schedule lets a thread make a step. -/
def stepsOf [DecidableEq T] (t : T) : List (Action T P E H) → ℕ
  | [] => 0
  | .step t' _ :: l => (if t' = t then 1 else 0) + stepsOf t l
  | _ :: l => stepsOf t l

/-- The call of a thread that is under way. -/
def underWay (s : State T P E F H) (t : T) : Option (Call E) :=
  match s.pc t with
  | .idle => none
  | .called c | .missed c | .creating c | .created c _ | .writing c _ | .done c _ => some c

/-- Calls do not overlap, and no process is killed during a call: a thread calls `lambdify`, or a
process is killed, only while no call is under way. Files can be removed at any time. -/
def OneAtATime [DecidableEq T] [DecidableEq P] [DecidableEq E] [DecidableEq H] (w : Imports E F H)
    (m : Machine T P) (s : State T P E F H) : List (Action T P E H) → Prop
  | [] => True
  | .call t c :: l => (∀ t', underWay s t' = none) ∧ OneAtATime w m (act w m s (.call t c)) l
  | .kill p :: l => (∀ t', underWay s t' = none) ∧ OneAtATime w m (act w m s (.kill p)) l
  | a :: l => OneAtATime w m (act w m s a) l

/-- The schedule of a history of a single thread: every call is followed by as many steps as it can
take, and a restart kills the process. -/
def alone (m : Machine T P) (t : T) : List (Event E) → List (Action T P E H)
  | [] => []
  | .call e p b :: l =>
    .call t ⟨e, p, b⟩ :: (List.replicate 6 (.step t false) ++ alone m t l)
  | .restart :: l => .kill (m.proc t) :: alone m t l

/-- A thread is idle, its process and the disk are as in a state of a single process. -/
def SameAs (m : Machine T P) (s : State T P E F H) (t : T) [DecidableEq H] (st : Store E F H) : Prop :=
  s.pc t = .idle ∧ s.memory (m.proc t) = st.memory ∧ s.x64 (m.proc t) = st.x64 ∧
  s.created = st.created ∧
  ∀ h, s.disk h = match st.disk.find? (fun x => x.1 = h) with
    | some x => .complete x.2
    | none => .absent

end Verif.Cached.Concurrent
