import Verif.Model.Cached
import Mathlib.Logic.Function.Basic

/-!
Model of `/repo/src/ampform_dpd/io/cached.py` for several threads of several processes that share
the directory of the disk cache, and that can be killed at any time.

The steps of a call are those of `Verif.Cached.lambdify`, one at a time. How `cache_to_disk` writes
a file is code of AmpForm, so there are two variants: `atomic` puts a finished file in place in one
step, otherwise the file is opened, which empties it, and is unfinished until it is closed.
-/
namespace Verif.Cached.Concurrent
open Verif Verif.Cached

/-- A file of the disk cache. It cannot be loaded while a thread is writing it, nor if it is
damaged (io/cached.py:80-84). -/
inductive File (T F : Type) where
  | absent
  | unfinished (writer : T)
  | damaged
  | complete (f : F)

/-- The arguments of a call of `lambdify` (cached.py:44-49). -/
structure Call (E : Type) where
  expr : E
  parameters : SecondArg
  backend : String

/-- The arguments that `lambdify` passes to `_lambdify_impl` (cached.py:67-69, 74-76). -/
def Call.key {E : Type} (c : Call E) : Key E :=
  match c.parameters with
  | .none => ⟨c.expr, none, c.backend⟩
  | .str s => ⟨c.expr, none, s⟩
  | .mapping p => ⟨c.expr, some p, c.backend⟩

/-- Where a thread is in a call of `lambdify`: outside of it, before the lookup in the dictionary of
`functools.cache` (cached.py:79), before the lookup of the file (cached.py:80-84), before the body
of `_lambdify_impl` (cached.py:91-93), before the file is opened, before it is closed, and before
the result is stored in the dictionary and returned. -/
inductive Pc (E F : Type) where
  | idle
  | called (c : Call E)
  | missed (c : Call E)
  | creating (c : Call E)
  | created (c : Call E) (f : F)
  | writing (c : Call E) (f : F)
  | done (c : Call E) (f : F)

/-- How a call ends: it returns or raises, or it raises because the file cannot be loaded
(io/cached.py:75-76). -/
inductive Outcome (F : Type) where
  | result (r : Py F)
  | unreadable

/-- Threads `T`, each in a process `proc`, and how files are written (io/cached.py:79-84). -/
structure Machine (T P : Type) where
  proc : T → P
  atomic : Bool

/-- The state: the dictionary of `functools.cache` and the setting `jax_enable_x64` of each process,
the files, where each thread is, the calls that ended, most recent first, and the arguments for
which a function was created, most recent first. -/
structure State (T P E F H : Type) where
  memory : P → List (Key E × F)
  x64 : P → Bool
  disk : H → File T F
  pc : T → Pc E F
  log : List (T × Call E × Outcome F)
  created : List (Key E)

variable {T P E F H : Type} [DecidableEq T] [DecidableEq P] [DecidableEq E] [DecidableEq H]

/-- A thread ends its call (io/cached.py:75-76). -/
def finish (s : State T P E F H) (t : T) (c : Call E) (o : Outcome F) : State T P E F H :=
  { s with pc := Function.update s.pc t .idle, log := (t, c, o) :: s.log }

/-- A thread goes on to another place (between two steps of io/cached.py:67-93). -/
def goto (s : State T P E F H) (t : T) (l : Pc E F) : State T P E F H :=
  { s with pc := Function.update s.pc t l }

/-- A thread calls `lambdify` (cached.py:67-73). -/
def begin (w : Imports E F H) (m : Machine T P) (s : State T P E F H) (t : T) (c : Call E) :
    State T P E F H :=
  if c.key.backend = "jax" then
    if w.jaxInstalled then
      goto { s with x64 := Function.update s.x64 (m.proc t) true } t (.called c)
    else finish s t c (.result (.error .importError))
  else goto s t (.called c)

/-- The file after a thread closed it. If another thread opened or removed it in between, `lucky`
says whether it can be loaded (io/cached.py:80-84; the code is in AmpForm). -/
def close (m : Machine T P) (file : File T F) (t : T) (f : F) (lucky : Bool) : File T F :=
  if m.atomic then .complete f
  else match file with
    | .absent => .absent
    | .unfinished t' => if t' = t then .complete f else if lucky then .complete f else .damaged
    | _ => if lucky then .complete f else .damaged

/-- A thread makes the next step of its call (cached.py:79-93). -/
def advance (w : Imports E F H) (m : Machine T P) (s : State T P E F H) (t : T) (lucky : Bool) :
    State T P E F H :=
  match s.pc t with
  | .idle => s
  | .called c =>
    match (s.memory (m.proc t)).find? (fun x => x.1.beq c.key) with
    | some x => finish s t c (.result (.ok x.2))
    | none => goto s t (.missed c)
  | .missed c =>
    match s.disk (w.hash c.key) with
    | .absent => goto s t (.creating c)
    | .complete f => goto s t (.done c f)
    | _ => finish s t c .unreadable
  | .creating c =>
    match create w c.key with
    | .error e => finish { s with created := c.key :: s.created } t c (.result (.error e))
    | .ok f => goto { s with created := c.key :: s.created } t (.created c f)
  | .created c f =>
    if m.atomic then goto s t (.writing c f)
    else goto { s with disk := Function.update s.disk (w.hash c.key) (.unfinished t) } t (.writing c f)
  | .writing c f =>
    let file := close m (s.disk (w.hash c.key)) t f lucky
    goto { s with disk := Function.update s.disk (w.hash c.key) file } t (.done c f)
  | .done c f =>
    let memory := (c.key, f) :: s.memory (m.proc t)
    finish { s with memory := Function.update s.memory (m.proc t) memory } t c (.result (.ok f))

/-- What can happen: a thread that is idle calls `lambdify`, a thread makes a step, a process is
killed and started again, or a file is removed (io/cached.py:44-93). -/
inductive Action (T P E H : Type) where
  | call (t : T) (c : Call E)
  | step (t : T) (lucky : Bool)
  | kill (p : P)
  | remove (h : H)

/-- One action. A process that is killed loses everything but the disk (io/cached.py:44-93). -/
def act (w : Imports E F H) (m : Machine T P) (s : State T P E F H) :
    Action T P E H → State T P E F H
  | .call t c => match s.pc t with
    | .idle => begin w m s t c
    | _ => s
  | .step t lucky => advance w m s t lucky
  | .kill p => { s with
      memory := Function.update s.memory p []
      x64 := Function.update s.x64 p false
      pc := fun t => if m.proc t = p then .idle else s.pc t }
  | .remove h => { s with disk := Function.update s.disk h .absent }

/-- A schedule: any list of actions (io/cached.py:44-93). -/
def run (w : Imports E F H) (m : Machine T P) (s : State T P E F H)
    (schedule : List (Action T P E H)) : State T P E F H :=
  schedule.foldl (act w m) s

end Verif.Cached.Concurrent
