import Verif.Proofs.CachedConcurrent
import Verif.Props.Cached

/-! C102: caching of `lambdify` with several threads and processes. -/
namespace Verif.Cached.Concurrent
open Verif Verif.Cached

variable {T P E F H : Type} [DecidableEq T] [DecidableEq P] [DecidableEq E] [DecidableEq H]

/-! For the examples: threads 0 and 1 in process 0, thread 2 in process 1, and an empty directory. -/

def exMachine (atomic : Bool) : Machine (Fin 3) ℕ := ⟨fun t => t.val / 2, atomic⟩

def exState : State (Fin 3) ℕ String (String × Option (List (Sym × ℚ × ℚ))) (Key String) :=
  ⟨fun _ => [], fun _ => false, fun _ => .absent, fun _ => .idle, [], []⟩

theorem exState_started : Started exImports exState :=
  ⟨fun _ => rfl, fun _ => rfl, fun _ => rfl, rfl, rfl, fun _ _ h => by cases h⟩

def exCall : Call String := ⟨"x", .none, "jax"⟩

/-- If files are put in place in one step, caching is transparent for any number of threads and
processes: whatever the order of their steps, and whenever processes are killed and files removed,
every call that ends returned or raised what it would without any caching. -/
theorem C102_transparent (w : Imports E F H) (he : EqualArguments w) (hh : FaithfulHash w)
    (m : Machine T P) (hm : m.atomic = true) (s : State T P E F H) (hs : Started w s)
    (hr : Readable s) (schedule : List (Action T P E H)) :
    ∀ t c o, (t, c, o) ∈ (run w m s schedule).log → o = .result (c.uncached w) := by
  intro t c o ho
  rcases ((Inv.started hs).run he hh schedule).log t c o ho with h | h
  · exact h
  · have ha : Atomic s := ⟨hr, by rw [hs.2.2.2.1]; intro _ _ _ h; cases h⟩
    exact absurd h ((ha.run hm schedule).log t c o ho)

/-- Threads of two processes, with steps in any order: process 0 is killed before its file is in
place, process 1 creates the function again, and thread 0 loads it from the file; the last call asks
for a function that cannot be created. -/
example : (run exImports (exMachine true) exState
      ([.call 0 exCall, .call 2 exCall, .step 0 true, .step 2 true, .step 0 true, .step 0 true,
        .step 2 true, .step 0 true, .kill 0, .step 2 true, .step 2 true, .step 2 true, .call 0 exCall,
        .step 0 true, .step 2 true, .step 0 true, .step 0 true, .call 1 ⟨"x/0", .none, "numpy"⟩,
        .step 1 true, .step 1 true, .step 1 true])).log =
    [(1, ⟨"x/0", .none, "numpy"⟩, .result (.error .valueError)),
      (0, exCall, .result (.ok ("x|jax", none))), (2, exCall, .result (.ok ("x|jax", none)))] := rfl

example : ∀ t c o, (t, c, o) ∈ (run exImports (exMachine true) exState
      [.call 0 exCall, .step 0 true, .kill 0, .call 0 exCall]).log → o = .result (c.uncached exImports) :=
  C102_transparent exImports exImports_equal exImports_hash (exMachine true) rfl exState exState_started
    (fun _ => .inl rfl) _

/-- If files are written in place, a call never returns a wrong function: it returns or raises what
it would without any caching, or it raises because a file cannot be loaded. -/
theorem C102_safe (w : Imports E F H) (he : EqualArguments w) (hh : FaithfulHash w)
    (m : Machine T P) (s : State T P E F H) (hs : Started w s) (schedule : List (Action T P E H)) :
    ∀ t c o, (t, c, o) ∈ (run w m s schedule).log → o = .result (c.uncached w) ∨ o = .unreadable :=
  ((Inv.started hs).run he hh schedule).log

/-- A thread that looks for the file while another one writes it. -/
example : (run exImports (exMachine false) exState
      ([.call 0 exCall, .call 2 exCall] ++ List.replicate 4 (.step 0 true) ++
        List.replicate 2 (.step 2 true) ++ List.replicate 2 (.step 0 true))).log =
    [(0, exCall, .result (.ok ("x|jax", none))), (2, exCall, .unreadable)] := rfl

/-- If calls do not overlap and no process is killed during a call, caching is transparent however
files are written, for any number of threads and processes, and even if files are removed while
they are written. -/
theorem C102_one_at_a_time (w : Imports E F H) (he : EqualArguments w) (hh : FaithfulHash w)
    (m : Machine T P) (s : State T P E F H) (hs : Started w s) (hr : Readable s)
    (schedule : List (Action T P E H)) (ho : OneAtATime w m s schedule) :
    ∀ t c o, (t, c, o) ∈ (run w m s schedule).log → o = .result (c.uncached w) := by
  intro t c o hm
  rcases ((Inv.started hs).run he hh schedule).log t c o hm with h | h
  · exact h
  · have hsolo : Solo w m s :=
      ⟨fun k => .inl (hr k), fun t t' h1 => absurd (hs.2.2.1 t) h1,
        (by rw [hs.2.2.2.1]; intro _ _ _ h; cases h),
        fun _ t c f h1 => by rw [hs.2.2.1] at h1; cases h1⟩
    exact absurd h ((hsolo.run schedule ho).log t c o hm)

/-- Two processes, one after the other; the file is removed while it is written, so that the second
process creates the function again. -/
example : OneAtATime exImports (exMachine false) exState
      ([.call 0 exCall] ++ List.replicate 4 (.step 0 true) ++ [.remove exCall.key] ++
        List.replicate 2 (.step 0 true) ++ [.kill 0, .call 2 exCall] ++ List.replicate 6 (.step 2 true)) ∧
    (run exImports (exMachine false) exState
      ([.call 0 exCall] ++ List.replicate 4 (.step 0 true) ++ [.remove exCall.key] ++
        List.replicate 2 (.step 0 true) ++ [.kill 0, .call 2 exCall] ++
        List.replicate 6 (.step 2 true))).created = [exCall.key, exCall.key] := by
  refine ⟨⟨fun t => rfl, ?_, ?_, trivial⟩, rfl⟩
  all_goals intro t; match t with | 0 => rfl | 1 => rfl | 2 => rfl

/-- No thread waits for another: a call ends after at most six steps of its thread, whatever the
others do in between, unless its process is killed. -/
theorem C102_progress (w : Imports E F H) (m : Machine T P) (s : State T P E F H) (t : T) (c : Call E)
    (hi : s.pc t = .idle) (schedule : List (Action T P E H))
    (hk : .kill (m.proc t) ∉ schedule) (hn : 6 ≤ stepsOf t schedule) :
    ∃ new, (run w m s (.call t c :: schedule)).log = new ++ s.log ∧ ∃ o, (t, c, o) ∈ new := by
  have ha : act w m s (.call t c) = begin w m s t c := by unfold act; simp only [hi]
  rw [run_cons, ha]
  rcases begin_cases s t c (w := w) (m := m) with ⟨o, ho⟩ | ⟨h1, h2⟩
  · obtain ⟨new, h⟩ := run_log (begin w m s t c) schedule (w := w) (m := m)
    exact ⟨new ++ [(t, c, o)], by rw [h, ho, List.append_assoc]; rfl, o, by simp⟩
  · obtain ⟨new, h3, h4⟩ := run_ends schedule (begin w m s t c) h2 hk ((rank_le _).trans hn) (w := w)
    exact ⟨new, by rw [h3, h1], h4⟩

example : ∃ new, (run exImports (exMachine false) exState (.call 0 exCall ::
      (List.replicate 6 (.step 0 true) ++ [.kill 1]))).log = new ++ [] ∧ ∃ o, (0, exCall, o) ∈ new :=
  C102_progress exImports (exMachine false) exState 0 exCall rfl _ (by simp [exMachine]) (by decide)

/-- While a call that uses JAX is under way, double precision is enabled in its process. -/
theorem C102_double_precision (w : Imports E F H) (m : Machine T P) (s : State T P E F H)
    (hs : Started w s) (schedule : List (Action T P E H)) :
    ∀ t c, underWay (run w m s schedule) t = some c → usedBackend c.parameters c.backend = "jax" →
      (run w m s schedule).x64 (m.proc t) = true := by
  intro t c hu hb
  have h0 : Precise m s := by
    intro t c hu
    unfold underWay at hu
    rw [hs.2.2.1] at hu
    cases hu
  exact h0.run schedule t c hu (by rw [key_backend]; exact hb)

example : underWay (run exImports (exMachine false) exState [.call 0 exCall]) 0 = some exCall ∧
    (run exImports (exMachine false) exState [.call 0 exCall]).x64 0 = true ∧
    (run exImports (exMachine false) exState [.call 0 exCall]).x64 1 = false := ⟨rfl, rfl, rfl⟩

/-- A thread that is alone does the same as in the model of a single process, step by step, however
files are written. -/
theorem C102_alone (w : Imports E F H) (m : Machine T P) (s : State T P E F H) (t : T)
    (st : Store E F H) (h : SameAs m s t st) (hl : s.log = []) (history : List (Event E)) :
    ((run w m s (alone m t history)).log.reverse.map fun x => x.2.2) =
      (Cached.run w st history).1.map .result ∧
    SameAs m (run w m s (alone m t history)) t (Cached.run w st history).2 := by
  obtain ⟨h1, h2⟩ := run_alone history h (w := w)
  refine ⟨?_, h2⟩
  rw [List.map_reverse, h1, hl]
  simp

example : SameAs (exMachine false) exState 0 exStart := ⟨rfl, rfl, rfl, rfl, fun _ => rfl⟩

/-- If files are written in place, a process that is killed while it writes leaves a file that
cannot be loaded: from then on, every call with these arguments raises, in all processes, until the
file is removed. -/
theorem C102_killed_while_writing (w : Imports E F H) (m : Machine T P) (hm : m.atomic = false)
    (s : State T P E F H) (hs : Started w s) (t : T) (e : E) (b : String) (f : F)
    (hc : w.createFunction e b = .ok f) (hj : b = "jax" → w.jaxInstalled = true)
    (hd : s.disk (w.hash ⟨e, none, b⟩) = .absent)
    (schedule : List (Action T P E H)) (hr : .remove (w.hash ⟨e, none, b⟩) ∉ schedule) :
    ∀ t' c o, c = ⟨e, .none, b⟩ ∨ c = ⟨e, .str b, "jax"⟩ →
      (t', c, o) ∈ (run w m s (.call t ⟨e, .none, b⟩ :: (List.replicate 4 (.step t false) ++
        .kill (m.proc t) :: schedule))).log → o = .unreadable := by
  intro t' c o hc' ho
  obtain ⟨h1, h2, h3, h4, h5, -⟩ := hs
  set k : Key E := ⟨e, none, b⟩ with hk
  have hck : (⟨e, .none, b⟩ : Call E).key = k := rfl
  have hu : Usable w (⟨e, .none, b⟩ : Call E) := by
    intro h
    have := hj h.1
    rw [h.2] at this
    cases this
  -- the state after the process was killed
  have hb : ∃ x, begin w m s t ⟨e, .none, b⟩ = goto { s with x64 := x } t (.called ⟨e, .none, b⟩) := by
    unfold begin
    by_cases hjax : (⟨e, .none, b⟩ : Call E).key.backend = "jax"
    · rw [if_pos hjax, if_pos (hj hjax)]; exact ⟨_, rfl⟩
    · rw [if_neg hjax]; exact ⟨_, rfl⟩
  obtain ⟨x, hb⟩ := hb
  have hp (s : State T P E F H) (l : Pc E F) : (goto s t l).pc t = l := by simp [goto]
  have hcr : create w k = .ok f := hc
  have e1 : act w m s (.call t ⟨e, .none, b⟩) = goto { s with x64 := x } t (.called ⟨e, .none, b⟩) := by
    unfold act; simp only [h3]; exact hb
  have e2 : advance w m (goto { s with x64 := x } t (.called ⟨e, .none, b⟩)) t false =
      goto { s with x64 := x } t (.missed ⟨e, .none, b⟩) := by
    unfold advance
    rw [hp]
    simp [goto, h1]
  have e3 : advance w m (goto { s with x64 := x } t (.missed ⟨e, .none, b⟩)) t false =
      goto { s with x64 := x } t (.creating ⟨e, .none, b⟩) := by
    conv_lhs => unfold advance
    rw [hp]
    simp [goto, hck, hd]
  have e4 : advance w m (goto { s with x64 := x } t (.creating ⟨e, .none, b⟩)) t false =
      goto { s with x64 := x, created := k :: s.created } t (.created ⟨e, .none, b⟩ f) := by
    conv_lhs => unfold advance
    rw [hp]
    simp [goto, hck, hcr]
  have e5 : advance w m (goto { s with x64 := x, created := k :: s.created } t
        (.created ⟨e, .none, b⟩ f)) t false =
      goto { s with
        x64 := x
        created := k :: s.created
        disk := Function.update s.disk (w.hash k) (.unfinished t) } t (.writing ⟨e, .none, b⟩ f) := by
    conv_lhs => unfold advance
    rw [hp]
    simp [goto, hck, hm]
  have hrun : run w m s (.call t ⟨e, .none, b⟩ :: (List.replicate 4 (.step t false) ++
        .kill (m.proc t) :: schedule)) =
      run w m (act w m (goto { s with
        x64 := x
        created := k :: s.created
        disk := Function.update s.disk (w.hash k) (.unfinished t) } t (.writing ⟨e, .none, b⟩ f))
          (.kill (m.proc t))) schedule := by
    rw [run_cons, e1, run_append, step_succ, e2, step_succ, e3, step_succ, e4, step_succ, e5]
    rfl
  rw [hrun] at ho
  have hstuck : Stuck w k (act w m (goto { s with
        x64 := x
        created := k :: s.created
        disk := Function.update s.disk (w.hash k) (.unfinished t) } t (.writing ⟨e, .none, b⟩ f))
          (.kill (m.proc t))) := by
    refine ⟨.inl ⟨t, by simp [act, goto]⟩, ?_, ?_⟩
    · intro p y hy
      by_cases hpp : p = m.proc t
      · subst hpp; simp [act] at hy
      · simp [act, goto, Function.update_of_ne hpp, h1] at hy
    · intro t''
      simp only [act, goto]
      split
      · trivial
      · next hne =>
        have : t'' ≠ t := by rintro rfl; exact hne rfl
        rw [Function.update_of_ne this, h3]
        trivial
  obtain ⟨-, new, h6, h7⟩ := hstuck.run rfl schedule hr (m := m)
  rw [h6] at ho
  have hlog : (act w m (goto { s with
        x64 := x
        created := k :: s.created
        disk := Function.update s.disk (w.hash k) (.unfinished t) } t (.writing ⟨e, .none, b⟩ f))
          (.kill (m.proc t))).log = [] := h4
  rw [hlog, List.append_nil] at ho
  rcases hc' with rfl | rfl
  · exact h7 _ _ _ ho rfl hu
  · exact h7 _ _ _ ho rfl hu

/-- Process 0 is killed while it writes; calls in both processes raise. -/
example : exImports.createFunction "x" "jax" = .ok ("x|jax", none) ∧
    (run exImports (exMachine false) exState (.call 0 exCall :: (List.replicate 4 (.step 0 false) ++
      .kill 0 :: [.call 1 exCall, .step 1 true, .step 1 true, .call 2 exCall, .step 2 true,
        .step 2 true]))).log =
      [(2, exCall, .unreadable), (1, exCall, .unreadable)] := ⟨rfl, rfl⟩

/-- Removing the file helps: the next call returns or raises what it would without any caching, if
no other thread is active at the time. -/
theorem C102_removed (w : Imports E F H) (he : EqualArguments w) (hh : FaithfulHash w)
    (m : Machine T P) (s : State T P E F H) (hs : Started w s) (schedule : List (Action T P E H))
    (t : T) (c : Call E) (hi : (run w m s schedule).pc t = .idle) :
    (run w m s (schedule ++ .remove (w.hash c.key) :: .call t c ::
        List.replicate 6 (.step t false))).log =
      (t, c, .result (c.uncached w)) :: (run w m s schedule).log := by
  have hinv := (Inv.started hs).run he hh schedule (m := m)
  rw [run_append, run_cons]
  have h' := hinv.act he hh (.remove (w.hash c.key)) (m := m)
  have hlog : (act w m (run w m s schedule) (.remove (w.hash c.key))).log = (run w m s schedule).log := rfl
  obtain ⟨r, hr⟩ := call_clean (s := act w m (run w m s schedule) (.remove (w.hash c.key)))
    (w := w) (m := m) (t := t) (c := c) hi (by simp [act])
  rcases (h'.run he hh (.call t c :: List.replicate 6 (.step t false)) (m := m)).log t c (.result r)
    (by rw [hr]; simp) with h | h
  · rw [hr, h, hlog]
  · cases h

example : (run exImports (exMachine false) exState (.call 0 exCall :: (List.replicate 4 (.step 0 false) ++
      [.kill 0, .call 1 exCall, .step 1 true, .step 1 true] ++
      .remove exCall.key :: .call 1 exCall :: List.replicate 6 (.step 1 false)))).log =
    [(1, exCall, .result (.ok ("x|jax", none))), (1, exCall, .unreadable)] := rfl

/-- With several threads, a function can be created twice for the same arguments: if both look for
it before one of them has stored it. -/
theorem C102_created_twice (atomic : Bool) :
    (run exImports (exMachine atomic) exState
      ([0, 1, 0, 1, 0, 1, 0, 1].flatMap fun t =>
        [.call t exCall, .step t true])).created = [exCall.key, exCall.key] := by
  cases atomic <;> decide

end Verif.Cached.Concurrent
