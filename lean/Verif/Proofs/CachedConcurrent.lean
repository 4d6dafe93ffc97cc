import Verif.Spec.CachedConcurrent
import Verif.Proofs.Cached

/-! Several threads and processes that use `lambdify`. -/
set_option linter.unusedSectionVars false
namespace Verif.Cached.Concurrent
open Verif Verif.Cached

variable {T P E F H : Type} [DecidableEq T] [DecidableEq P] [DecidableEq E] [DecidableEq H]
  {w : Imports E F H} {m : Machine T P}

theorem key_backend (c : Call E) : c.key.backend = usedBackend c.parameters c.backend := by
  unfold Call.key usedBackend; cases c.parameters <;> rfl

theorem key_eq (c : Call E) : c.key = keyOf c.expr c.parameters c.backend := by
  unfold Call.key keyOf usedBackend; cases c.parameters <;> rfl

theorem uncached_eq (c : Call E) : c.uncached w =
    if c.key.backend = "jax" ∧ w.jaxInstalled = false then .error .importError
    else create w c.key := by
  unfold Call.uncached Cached.uncached
  rw [key_backend]
  unfold Call.key create
  cases c.parameters <;> rfl

/-- The call can use its backend. -/
def Usable (w : Imports E F H) (c : Call E) : Prop :=
  ¬ (c.key.backend = "jax" ∧ w.jaxInstalled = false)

theorem uncached_of_usable {c : Call E} (h : Usable w c) : c.uncached w = create w c.key := by
  rw [uncached_eq, if_neg h]

def PcOk (w : Imports E F H) : Pc E F → Prop
  | .idle => True
  | .called c | .missed c | .creating c => Usable w c
  | .created c f | .writing c f | .done c f => Usable w c ∧ create w c.key = .ok f

/-- What is stored was created for the key or hash under which it is stored. -/
structure Inv (w : Imports E F H) (s : State T P E F H) : Prop where
  memory : ∀ p k f, (k, f) ∈ s.memory p → create w k = .ok f
  disk : ∀ h f, s.disk h = .complete f → ∀ k, w.hash k = h → create w k = .ok f
  pc : ∀ t, PcOk w (s.pc t)
  log : ∀ t c o, (t, c, o) ∈ s.log → o = .result (c.uncached w) ∨ o = .unreadable

theorem Inv.goto {s : State T P E F H} (h : Inv w s) (t : T) (l : Pc E F) (hl : PcOk w l) :
    Inv w (goto s t l) := by
  refine ⟨h.memory, h.disk, fun t' => ?_, h.log⟩
  by_cases ht : t' = t
  · subst ht; simpa [Concurrent.goto] using hl
  · simpa [Concurrent.goto, ht] using h.pc t'

theorem Inv.finish {s : State T P E F H} (h : Inv w s) (t : T) (c : Call E) (o : Outcome F)
    (ho : o = .result (c.uncached w) ∨ o = .unreadable) : Inv w (finish s t c o) := by
  refine ⟨h.memory, h.disk, fun t' => ?_, ?_⟩
  · by_cases ht : t' = t
    · subst ht; simp [Concurrent.finish, PcOk]
    · simpa [Concurrent.finish, ht] using h.pc t'
  · intro t' c' o' hm
    rcases List.mem_cons.1 hm with hm | hm
    · simp only [Prod.mk.injEq] at hm
      obtain ⟨_, rfl, rfl⟩ := hm
      exact ho
    · exact h.log _ _ _ hm

theorem close_complete {file : File T F} {t : T} {f f' : F} {b : Bool}
    (h : close m file t f b = .complete f') : f' = f := by
  unfold close at h
  split at h
  · cases h; rfl
  · split at h
    · cases h
    · split at h
      · cases h; rfl
      · split at h <;> cases h; rfl
    · split at h <;> cases h; rfl

theorem Inv.advance (he : EqualArguments w) (hh : FaithfulHash w) {s : State T P E F H}
    (h : Inv w s) (t : T) (b : Bool) : Inv w (advance w m s t b) := by
  have hpc := h.pc t
  unfold Concurrent.advance
  cases hs : s.pc t with
  | idle => exact h
  | called c =>
    rw [hs] at hpc
    simp only
    cases hf : (s.memory (m.proc t)).find? (fun x => x.1.beq c.key) with
    | none => exact h.goto t _ hpc
    | some x =>
      refine h.finish t c _ (.inl ?_)
      have hp : x.1.beq c.key = true := by simpa using List.find?_some hf
      rw [uncached_of_usable hpc, ← create_of_beq he hp,
        h.memory _ x.1 x.2 (List.mem_of_find?_eq_some hf)]
  | missed c =>
    rw [hs] at hpc
    simp only
    cases hd : s.disk (w.hash c.key) with
    | absent => exact h.goto t _ hpc
    | unfinished t' => exact h.finish t c _ (.inr rfl)
    | damaged => exact h.finish t c _ (.inr rfl)
    | complete f => exact h.goto t _ ⟨hpc, h.disk _ _ hd _ rfl⟩
  | creating c =>
    rw [hs] at hpc
    simp only
    cases hc : create w c.key with
    | error e =>
      refine Inv.finish (s := { s with created := c.key :: s.created }) ⟨h.memory, h.disk, h.pc, h.log⟩ t c _ (.inl ?_)
      rw [uncached_of_usable hpc, hc]
    | ok f =>
      exact Inv.goto (s := { s with created := c.key :: s.created }) ⟨h.memory, h.disk, h.pc, h.log⟩ t _ ⟨hpc, hc⟩
  | created c f =>
    rw [hs] at hpc
    simp only
    split
    · exact h.goto t _ hpc
    · refine Inv.goto (s := { s with disk := Function.update s.disk (w.hash c.key) (.unfinished t) })
        ⟨h.memory, ?_, h.pc, h.log⟩ t _ hpc
      intro h' f' hd
      by_cases hk : h' = w.hash c.key
      · subst hk; simp at hd
      · simp only [Function.update_of_ne hk] at hd
        exact h.disk _ _ hd
  | writing c f =>
    rw [hs] at hpc
    simp only
    refine Inv.goto (s := { s with disk := Function.update s.disk (w.hash c.key) _ })
        ⟨h.memory, ?_, h.pc, h.log⟩ t _ hpc
    intro h' f' hd k hk'
    by_cases hk : h' = w.hash c.key
    · subst hk
      simp only [Function.update_self] at hd
      rw [close_complete hd, create_of_hash hh hk', hpc.2]
    · simp only [Function.update_of_ne hk] at hd
      exact h.disk _ _ hd _ hk'
  | done c f =>
    rw [hs] at hpc
    simp only
    refine Inv.finish (s := { s with memory := Function.update s.memory (m.proc t) _ })
        ⟨?_, h.disk, h.pc, h.log⟩ t c _ (.inl ?_)
    · intro p k f' hm
      by_cases hp : p = m.proc t
      · subst hp
        simp only [Function.update_self] at hm
        rcases List.mem_cons.1 hm with hm | hm
        · injection hm with h1 h2
          rw [h1, h2, hpc.2]
        · exact h.memory _ _ _ hm
      · simp only [Function.update_of_ne hp] at hm
        exact h.memory _ _ _ hm
    · rw [uncached_of_usable hpc.1, hpc.2]

theorem Inv.begin {s : State T P E F H} (h : Inv w s) (t : T) (c : Call E) :
    Inv w (begin w m s t c) := by
  unfold Concurrent.begin
  by_cases hb : c.key.backend = "jax"
  · rw [if_pos hb]
    cases hj : w.jaxInstalled with
    | true =>
      rw [if_pos rfl]
      exact Inv.goto (s := { s with x64 := Function.update s.x64 (m.proc t) true })
        ⟨h.memory, h.disk, h.pc, h.log⟩ t _ (fun h => by rw [hj] at h; cases h.2)
    | false =>
      rw [if_neg (by simp)]
      refine h.finish t c _ (.inl ?_)
      rw [uncached_eq, if_pos ⟨hb, hj⟩]
  · rw [if_neg hb]
    exact h.goto t _ (fun h => hb h.1)

theorem Inv.act (he : EqualArguments w) (hh : FaithfulHash w) {s : State T P E F H}
    (h : Inv w s) (a : Action T P E H) : Inv w (act w m s a) := by
  cases a with
  | call t c =>
    unfold Concurrent.act
    simp only
    split
    · exact h.begin t c
    · exact h
  | step t b => exact h.advance he hh t b
  | kill p =>
    refine ⟨?_, h.disk, ?_, h.log⟩
    · intro p' k f hm
      by_cases hp : p' = p
      · subst hp; simp [Concurrent.act] at hm
      · simp only [Concurrent.act, Function.update_of_ne hp] at hm
        exact h.memory _ _ _ hm
    · intro t
      simp only [Concurrent.act]
      split
      · trivial
      · exact h.pc t
  | remove h' =>
    refine ⟨h.memory, ?_, h.pc, h.log⟩
    intro k f hd
    by_cases hk : k = h'
    · subst hk; simp [Concurrent.act] at hd
    · simp only [Concurrent.act, Function.update_of_ne hk] at hd
      exact h.disk _ _ hd

theorem run_nil (s : State T P E F H) : run w m s [] = s := rfl

theorem run_cons (s : State T P E F H) (a : Action T P E H) (l : List (Action T P E H)) :
    run w m s (a :: l) = run w m (act w m s a) l := rfl

theorem run_append (s : State T P E F H) (l l' : List (Action T P E H)) :
    run w m s (l ++ l') = run w m (run w m s l) l' := by
  unfold run; rw [List.foldl_append]

theorem Inv.run (he : EqualArguments w) (hh : FaithfulHash w) {s : State T P E F H} (h : Inv w s)
    (l : List (Action T P E H)) : Inv w (run w m s l) := by
  induction l generalizing s with
  | nil => exact h
  | cons a l ih => exact ih (h.act he hh a)

theorem Inv.started {s : State T P E F H} (h : Started w s) : Inv w s := by
  obtain ⟨h1, _, h3, h4, _, h6⟩ := h
  refine ⟨?_, ?_, ?_, ?_⟩
  · intro p k f hm; rw [h1] at hm; cases hm
  · intro h f hd k hk
    rw [create_eq]
    exact h6 h f hd _ _ _ hk
  · intro t; rw [h3]; trivial
  · rw [h4]; intro _ _ _ hm; cases hm

/-! If files are put in place in one step, all can be loaded. -/

structure Atomic (s : State T P E F H) : Prop where
  disk : Readable s
  log : ∀ t c o, (t, c, o) ∈ s.log → o ≠ .unreadable

theorem Atomic.finish {s : State T P E F H} (h : Atomic s) (t : T) (c : Call E) (o : Outcome F)
    (ho : o ≠ .unreadable) : Atomic (finish s t c o) := by
  refine ⟨h.disk, ?_⟩
  intro t' c' o' hm
  rcases List.mem_cons.1 hm with hm | hm
  · simp only [Prod.mk.injEq] at hm
    obtain ⟨_, rfl, rfl⟩ := hm
    exact ho
  · exact h.log _ _ _ hm

theorem Atomic.act (ha : m.atomic = true) {s : State T P E F H}
    (h : Atomic s) (a : Action T P E H) : Atomic (act w m s a) := by
  cases a with
  | call t c =>
    unfold Concurrent.act Concurrent.begin
    simp only
    split
    · split
      · split
        · exact ⟨h.disk, h.log⟩
        · exact h.finish _ _ _ (by simp)
      · exact ⟨h.disk, h.log⟩
    · exact h
  | step t b =>
    show Atomic (Concurrent.advance w m s t b)
    unfold Concurrent.advance
    cases hs : s.pc t with
    | idle => exact h
    | called c =>
      simp only
      split
      · exact h.finish _ _ _ (by simp)
      · exact ⟨h.disk, h.log⟩
    | missed c =>
      simp only
      rcases h.disk (w.hash c.key) with hd | ⟨f, hd⟩ <;> rw [hd] <;> exact ⟨h.disk, h.log⟩
    | creating c =>
      simp only
      split
      · exact Atomic.finish (s := { s with created := c.key :: s.created }) ⟨h.disk, h.log⟩ _ _ _ (by simp)
      · exact ⟨h.disk, h.log⟩
    | created c f =>
      simp only
      rw [if_pos ha]
      exact ⟨h.disk, h.log⟩
    | writing c f =>
      refine ⟨?_, h.log⟩
      intro k
      simp only [Concurrent.goto, close, ha, if_true]
      by_cases hk : k = w.hash c.key
      · subst hk; exact .inr ⟨f, by simp⟩
      · rw [Function.update_of_ne hk]; exact h.disk k
    | done c f =>
      exact Atomic.finish (s := { s with memory := (Function.update s.memory (m.proc t)
        ((c.key, f) :: s.memory (m.proc t))) }) ⟨h.disk, h.log⟩ t c (.result (.ok f)) (by simp)
  | kill p => exact ⟨h.disk, h.log⟩
  | remove h' =>
    refine ⟨?_, h.log⟩
    intro k
    by_cases hk : k = h'
    · subst hk; exact .inl (by simp [Concurrent.act])
    · simp only [Concurrent.act, Function.update_of_ne hk]; exact h.disk k

theorem Atomic.run (ha : m.atomic = true) {s : State T P E F H} (h : Atomic s)
    (l : List (Action T P E H)) : Atomic (run w m s l) := by
  induction l generalizing s with
  | nil => exact h
  | cons a l ih => exact ih (h.act ha a)

/-! If calls do not overlap, all files that are looked for can be loaded. -/

structure Solo (w : Imports E F H) (m : Machine T P) (s : State T P E F H) : Prop where
  disk : ∀ h, (s.disk h = .absent ∨ ∃ f, s.disk h = .complete f) ∨
    ∃ t c f, s.pc t = .writing c f ∧ w.hash c.key = h ∧ s.disk h = .unfinished t
  one : ∀ t t', s.pc t ≠ .idle → s.pc t' ≠ .idle → t = t'
  log : ∀ t c o, (t, c, o) ∈ s.log → o ≠ .unreadable
  own : m.atomic = false → ∀ t c f, s.pc t = .writing c f →
    s.disk (w.hash c.key) = .absent ∨ s.disk (w.hash c.key) = .unfinished t

theorem underWay_none {s : State T P E F H} {t : T} (h : underWay s t = none) : s.pc t = .idle := by
  unfold underWay at h
  split at h
  · assumption
  all_goals cases h

theorem Solo.one_goto {s : State T P E F H} (h : Solo w m s) {t : T} (ht : s.pc t ≠ .idle) (l : Pc E F) :
    ∀ t₁ t₂, Function.update s.pc t l t₁ ≠ .idle → Function.update s.pc t l t₂ ≠ .idle → t₁ = t₂ := by
  have key : ∀ t₁, Function.update s.pc t l t₁ ≠ .idle → t₁ = t := by
    intro t₁ h1
    by_contra hne
    rw [Function.update_of_ne hne] at h1
    exact hne (h.one _ _ h1 ht)
  intro t₁ t₂ h1 h2
  rw [key t₁ h1, key t₂ h2]

/-- While the active thread does not write, all files can be loaded. -/
theorem Solo.readable {s : State T P E F H} (h : Solo w m s) {t : T} (ht : s.pc t ≠ .idle)
    (hw : ∀ c f, s.pc t ≠ .writing c f) : Readable s := by
  intro k
  rcases h.disk k with hd | ⟨t', c, f, h1, -, -⟩
  · exact hd
  · have : t' = t := h.one _ _ (by rw [h1]; simp) ht
    subst this
    exact absurd h1 (hw c f)

/-- If the active thread goes to a place where it does not write, none does. -/
theorem Solo.own_goto {s : State T P E F H} (h : Solo w m s) {t : T} (ht : s.pc t ≠ .idle) {l : Pc E F}
    (hl : ∀ c f, l ≠ .writing c f) (d : H → File T F) : m.atomic = false → ∀ t' c f,
      Function.update s.pc t l t' = .writing c f →
        d (w.hash c.key) = .absent ∨ d (w.hash c.key) = .unfinished t' := by
  intro _ t' c f h1
  by_cases hne : t' = t
  · subst hne
    rw [Function.update_self] at h1
    exact absurd h1 (hl c f)
  · rw [Function.update_of_ne hne] at h1
    exact absurd (h.one _ _ (by rw [h1]; simp) ht) hne

theorem Solo.logged {s : State T P E F H} (h : Solo w m s) (t : T) (c : Call E) {o : Outcome F}
    (ho : o ≠ .unreadable) : ∀ t' c' o', (t', c', o') ∈ (t, c, o) :: s.log → o' ≠ .unreadable := by
  intro t' c' o' hm
  rcases List.mem_cons.1 hm with hm | hm
  · simp only [Prod.mk.injEq] at hm
    obtain ⟨_, rfl, rfl⟩ := hm
    exact ho
  · exact h.log _ _ _ hm

theorem Solo.advance {s : State T P E F H} (h : Solo w m s) (t : T) (b : Bool) :
    Solo w m (advance w m s t b) := by
  unfold Concurrent.advance
  cases hs : s.pc t with
  | idle => exact h
  | called c =>
    have hne : s.pc t ≠ .idle := by rw [hs]; simp
    have hr := h.readable hne (by rw [hs]; simp)
    simp only
    split
    · exact ⟨fun k => .inl (hr k), h.one_goto hne _, h.logged t c (by simp), h.own_goto hne (by simp) _⟩
    · exact ⟨fun k => .inl (hr k), h.one_goto hne _, h.log, h.own_goto hne (by simp) _⟩
  | missed c =>
    have hne : s.pc t ≠ .idle := by rw [hs]; simp
    have hr := h.readable hne (by rw [hs]; simp)
    simp only
    rcases hr (w.hash c.key) with hd | ⟨f, hd⟩ <;> rw [hd] <;>
      exact ⟨fun k => .inl (hr k), h.one_goto hne _, h.log, h.own_goto hne (by simp) _⟩
  | creating c =>
    have hne : s.pc t ≠ .idle := by rw [hs]; simp
    have hr := h.readable hne (by rw [hs]; simp)
    simp only
    split
    · exact ⟨fun k => .inl (hr k), h.one_goto hne _, h.logged t c (by simp), h.own_goto hne (by simp) _⟩
    · exact ⟨fun k => .inl (hr k), h.one_goto hne _, h.log, h.own_goto hne (by simp) _⟩
  | created c f =>
    have hne : s.pc t ≠ .idle := by rw [hs]; simp
    have hr := h.readable hne (by rw [hs]; simp)
    simp only
    split
    · next ha => exact ⟨fun k => .inl (hr k), h.one_goto hne _, h.log, fun hf => by rw [hf] at ha; cases ha⟩
    · refine ⟨fun k => ?_, h.one_goto hne _, h.log, fun _ t' c' f' h1 => ?_⟩
      · by_cases hk : k = w.hash c.key
        · subst hk
          exact .inr ⟨t, c, f, by simp [goto], rfl, by simp [goto]⟩
        · simp only [goto, Function.update_of_ne hk]
          exact .inl (hr k)
      · by_cases ht : t' = t
        · subst ht
          simp only [goto, Function.update_self, Pc.writing.injEq] at h1
          obtain ⟨rfl, rfl⟩ := h1
          exact .inr (by simp [goto])
        · simp only [goto, Function.update_of_ne ht] at h1
          exact absurd (h.one _ _ (by rw [h1]; simp) hne) ht
  | writing c f =>
    have hne : s.pc t ≠ .idle := by rw [hs]; simp
    refine ⟨fun k => .inl ?_, h.one_goto hne _, h.log, h.own_goto hne (by simp) _⟩
    simp only [goto]
    by_cases hk : k = w.hash c.key
    · subst hk
      simp only [Function.update_self]
      unfold close
      split
      · exact .inr ⟨f, rfl⟩
      · next ha =>
        rcases h.own (by simpa using ha) t c f hs with hd | hd
        · rw [hd]; exact .inl rfl
        · rw [hd]; exact .inr ⟨f, by simp⟩
    · rw [Function.update_of_ne hk]
      rcases h.disk k with hd | ⟨t', c', f', h1, h2, hd⟩
      · exact hd
      · have : t' = t := h.one _ _ (by rw [h1]; simp) hne
        subst this
        rw [hs] at h1
        cases h1
        exact absurd h2.symm hk
  | done c f =>
    have hne : s.pc t ≠ .idle := by rw [hs]; simp
    have hr := h.readable hne (by rw [hs]; simp)
    exact ⟨fun k => .inl (hr k), h.one_goto hne _, h.logged t c (by simp), h.own_goto hne (by simp) _⟩

theorem Solo.act {s : State T P E F H} (h : Solo w m s) (a : Action T P E H)
    (ha : (∀ t', underWay s t' = none) ∨ (∃ t b, a = .step t b) ∨ ∃ k, a = .remove k) :
    Solo w m (act w m s a) := by
  have hidle : (∀ t', underWay s t' = none) → Readable s := by
    intro hi k
    rcases h.disk k with hd | ⟨t', c', f, h1, -, -⟩
    · exact hd
    · rw [underWay_none (hi t')] at h1; cases h1
  cases a with
  | call t c =>
    have hi : ∀ t', underWay s t' = none := by
      rcases ha with ha | ⟨_, _, ha⟩ | ⟨_, ha⟩
      · exact ha
      all_goals cases ha
    have hr := hidle hi
    have one (l : Pc E F) : ∀ t₁ t₂, Function.update s.pc t l t₁ ≠ .idle →
        Function.update s.pc t l t₂ ≠ .idle → t₁ = t₂ := by
      have key : ∀ t₁, Function.update s.pc t l t₁ ≠ .idle → t₁ = t := by
        intro t₁ h1
        by_contra hne
        rw [Function.update_of_ne hne] at h1
        exact h1 (underWay_none (hi t₁))
      intro t₁ t₂ h1 h2
      rw [key t₁ h1, key t₂ h2]
    have own (l : Pc E F) (hl : ∀ c f, l ≠ .writing c f) : m.atomic = false → ∀ t' c f,
        Function.update s.pc t l t' = .writing c f →
          s.disk (w.hash c.key) = .absent ∨ s.disk (w.hash c.key) = .unfinished t' := by
      intro _ t' c f h1
      by_cases hne : t' = t
      · subst hne
        rw [Function.update_self] at h1
        exact absurd h1 (hl c f)
      · rw [Function.update_of_ne hne, underWay_none (hi t')] at h1
        cases h1
    unfold Concurrent.act Concurrent.begin
    simp only
    split
    · split
      · split
        · exact ⟨fun k => .inl (hr k), one _, h.log, own _ (by simp)⟩
        · exact ⟨fun k => .inl (hr k), one _, h.logged t c (by simp), own _ (by simp)⟩
      · exact ⟨fun k => .inl (hr k), one _, h.log, own _ (by simp)⟩
    · exact h
  | step t b => exact h.advance t b
  | kill p =>
    have hi : ∀ t', underWay s t' = none := by
      rcases ha with ha | ⟨_, _, ha⟩ | ⟨_, ha⟩
      · exact ha
      all_goals cases ha
    have hpc : ∀ t, (Concurrent.act w m s (.kill p)).pc t = .idle := by
      intro t
      simp only [Concurrent.act]
      split
      · rfl
      · exact underWay_none (hi t)
    refine ⟨fun k => .inl (hidle hi k), ?_, h.log, ?_⟩
    · intro t t' h1
      exact absurd (hpc t) h1
    · intro _ t c f h1
      rw [hpc] at h1
      cases h1
  | remove k =>
    refine ⟨fun k' => ?_, h.one, h.log, fun hf t c f h1 => ?_⟩
    · by_cases hk : k' = k
      · subst hk; exact .inl (.inl (by simp [Concurrent.act]))
      · simp only [Concurrent.act, Function.update_of_ne hk]
        exact h.disk k'
    · by_cases hk : w.hash c.key = k
      · exact .inl (by simp [Concurrent.act, hk])
      · simp only [Concurrent.act, Function.update_of_ne hk]
        exact h.own hf t c f h1

theorem Solo.run {s : State T P E F H} (h : Solo w m s) (l : List (Action T P E H))
    (hl : OneAtATime w m s l) : Solo w m (run w m s l) := by
  induction l generalizing s with
  | nil => exact h
  | cons a l ih =>
    rw [run_cons]
    cases a with
    | call t c => exact ih (h.act _ (.inl hl.1)) hl.2
    | kill p => exact ih (h.act _ (.inl hl.1)) hl.2
    | step t b => exact ih (h.act _ (.inr (.inl ⟨t, b, rfl⟩))) hl
    | remove k => exact ih (h.act _ (.inr (.inr ⟨k, rfl⟩))) hl

/-! Every call ends. -/

def rank : Pc E F → ℕ
  | .idle => 0
  | .called _ => 6
  | .missed _ => 5
  | .creating _ => 4
  | .created _ _ => 3
  | .writing _ _ => 2
  | .done _ _ => 1

theorem rank_le (l : Pc E F) : rank l ≤ 6 := by cases l <;> simp [rank]

/-- A step of a thread in a call ends the call or comes closer to its end. -/
theorem advance_rank {s : State T P E F H} {t : T} {c : Call E} (hc : underWay s t = some c) (b : Bool) :
    (∃ o, (advance w m s t b).log = (t, c, o) :: s.log) ∨
      (advance w m s t b).log = s.log ∧ underWay (advance w m s t b) t = some c ∧
        rank ((advance w m s t b).pc t) < rank (s.pc t) := by
  unfold underWay at hc
  unfold advance
  cases hs : s.pc t with
  | idle => rw [hs] at hc; cases hc
  | called c' =>
    rw [hs] at hc; cases hc
    simp only
    split
    · exact .inl ⟨_, rfl⟩
    · exact .inr ⟨rfl, by simp [underWay, goto], by simp [goto, rank]⟩
  | missed c' =>
    rw [hs] at hc; cases hc
    simp only
    split
    · exact .inr ⟨rfl, by simp [underWay, goto], by simp [goto, rank]⟩
    · exact .inr ⟨rfl, by simp [underWay, goto], by simp [goto, rank]⟩
    · exact .inl ⟨_, rfl⟩
  | creating c' =>
    rw [hs] at hc; cases hc
    simp only
    split
    · exact .inl ⟨_, rfl⟩
    · exact .inr ⟨rfl, by simp [underWay, goto], by simp [goto, rank]⟩
  | created c' f =>
    rw [hs] at hc; cases hc
    simp only
    split
    · exact .inr ⟨rfl, by simp [underWay, goto], by simp [goto, rank]⟩
    · exact .inr ⟨rfl, by simp [underWay, goto], by simp [goto, rank]⟩
  | writing c' f =>
    rw [hs] at hc; cases hc
    exact .inr ⟨rfl, by simp [underWay, goto], by simp [goto, rank]⟩
  | done c' f =>
    rw [hs] at hc; cases hc
    exact .inl ⟨_, rfl⟩

theorem begin_other {s : State T P E F H} {t t' : T} (h : t' ≠ t) (c : Call E) :
    (begin w m s t' c).pc t = s.pc t := by
  unfold begin goto finish
  split
  · split <;> simp [Function.update_of_ne (Ne.symm h)]
  · simp [Function.update_of_ne (Ne.symm h)]

theorem advance_other {s : State T P E F H} {t t' : T} (h : t' ≠ t) (b : Bool) :
    (advance w m s t' b).pc t = s.pc t := by
  have hu : ∀ l : Pc E F, Function.update s.pc t' l t = s.pc t :=
    fun l => Function.update_of_ne (Ne.symm h) _ _
  unfold advance goto finish
  cases hs : s.pc t' with
  | idle => rfl
  | called c => simp only; split <;> exact hu _
  | missed c => simp only; split <;> exact hu _
  | creating c => simp only; split <;> exact hu _
  | created c f => simp only; split <;> exact hu _
  | writing c f => exact hu _
  | done c f => exact hu _

theorem advance_log (s : State T P E F H) (t : T) (b : Bool) :
    ∃ new, (advance w m s t b).log = new ++ s.log := by
  cases h : underWay s t with
  | none =>
    refine ⟨[], ?_⟩
    unfold underWay at h
    unfold advance
    split at h
    · next hs => rw [hs]; rfl
    all_goals cases h
  | some c =>
    rcases advance_rank h b (w := w) (m := m) with ⟨o, ho⟩ | ho
    · exact ⟨[(t, c, o)], ho⟩
    · exact ⟨[], ho.1⟩

theorem act_log (s : State T P E F H) (a : Action T P E H) :
    ∃ new, (act w m s a).log = new ++ s.log := by
  cases a with
  | call t c =>
    unfold act begin
    simp only
    split
    · split
      · split
        · exact ⟨[], rfl⟩
        · exact ⟨[_], rfl⟩
      · exact ⟨[], rfl⟩
    · exact ⟨[], rfl⟩
  | step t b => exact advance_log s t b
  | kill p => exact ⟨[], rfl⟩
  | remove h => exact ⟨[], rfl⟩

theorem run_log (s : State T P E F H) (l : List (Action T P E H)) :
    ∃ new, (run w m s l).log = new ++ s.log := by
  induction l generalizing s with
  | nil => exact ⟨[], rfl⟩
  | cons a l ih =>
    obtain ⟨n1, h1⟩ := ih (act w m s a)
    obtain ⟨n2, h2⟩ := act_log s a (w := w) (m := m)
    exact ⟨n1 ++ n2, by rw [run_cons, h1, h2, List.append_assoc]⟩

theorem underWay_congr {s s' : State T P E F H} {t : T} (h : s'.pc t = s.pc t) :
    underWay s' t = underWay s t := by
  unfold underWay; rw [h]

theorem run_ends (l : List (Action T P E H)) (s : State T P E F H) {t : T} {c : Call E}
    (hc : underWay s t = some c) (hk : .kill (m.proc t) ∉ l) (hn : rank (s.pc t) ≤ stepsOf t l) :
    ∃ new, (run w m s l).log = new ++ s.log ∧ ∃ o, (t, c, o) ∈ new := by
  induction l generalizing s with
  | nil =>
    unfold underWay at hc
    cases hs : s.pc t <;> rw [hs] at hn hc <;> simp [rank, stepsOf] at hn hc
  | cons a l ih =>
    have hk' : .kill (m.proc t) ∉ l := fun h => hk (List.mem_cons_of_mem _ h)
    -- an action that leaves the thread where it is
    have other : (act w m s a).pc t = s.pc t → stepsOf t (a :: l) = stepsOf t l →
        ∃ new, (run w m s (a :: l)).log = new ++ s.log ∧ ∃ o, (t, c, o) ∈ new := by
      intro h1 h2
      obtain ⟨n1, h3, o, ho⟩ := ih (act w m s a) ((underWay_congr h1).trans hc) hk'
        (by rw [h1, ← h2]; exact hn)
      obtain ⟨n2, h4⟩ := act_log s a (w := w) (m := m)
      exact ⟨n1 ++ n2, by rw [run_cons, h3, h4, List.append_assoc], o, List.mem_append_left _ ho⟩
    cases a with
    | call t' c' =>
      refine other ?_ rfl
      by_cases ht : t' = t
      · subst ht
        unfold act underWay at *
        cases hs : s.pc t' <;> rw [hs] at hc <;> simp_all
      · unfold act
        simp only
        split
        · exact begin_other ht c'
        · rfl
    | step t' b =>
      by_cases ht : t' = t
      · subst ht
        rcases advance_rank hc b (w := w) (m := m) with ⟨o, ho⟩ | ⟨h1, h2, h3⟩
        · obtain ⟨n, hn'⟩ := run_log (act w m s (.step t' b)) l (w := w) (m := m)
          refine ⟨n ++ [(t', c, o)], ?_, o, by simp⟩
          rw [run_cons, hn']
          show n ++ (advance w m s t' b).log = _
          rw [ho, List.append_assoc]; rfl
        · simp only [stepsOf, if_true] at hn
          obtain ⟨n, h4, h5⟩ := ih (act w m s (.step t' b)) h2 hk'
            (by show rank ((advance w m s t' b).pc t') ≤ _; omega)
          refine ⟨n, ?_, h5⟩
          rw [run_cons, h4]
          show n ++ (advance w m s t' b).log = _
          rw [h1]
      · exact other (advance_other ht b) (by simp [stepsOf, ht])
    | kill p =>
      refine other ?_ rfl
      simp only [act]
      rw [if_neg]
      rintro rfl
      exact hk (by simp)
    | remove h => exact other rfl rfl

theorem begin_cases (s : State T P E F H) (t : T) (c : Call E) :
    (∃ o, (begin w m s t c).log = (t, c, o) :: s.log) ∨
      (begin w m s t c).log = s.log ∧ underWay (begin w m s t c) t = some c := by
  unfold begin
  split
  · split
    · exact .inr ⟨rfl, by simp [underWay, goto]⟩
    · exact .inl ⟨_, rfl⟩
  · exact .inr ⟨rfl, by simp [underWay, goto]⟩

/-! Double precision. -/

def Precise (m : Machine T P) (s : State T P E F H) : Prop :=
  ∀ t c, underWay s t = some c → c.key.backend = "jax" → s.x64 (m.proc t) = true

theorem advance_x64 (s : State T P E F H) (t : T) (b : Bool) : (advance w m s t b).x64 = s.x64 := by
  unfold advance
  cases hs : s.pc t with
  | idle => rfl
  | called c => simp only; split <;> rfl
  | missed c => simp only; split <;> rfl
  | creating c => simp only; split <;> rfl
  | created c f => simp only; split <;> rfl
  | writing c f => rfl
  | done c f => rfl

/-- A step does not change the call of the thread, but may end it. -/
theorem advance_underWay {s : State T P E F H} {t t' : T} {b : Bool} {c : Call E}
    (h : underWay (advance w m s t b) t' = some c) : underWay s t' = some c := by
  by_cases ht : t = t'
  · subst ht
    cases hs : s.pc t with
    | idle =>
      have : advance w m s t b = s := by unfold advance; rw [hs]
      rwa [this] at h
    | called c' =>
      unfold advance at h; rw [hs] at h; simp only at h
      split at h <;> simp [underWay, goto, finish] at h <;> simp [underWay, hs, h]
    | missed c' =>
      unfold advance at h; rw [hs] at h; simp only at h
      split at h <;> simp [underWay, goto, finish] at h <;> simp [underWay, hs, h]
    | creating c' =>
      unfold advance at h; rw [hs] at h; simp only at h
      split at h <;> simp [underWay, goto, finish] at h <;> simp [underWay, hs, h]
    | created c' f =>
      unfold advance at h; rw [hs] at h; simp only at h
      split at h <;> simp [underWay, goto] at h <;> simp [underWay, hs, h]
    | writing c' f =>
      unfold advance at h; rw [hs] at h
      simp [underWay, goto] at h; simp [underWay, hs, h]
    | done c' f =>
      unfold advance at h; rw [hs] at h
      simp [underWay, finish] at h
  · rwa [underWay_congr (advance_other ht b)] at h

theorem Precise.act {s : State T P E F H} (h : Precise m s) (a : Action T P E H) :
    Precise m (act w m s a) := by
  intro t c hu hb
  cases a with
  | call t' c' =>
    unfold Concurrent.act at hu ⊢
    simp only at hu ⊢
    split at hu
    · unfold Concurrent.begin at hu ⊢
      by_cases hj : c'.key.backend = "jax"
      · rw [if_pos hj] at hu ⊢
        cases hi : w.jaxInstalled with
        | true =>
          rw [if_pos hi] at hu
          simp only [if_true, goto]
          by_cases hp : m.proc t = m.proc t'
          · rw [hp, Function.update_self]
          · rw [Function.update_of_ne hp]
            have ht : t' ≠ t := by rintro rfl; exact hp rfl
            refine h t c ?_ hb
            rwa [underWay_congr (s := s)] at hu
            simp [goto, Function.update_of_ne (Ne.symm ht)]
        | false =>
          rw [if_neg (by rw [hi]; simp)] at hu
          simp only [finish]
          by_cases ht : t' = t
          · subst ht; simp [underWay, finish] at hu
          · refine h t c ?_ hb
            rwa [underWay_congr (s := s)] at hu
            simp [finish, Function.update_of_ne (Ne.symm ht)]
      · rw [if_neg hj] at hu ⊢
        by_cases ht : t' = t
        · subst ht
          simp [underWay, goto] at hu
          exact absurd (hu ▸ hb) hj
        · refine h t c ?_ hb
          rwa [underWay_congr (s := s)] at hu
          simp [goto, Function.update_of_ne (Ne.symm ht)]
    · exact h t c hu hb
  | step t' b =>
    show (Concurrent.advance w m s t' b).x64 _ = true
    rw [advance_x64]
    exact h t c (advance_underWay hu) hb
  | kill p =>
    by_cases hp : m.proc t = p
    · simp [Concurrent.act, underWay, hp] at hu
    · simp only [Concurrent.act, Function.update_of_ne hp]
      refine h t c ?_ hb
      rwa [underWay_congr (s := s)] at hu
      simp [Concurrent.act, hp]
  | remove h' => exact h t c hu hb

theorem Precise.run {s : State T P E F H} (h : Precise m s) (l : List (Action T P E H)) :
    Precise m (run w m s l) := by
  induction l generalizing s with
  | nil => exact h
  | cons a l ih => exact ih (h.act a)

/-! A single thread. -/

theorem advance_idle {s : State T P E F H} {t : T} (h : s.pc t = .idle) (b : Bool) :
    advance w m s t b = s := by
  unfold advance; rw [h]

theorem steps_idle {s : State T P E F H} {t : T} (h : s.pc t = .idle) (n : ℕ) :
    run w m s (List.replicate n (.step t false)) = s := by
  induction n with
  | zero => rfl
  | succ n ih =>
    rw [List.replicate_succ, run_cons]
    show run w m (advance w m s t false) _ = _
    rw [advance_idle h, ih]

theorem step_succ (s : State T P E F H) (t : T) (n : ℕ) :
    run w m s (List.replicate (n + 1) (.step t false)) =
      run w m (advance w m s t false) (List.replicate n (.step t false)) := by
  rw [List.replicate_succ, run_cons]; rfl

/-- The steps of a call of a thread that is alone. -/
theorem call_alone {s : State T P E F H} {t : T} {st : Store E F H} (h : SameAs m s t st) (c : Call E) :
    let s' := run w m s (.call t c :: List.replicate 6 (.step t false))
    let r := lambdify w st c.expr c.parameters c.backend
    s'.log = (t, c, .result r.1) :: s.log ∧ SameAs m s' t r.2 := by
  obtain ⟨h1, h2, h3, h4, h5⟩ := h
  intro s' r
  have hr : r = _ := lambdify_eq st c.expr c.parameters c.backend
  rw [← key_backend, ← key_eq] at hr
  have hs' : s' = run w m (begin w m s t c) (List.replicate 6 (.step t false)) := by
    show run w m (act w m s (.call t c)) _ = _
    unfold act
    simp only [h1]
  clear_value s' r
  subst hr hs'
  by_cases hj : c.key.backend = "jax" ∧ w.jaxInstalled = false
  · have hb : begin w m s t c = finish s t c (.result (.error .importError)) := by
      unfold begin; rw [if_pos hj.1, if_neg (by simp [hj.2])]
    rw [hb, steps_idle (by simp [finish]), if_pos hj]
    exact ⟨rfl, by simp [finish], h2, h3, h4, h5⟩
  rw [if_neg hj]
  -- after the setting of the precision
  obtain ⟨x, hx, hb⟩ : ∃ x : P → Bool,
      x (m.proc t) = (if c.key.backend = "jax" then { st with x64 := true } else st).x64 ∧
      begin w m s t c = goto { s with x64 := x } t (.called c) := by
    by_cases hk : c.key.backend = "jax"
    · have hi : w.jaxInstalled = true := by
        cases hi : w.jaxInstalled
        · exact absurd ⟨hk, hi⟩ hj
        · rfl
      refine ⟨Function.update s.x64 (m.proc t) true, by simp [hk], ?_⟩
      unfold begin; rw [if_pos hk, if_pos hi]
    · refine ⟨s.x64, by simp [hk, h3], ?_⟩
      unfold begin; rw [if_neg hk]
  rw [hb]
  obtain ⟨st', hst', hm, hd, hc⟩ : ∃ st', st' = (if c.key.backend = "jax" then { st with x64 := true } else st) ∧
      st'.memory = st.memory ∧ st'.disk = st.disk ∧ st'.created = st.created := by
    refine ⟨_, rfl, ?_⟩
    split <;> exact ⟨rfl, rfl, rfl⟩
  rw [← hst'] at hx ⊢
  unfold lambdifyImpl throughDisk
  rw [hm, hd, step_succ]
  have hp (s : State T P E F H) (l : Pc E F) : (goto s t l).pc t = l := by simp [goto]
  cases hf : st.memory.find? (fun x => x.1.beq c.key) with
  | some y =>
    have ha : advance w m (goto { s with x64 := x } t (.called c)) t false =
        finish (goto { s with x64 := x } t (.called c)) t c (.result (.ok y.2)) := by
      unfold advance; rw [hp]
      show (match List.find? _ (s.memory (m.proc t)) with | some x => _ | none => _) = _
      rw [h2, hf]
    rw [ha, steps_idle (by simp [finish])]
    exact ⟨rfl, by simp [finish], h2.trans hm.symm, hx, h4.trans hc.symm, by rw [hd]; exact h5⟩
  | none =>
    have ha : advance w m (goto { s with x64 := x } t (.called c)) t false =
        goto (goto { s with x64 := x } t (.called c)) t (.missed c) := by
      conv_lhs => unfold advance
      rw [hp]
      show (match List.find? _ (s.memory (m.proc t)) with | some x => _ | none => _) = _
      rw [h2, hf]
    rw [ha, step_succ]
    cases hfd : st.disk.find? (fun x => x.1 = w.hash c.key) with
    | some y =>
      have hdk : s.disk (w.hash c.key) = .complete y.2 := by rw [h5, hfd]
      have ha : advance w m (goto (goto { s with x64 := x } t (.called c)) t (.missed c)) t false =
          goto { s with x64 := x } t (.done c y.2) := by
        conv_lhs => unfold advance
        rw [hp]
        show (match s.disk (w.hash c.key) with | .absent => _ | .complete f => _ | _ => _) = _
        rw [hdk]
        simp [goto]
      rw [ha, step_succ]
      have ha : advance w m (goto { s with x64 := x } t (.done c y.2)) t false =
          finish { s with x64 := x, memory := (Function.update s.memory (m.proc t)
            ((c.key, y.2) :: s.memory (m.proc t))) } t c (.result (.ok y.2)) := by
        conv_lhs => unfold advance
        rw [hp]
        simp [goto, finish]
      rw [ha, steps_idle (by simp [finish])]
      refine ⟨rfl, by simp [finish], ?_, hx, h4.trans hc.symm, by rw [hd]; exact h5⟩
      simp [finish, h2, hm]
    | none =>
      have hdk : s.disk (w.hash c.key) = .absent := by rw [h5, hfd]
      have ha : advance w m (goto (goto { s with x64 := x } t (.called c)) t (.missed c)) t false =
          goto { s with x64 := x } t (.creating c) := by
        conv_lhs => unfold advance
        rw [hp]
        show (match s.disk (w.hash c.key) with | .absent => _ | .complete f => _ | _ => _) = _
        rw [hdk]
        simp [goto]
      rw [ha, step_succ]
      cases hcr : create w c.key with
      | error e =>
        have ha : advance w m (goto { s with x64 := x } t (.creating c)) t false =
            finish { s with x64 := x, created := c.key :: s.created } t c (.result (.error e)) := by
          conv_lhs => unfold advance
          rw [hp]
          simp only [hcr]
          simp [goto, finish]
        rw [ha, steps_idle (by simp [finish])]
        refine ⟨rfl, by simp [finish], h2, hx, ?_, h5⟩
        simp [finish, h4, hc]
      | ok f =>
        have ha : advance w m (goto { s with x64 := x } t (.creating c)) t false =
            goto { s with x64 := x, created := c.key :: s.created } t (.created c f) := by
          conv_lhs => unfold advance
          rw [hp]
          simp only [hcr]
          simp [goto]
        rw [ha, step_succ]
        obtain ⟨d, hdd, hdc, ha⟩ : ∃ d : H → File T F, (∀ h, h ≠ w.hash c.key → d h = s.disk h) ∧
            (m.atomic = false → d (w.hash c.key) = .unfinished t) ∧
            advance w m (goto { s with x64 := x, created := c.key :: s.created } t (.created c f)) t false =
            goto { s with x64 := x, created := c.key :: s.created, disk := d } t (.writing c f) := by
          cases hat : m.atomic with
          | true =>
            refine ⟨s.disk, fun _ _ => rfl, (fun h => by cases h), ?_⟩
            conv_lhs => unfold advance
            rw [hp]
            simp only [hat, if_true]
            simp [goto]
          | false =>
            refine ⟨Function.update s.disk (w.hash c.key) (.unfinished t),
              fun _ h => Function.update_of_ne h _ _, fun _ => by simp, ?_⟩
            conv_lhs => unfold advance
            rw [hp]
            simp only [hat]
            simp [goto]
        rw [ha, step_succ]
        have hcl : close m (d (w.hash c.key)) t f false = .complete f := by
          unfold close
          cases hat : m.atomic with
          | true => simp
          | false => rw [hdc hat]; simp
        have ha : advance w m (goto { s with x64 := x, created := c.key :: s.created, disk := d } t (.writing c f)) t false =
            goto { s with x64 := x, created := c.key :: s.created, disk := Function.update d (w.hash c.key) (.complete f) } t (.done c f) := by
          conv_lhs => unfold advance
          rw [hp]
          simp only [goto, hcl, Function.update_idem]
        rw [ha, step_succ]
        have ha : advance w m (goto { s with x64 := x, created := c.key :: s.created, disk := Function.update d (w.hash c.key) (.complete f) } t (.done c f)) t false =
            finish { s with
              x64 := x
              created := c.key :: s.created
              disk := Function.update d (w.hash c.key) (.complete f)
              memory := Function.update s.memory (m.proc t) ((c.key, f) :: s.memory (m.proc t)) } t c (.result (.ok f)) := by
          conv_lhs => unfold advance
          rw [hp]
          simp [goto, finish]
        rw [ha]
        refine ⟨rfl, by simp [finish, run], ?_, hx, ?_, ?_⟩
        · simp [finish, h2, hm, run]
        · simp [finish, h4, hc, run]
        · intro h
          simp only [finish, run, List.replicate, List.foldl_nil, List.find?_cons]
          by_cases hh : h = w.hash c.key
          · subst hh; simp
          · rw [Function.update_of_ne hh, hdd h hh, h5 h]
            simp [Ne.symm hh]

theorem run_alone (history : List (Event E)) {s : State T P E F H} {t : T} {st : Store E F H}
    (h : SameAs m s t st) :
    ((run w m s (alone m t history)).log.map fun x => x.2.2) =
      ((Cached.run w st history).1.map .result).reverse ++ s.log.map (fun x => x.2.2) ∧
    SameAs m (run w m s (alone m t history)) t (Cached.run w st history).2 := by
  induction history generalizing s st with
  | nil => exact ⟨by simp [alone, run, Cached.run], h⟩
  | cons ev l ih =>
    cases ev with
    | call e p b =>
      obtain ⟨h1, h2⟩ := call_alone h ⟨e, p, b⟩ (w := w)
      obtain ⟨h3, h4⟩ := ih h2
      have hr : run w m s (alone m t (.call e p b :: l)) =
          run w m (run w m s (.call t ⟨e, p, b⟩ :: List.replicate 6 (.step t false))) (alone m t l) := by
        rw [← run_append]
        rfl
      rw [hr]
      refine ⟨?_, h4⟩
      rw [h3, h1]
      simp [Cached.run, Cached.step]
    | restart =>
      have h' : SameAs m (act w m s (.kill (m.proc t))) t { st with memory := [], x64 := false } := by
        obtain ⟨h1, h2, h3, h4, h5⟩ := h
        exact ⟨by simp [act], by simp [act], by simp [act], h4, h5⟩
      obtain ⟨h3, h4⟩ := ih h'
      exact ⟨h3, h4⟩

/-! A file that cannot be loaded. -/

def StuckPc (w : Imports E F H) (k : Key E) : Pc E F → Prop
  | .creating c | .created c _ | .writing c _ => w.hash c.key ≠ w.hash k
  | .done c _ => c.key ≠ k
  | _ => True

/-- The file for arguments without a mapping cannot be loaded, and no thread is about to write it. -/
structure Stuck (w : Imports E F H) (k : Key E) (s : State T P E F H) : Prop where
  disk : (∃ t, s.disk (w.hash k) = .unfinished t) ∨ s.disk (w.hash k) = .damaged
  memory : ∀ p x, x ∈ s.memory p → x.1 ≠ k
  pc : ∀ t, StuckPc w k (s.pc t)

theorem beq_none {k k' : Key E} (h : k'.parameters = none) (hb : k.beq k' = true) : k = k' := by
  obtain ⟨e, p, b⟩ := k
  obtain ⟨e', p', b'⟩ := k'
  subst h
  unfold Key.beq at hb
  cases p <;> simp at hb
  simp [hb.1, hb.2]

/-- The calls that a step adds to the log, for arguments whose file cannot be loaded. -/
def StuckLog (w : Imports E F H) (k : Key E) (new : List (T × Call E × Outcome F)) : Prop :=
  ∀ t c o, (t, c, o) ∈ new → c.key = k → Usable w c → o = .unreadable

theorem Stuck.goto {k : Key E} {s : State T P E F H} (h : Stuck w k s) (t : T) {l : Pc E F}
    (hl : StuckPc w k l) : Stuck w k (goto s t l) := by
  refine ⟨h.disk, h.memory, fun t' => ?_⟩
  by_cases ht : t' = t
  · subst ht; simpa [Concurrent.goto] using hl
  · simpa [Concurrent.goto, ht] using h.pc t'

theorem Stuck.finish {k : Key E} {s : State T P E F H} (h : Stuck w k s) (t : T) (c : Call E)
    (o : Outcome F) : Stuck w k (finish s t c o) := by
  refine ⟨h.disk, h.memory, fun t' => ?_⟩
  by_cases ht : t' = t
  · subst ht; simp [Concurrent.finish, StuckPc]
  · simpa [Concurrent.finish, ht] using h.pc t'

theorem Stuck.setDisk {k : Key E} {s : State T P E F H} (h : Stuck w k s) {h' : H}
    (hne : h' ≠ w.hash k) (file : File T F) :
    Stuck w k { s with disk := Function.update s.disk h' file } := by
  refine ⟨?_, h.memory, h.pc⟩
  simp only [Function.update_of_ne (Ne.symm hne)]
  exact h.disk

theorem Stuck.advance {k : Key E} (hk : k.parameters = none) {s : State T P E F H}
    (h : Stuck w k s) (t : T) (b : Bool) :
    Stuck w k (advance w m s t b) ∧
      ∃ new, (advance w m s t b).log = new ++ s.log ∧ StuckLog w k new := by
  have hpc := h.pc t
  have nolog : ∃ new, s.log = new ++ s.log ∧ StuckLog w k new :=
    ⟨[], rfl, fun _ _ _ hm => by cases hm⟩
  have onelog (c : Call E) (o : Outcome F) (hc : c.key = k → o = .unreadable) :
      ∃ new, (t, c, o) :: s.log = new ++ s.log ∧ StuckLog w k new := by
    refine ⟨[(t, c, o)], rfl, ?_⟩
    intro t' c' o' hm hk' _
    simp only [List.mem_singleton, Prod.mk.injEq] at hm
    obtain ⟨_, rfl, rfl⟩ := hm
    exact hc hk'
  unfold Concurrent.advance
  cases hs : s.pc t with
  | idle => exact ⟨h, nolog⟩
  | called c =>
    simp only
    cases hf : (s.memory (m.proc t)).find? (fun x => x.1.beq c.key) with
    | none => exact ⟨h.goto t trivial, nolog⟩
    | some x =>
      refine ⟨h.finish t c _, onelog c _ fun hc => ?_⟩
      have hp : x.1.beq c.key = true := by simpa using List.find?_some hf
      rw [hc] at hp
      exact absurd (beq_none hk hp) (h.memory _ x (List.mem_of_find?_eq_some hf))
  | missed c =>
    simp only
    cases hd : s.disk (w.hash c.key) with
    | absent =>
      refine ⟨h.goto t ?_, nolog⟩
      intro hh
      rw [hh] at hd
      rcases h.disk with ⟨_, h1⟩ | h1 <;> rw [h1] at hd <;> cases hd
    | unfinished t' => exact ⟨h.finish t c _, onelog c _ fun _ => rfl⟩
    | damaged => exact ⟨h.finish t c _, onelog c _ fun _ => rfl⟩
    | complete f =>
      refine ⟨h.goto t ?_, nolog⟩
      intro hh
      rw [hh] at hd
      rcases h.disk with ⟨_, h1⟩ | h1 <;> rw [h1] at hd <;> cases hd
  | creating c =>
    rw [hs] at hpc
    simp only
    have h' : Stuck w k { s with created := c.key :: s.created } := ⟨h.disk, h.memory, h.pc⟩
    cases hc : create w c.key with
    | error e => exact ⟨h'.finish t c _, onelog c _ fun hc => absurd (congrArg w.hash hc) hpc⟩
    | ok f => exact ⟨h'.goto t hpc, nolog⟩
  | created c f =>
    rw [hs] at hpc
    simp only
    split
    · exact ⟨h.goto t hpc, nolog⟩
    · exact ⟨(h.setDisk hpc _).goto t hpc, nolog⟩
  | writing c f =>
    rw [hs] at hpc
    exact ⟨(h.setDisk hpc _).goto t (fun hc => hpc (congrArg w.hash hc)), nolog⟩
  | done c f =>
    rw [hs] at hpc
    simp only
    refine ⟨Stuck.finish (s := { s with memory := Function.update s.memory (m.proc t) _ })
      ⟨h.disk, ?_, h.pc⟩ t c _, onelog c _ fun hc => absurd hc hpc⟩
    intro p x hm
    by_cases hp : p = m.proc t
    · subst hp
      simp only [Function.update_self] at hm
      rcases List.mem_cons.1 hm with hm | hm
      · subst hm; exact hpc
      · exact h.memory _ _ hm
    · simp only [Function.update_of_ne hp] at hm
      exact h.memory _ _ hm

theorem Stuck.act {k : Key E} (hk : k.parameters = none) {s : State T P E F H}
    (h : Stuck w k s) (a : Action T P E H) (ha : a ≠ .remove (w.hash k)) :
    Stuck w k (act w m s a) ∧ ∃ new, (act w m s a).log = new ++ s.log ∧ StuckLog w k new := by
  have nolog : ∃ new, s.log = new ++ s.log ∧ StuckLog w k new :=
    ⟨[], rfl, fun _ _ _ hm => by cases hm⟩
  cases a with
  | call t c =>
    unfold Concurrent.act Concurrent.begin
    simp only
    split
    · by_cases hj : c.key.backend = "jax"
      · rw [if_pos hj]
        cases hi : w.jaxInstalled with
        | true =>
          rw [if_pos rfl]
          exact ⟨Stuck.goto (s := { s with x64 := Function.update s.x64 (m.proc t) true })
            ⟨h.disk, h.memory, h.pc⟩ t (l := .called c) trivial, nolog⟩
        | false =>
          rw [if_neg (by simp)]
          refine ⟨h.finish t c _, [_], rfl, ?_⟩
          intro t' c' o' hm hk' hu
          simp only [List.mem_singleton, Prod.mk.injEq] at hm
          obtain ⟨_, rfl, rfl⟩ := hm
          exact absurd ⟨hj, hi⟩ hu
      · rw [if_neg hj]
        exact ⟨h.goto t trivial, nolog⟩
    · exact ⟨h, nolog⟩
  | step t b => exact h.advance hk t b
  | kill p =>
    refine ⟨⟨h.disk, ?_, ?_⟩, nolog⟩
    · intro p' x hm
      by_cases hp : p' = p
      · subst hp; simp [Concurrent.act] at hm
      · simp only [Concurrent.act, Function.update_of_ne hp] at hm
        exact h.memory _ _ hm
    · intro t
      simp only [Concurrent.act]
      split
      · trivial
      · exact h.pc t
  | remove h' => exact ⟨h.setDisk (by rintro rfl; exact ha rfl) _, nolog⟩

theorem Stuck.run {k : Key E} (hk : k.parameters = none) {s : State T P E F H}
    (h : Stuck w k s) (l : List (Action T P E H)) (hl : .remove (w.hash k) ∉ l) :
    Stuck w k (run w m s l) ∧ ∃ new, (run w m s l).log = new ++ s.log ∧ StuckLog w k new := by
  induction l generalizing s with
  | nil => exact ⟨h, [], rfl, fun _ _ _ hm => by cases hm⟩
  | cons a l ih =>
    obtain ⟨h1, n1, h2, h3⟩ := h.act hk a (fun ha => hl (by simp [ha])) (m := m)
    obtain ⟨h4, n2, h5, h6⟩ := ih h1 (fun ha => hl (List.mem_cons_of_mem _ ha))
    refine ⟨h4, n2 ++ n1, by rw [run_cons, h5, h2, List.append_assoc], ?_⟩
    intro t c o hm
    rcases List.mem_append.1 hm with hm | hm
    · exact h6 t c o hm
    · exact h3 t c o hm

/-! A thread that is alone once its file was removed. -/

/-- The call is under way and the file was not there when it was looked for, or it ended without
looking at a file that cannot be loaded. -/
def Clean (w : Imports E F H) (s₀ : State T P E F H) (t : T) (c : Call E) (s : State T P E F H) : Prop :=
  (s.log = s₀.log ∧ underWay s t = some c ∧
    (5 ≤ rank (s.pc t) → s.disk (w.hash c.key) = .absent)) ∨
  ∃ r, s.log = (t, c, .result r) :: s₀.log ∧ s.pc t = .idle

theorem Clean.advance {s₀ s : State T P E F H} {t : T} {c : Call E} (h : Clean w s₀ t c s) (b : Bool) :
    Clean w s₀ t c (advance w m s t b) := by
  rcases h with ⟨h1, h2, h3⟩ | ⟨r, h1, h2⟩
  · unfold underWay at h2
    unfold Concurrent.advance
    cases hs : s.pc t with
    | idle => rw [hs] at h2; cases h2
    | called c' =>
      rw [hs] at h2 h3; cases h2
      simp only
      split
      · exact .inr ⟨_, congrArg (_ :: ·) h1, by simp [finish]⟩
      · exact .inl ⟨h1, by simp [underWay, goto], fun _ => h3 (by simp [rank])⟩
    | missed c' =>
      rw [hs] at h2 h3; cases h2
      simp only [h3 (by simp [rank])]
      exact .inl ⟨h1, by simp [underWay, goto], fun h => by simp [goto, rank] at h⟩
    | creating c' =>
      rw [hs] at h2; cases h2
      simp only
      split
      · exact .inr ⟨_, congrArg (_ :: ·) h1, by simp [finish]⟩
      · exact .inl ⟨h1, by simp [underWay, goto], fun h => by simp [goto, rank] at h⟩
    | created c' f =>
      rw [hs] at h2; cases h2
      simp only
      split
      · exact .inl ⟨h1, by simp [underWay, goto], fun h => by simp [goto, rank] at h⟩
      · exact .inl ⟨h1, by simp [underWay, goto], fun h => by simp [goto, rank] at h⟩
    | writing c' f =>
      rw [hs] at h2; cases h2
      exact .inl ⟨h1, by simp [underWay, goto], fun h => by simp [goto, rank] at h⟩
    | done c' f =>
      rw [hs] at h2; cases h2
      exact .inr ⟨_, congrArg (_ :: ·) h1, by simp [finish]⟩
  · rw [advance_idle h2]
    exact .inr ⟨r, h1, h2⟩

theorem Clean.steps {s₀ s : State T P E F H} {t : T} {c : Call E} (h : Clean w s₀ t c s) (n : ℕ) :
    Clean w s₀ t c (run w m s (List.replicate n (.step t false))) := by
  induction n generalizing s with
  | zero => exact h
  | succ n ih => rw [step_succ]; exact ih (h.advance false)

theorem stepsOf_replicate (t : T) (n : ℕ) :
    stepsOf t (List.replicate n (.step t false) : List (Action T P E H)) = n := by
  induction n with
  | zero => rfl
  | succ n ih => rw [List.replicate_succ]; simp [stepsOf, ih, Nat.add_comm]

/-- A call of a thread that is alone and whose file is absent. -/
theorem call_clean {s : State T P E F H} {t : T} {c : Call E} (h : s.pc t = .idle)
    (hd : s.disk (w.hash c.key) = .absent) :
    ∃ r, (run w m s (.call t c :: List.replicate 6 (.step t false))).log = (t, c, .result r) :: s.log := by
  have ha : act w m s (.call t c) = begin w m s t c := by unfold act; simp only [h]
  rw [run_cons, ha]
  have hb : Clean w s t c (begin w m s t c) := by
    unfold begin
    split
    · split
      · exact .inl ⟨rfl, by simp [underWay, goto], fun _ => hd⟩
      · exact .inr ⟨_, rfl, by simp [finish]⟩
    · exact .inl ⟨rfl, by simp [underWay, goto], fun _ => hd⟩
  rcases hb.steps 6 (m := m) with ⟨h1, h2, -⟩ | ⟨r, h1, -⟩
  · rcases begin_cases s t c (w := w) (m := m) with ⟨o, ho⟩ | ⟨h3, h4⟩
    · obtain ⟨new, hn⟩ := run_log (begin w m s t c) (List.replicate 6 (.step t false)) (w := w) (m := m)
      rw [hn, ho] at h1
      have := congrArg List.length h1
      simp at this
      omega
    · obtain ⟨new, hn, o, ho⟩ := run_ends (List.replicate 6 (.step t false)) (begin w m s t c) h4
        (by simp) (by rw [stepsOf_replicate]; exact rank_le _) (w := w)
      rw [hn, h3] at h1
      have := congrArg List.length h1
      simp at this
      subst this
      cases ho
  · exact ⟨r, h1⟩

end Verif.Cached.Concurrent
