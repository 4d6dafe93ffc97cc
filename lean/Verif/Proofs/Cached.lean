import Verif.Spec.Cached
import Verif.Proofs.PyDict
import Mathlib.Data.List.Pairwise

/-! Caching of `lambdify`. -/
set_option linter.unusedSectionVars false
namespace Verif.Cached
open Verif

variable {E F H : Type} [DecidableEq E] [DecidableEq H] {w : Imports E F H}

theorem create_eq (k : Key E) : create w k = body w k.expr k.parameters k.backend := by
  unfold create body; cases k.parameters <;> rfl

theorem value_eq_iff (x y : Number) : x.value = y.value ↔ asComplex x = asComplex y := by
  have h : ∀ x : Number, asComplex x = ⟨x.value.1, x.value.2⟩ := by
    intro x
    rcases x with b | z | q | ⟨a, b⟩
    · cases b <;> simp [asComplex, Number.value, Complex.ext_iff]
    all_goals simp [asComplex, Number.value, Complex.ext_iff]
  rw [h, h, Complex.mk.injEq, Prod.ext_iff]
  norm_cast

theorem map_value_eq_iff (x y : Option Number) :
    x.map Number.value = y.map Number.value ↔ x.map asComplex = y.map asComplex := by
  cases x <;> cases y <;> simp [value_eq_iff]

theorem beq_iff {p q : Parameters} : p.beq q = true ↔ SameParameters p q := by
  unfold Parameters.beq SameParameters
  rw [List.all_eq_true]
  simp only [decide_eq_true_eq, map_value_eq_iff, List.mem_append]
  refine ⟨fun h s => ?_, fun h s _ => h s⟩
  by_cases hp : s ∈ PyDict.keys p
  · exact h s (.inl hp)
  · by_cases hq : s ∈ PyDict.keys q
    · exact h s (.inr hq)
    · rw [PyDict.get?_eq_none.2 hp, PyDict.get?_eq_none.2 hq]

theorem create_of_beq (hw : EqualArguments w) {k k' : Key E} (h : k.beq k' = true) :
    create w k = create w k' := by
  obtain ⟨e, p, b⟩ := k
  obtain ⟨e', p', b'⟩ := k'
  unfold Key.beq at h
  simp only [Bool.and_eq_true, decide_eq_true_eq] at h
  obtain ⟨⟨rfl, rfl⟩, h⟩ := h
  cases p <;> cases p' <;> simp only at h
  · rfl
  · cases h
  · cases h
  · exact hw _ _ _ _ (beq_iff.1 h)

theorem create_of_hash (hw : FaithfulHash w) {k k' : Key E} (h : w.hash k = w.hash k') :
    create w k = create w k' := by
  rw [create_eq, create_eq]
  exact hw _ _ _ _ _ _ h

/-- What is stored was returned for the key or hash under which it is stored. -/
def Consistent (w : Imports E F H) (st : Store E F H) : Prop :=
  (∀ k f, (k, f) ∈ st.memory → create w k = .ok f) ∧
  ∀ h f, (h, f) ∈ st.disk → ∀ k, w.hash k = h → create w k = .ok f

theorem throughDisk_spec (hw : FaithfulHash w) {st : Store E F H} (hs : Consistent w st) (k : Key E) :
    (throughDisk w st k).1 = create w k ∧ Consistent w (throughDisk w st k).2 := by
  unfold throughDisk
  cases hf : st.disk.find? (fun x => x.1 = w.hash k) with
  | some x =>
    have hm := List.mem_of_find?_eq_some hf
    have hp := List.find?_some hf
    simp only [decide_eq_true_eq] at hp
    exact ⟨(hs.2 x.1 x.2 hm k hp.symm).symm, hs⟩
  | none =>
    cases hc : create w k with
    | error e => exact ⟨rfl, hs⟩
    | ok f =>
      refine ⟨rfl, hs.1, ?_⟩
      intro h f' hm k' hk'
      rcases List.mem_cons.1 hm with hm | hm
      · injection hm with h1 h2
        rw [create_of_hash hw (hk'.trans h1), hc, h2]
      · exact hs.2 h f' hm k' hk'

theorem lambdifyImpl_spec (he : EqualArguments w) (hw : FaithfulHash w) {st : Store E F H}
    (hs : Consistent w st) (k : Key E) :
    (lambdifyImpl w st k).1 = create w k ∧ Consistent w (lambdifyImpl w st k).2 := by
  unfold lambdifyImpl
  cases hf : st.memory.find? (fun x => x.1.beq k) with
  | some x =>
    have hm := List.mem_of_find?_eq_some hf
    have hp := List.find?_some hf
    refine ⟨?_, hs⟩
    rw [← create_of_beq he hp, hs.1 x.1 x.2 hm]
  | none =>
    obtain ⟨h1, h2⟩ := throughDisk_spec hw hs k
    rcases hd : throughDisk w st k with ⟨r, st'⟩
    rw [hd] at h1 h2
    cases r with
    | error e => exact ⟨h1, h2⟩
    | ok f =>
      refine ⟨h1, ?_, h2.2⟩
      intro k' f' hm
      rcases List.mem_cons.1 hm with hm | hm
      · injection hm with a b
        rw [a, b]; exact h1.symm
      · exact h2.1 k' f' hm

/-- The arguments of `_lambdify_impl` for a call. -/
def keyOf (expr : E) (parameters : SecondArg) (backend : String) : Key E :=
  ⟨expr, match parameters with
    | .mapping p => some p
    | _ => none, usedBackend parameters backend⟩

theorem lambdify_eq (st : Store E F H) (expr : E) (parameters : SecondArg) (backend : String) :
    lambdify w st expr parameters backend =
      if usedBackend parameters backend = "jax" ∧ w.jaxInstalled = false then
        (.error .importError, st)
      else lambdifyImpl w (if usedBackend parameters backend = "jax" then { st with x64 := true } else st)
        (keyOf expr parameters backend) := by
  unfold lambdify keyOf usedBackend
  cases parameters <;> simp

theorem lambdify_spec (he : EqualArguments w) (hw : FaithfulHash w) {st : Store E F H}
    (hs : Consistent w st) (expr : E) (parameters : SecondArg) (backend : String) :
    (lambdify w st expr parameters backend).1 = uncached w expr parameters backend ∧
      Consistent w (lambdify w st expr parameters backend).2 := by
  rw [lambdify_eq]
  unfold uncached
  split
  · exact ⟨rfl, hs⟩
  · obtain ⟨h1, h2⟩ := lambdifyImpl_spec he hw
      (st := if usedBackend parameters backend = "jax" then { st with x64 := true } else st)
      (by split <;> exact hs) (keyOf expr parameters backend)
    refine ⟨?_, h2⟩
    rw [h1, create_eq]
    cases parameters <;> rfl

theorem run_spec (he : EqualArguments w) (hw : FaithfulHash w) (evs : List (Event E)) :
    ∀ st : Store E F H, Consistent w st → (run w st evs).1 = uncachedResults w evs := by
  induction evs with
  | nil => intro st _; rfl
  | cons ev t ih =>
    intro st hs
    cases ev with
    | call e p b =>
      obtain ⟨h1, h2⟩ := lambdify_spec he hw hs e p b
      show (some (lambdify w st e p b).1).toList ++ (run w (lambdify w st e p b).2 t).1 = _
      rw [ih _ h2, h1]
      rfl
    | restart =>
      show (run w { st with memory := [], x64 := false } t).1 = uncachedResults w t
      exact ih _ ⟨fun k f hm => (by cases hm), hs.2⟩

theorem run_consistent (he : EqualArguments w) (hw : FaithfulHash w) (evs : List (Event E)) :
    ∀ st : Store E F H, Consistent w st → Consistent w (run w st evs).2 := by
  induction evs with
  | nil => intro st h; exact h
  | cons ev t ih =>
    intro st hs
    cases ev with
    | call e p b =>
      show Consistent w (run w (lambdify w st e p b).2 t).2
      exact ih _ (lambdify_spec he hw hs e p b).2
    | restart =>
      show Consistent w (run w { st with memory := [], x64 := false } t).2
      exact ih _ ⟨fun k f hm => (by cases hm), hs.2⟩

theorem consistent_of_fresh {st : Store E F H} (h : Fresh w st) : Consistent w st := by
  obtain ⟨h1, -, -, h4⟩ := h
  refine ⟨by simp [h1], ?_⟩
  intro h f hm k hk
  rw [create_eq]
  exact h4 h f hm _ _ _ hk

/-! How often functions are created. -/

/-- The functions created successfully so far are on the disk, each under its own hash. -/
def OnDisk (w : Imports E F H) (st : Store E F H) : Prop :=
  (∀ k ∈ st.created, (∃ f, create w k = .ok f) → ∃ f, (w.hash k, f) ∈ st.disk) ∧
  (st.created.Pairwise fun k k' => (∃ f, create w k = .ok f) → (∃ f, create w k' = .ok f) →
    w.hash k ≠ w.hash k')

theorem throughDisk_onDisk {st : Store E F H} (hs : OnDisk w st) (k : Key E) :
    OnDisk w (throughDisk w st k).2 := by
  unfold throughDisk
  cases hf : st.disk.find? (fun x => x.1 = w.hash k) with
  | some x => exact hs
  | none =>
    have hno : ∀ f, (w.hash k, f) ∉ st.disk := by
      intro f hm
      have := List.find?_eq_none.1 hf _ hm
      simp at this
    have hpair : (k :: st.created).Pairwise fun k k' => (∃ f, create w k = .ok f) →
        (∃ f, create w k' = .ok f) → w.hash k ≠ w.hash k' := by
      refine List.pairwise_cons.2 ⟨?_, hs.2⟩
      intro k' hk' _ hok he
      obtain ⟨f, hf⟩ := hs.1 k' hk' hok
      rw [← he] at hf
      exact hno f hf
    cases hc : create w k with
    | error e =>
      refine ⟨?_, hpair⟩
      intro k' hk' hok
      rcases List.mem_cons.1 hk' with rfl | hk'
      · rw [hc] at hok; obtain ⟨f, hf⟩ := hok; cases hf
      · exact hs.1 k' hk' hok
    | ok f =>
      refine ⟨?_, hpair⟩
      intro k' hk' hok
      rcases List.mem_cons.1 hk' with rfl | hk'
      · exact ⟨f, List.mem_cons_self ..⟩
      · obtain ⟨f', h⟩ := hs.1 k' hk' hok
        exact ⟨f', List.mem_cons_of_mem _ h⟩

theorem lambdifyImpl_onDisk {st : Store E F H} (hs : OnDisk w st) (k : Key E) :
    OnDisk w (lambdifyImpl w st k).2 := by
  unfold lambdifyImpl
  cases hf : st.memory.find? (fun x => x.1.beq k) with
  | some x => exact hs
  | none =>
    have h2 := throughDisk_onDisk hs k
    rcases hd : throughDisk w st k with ⟨r, st'⟩
    rw [hd] at h2
    cases r <;> exact h2

theorem run_onDisk (evs : List (Event E)) :
    ∀ st : Store E F H, OnDisk w st → OnDisk w (run w st evs).2 := by
  induction evs with
  | nil => intro st hs; exact hs
  | cons ev t ih =>
    intro st hs
    cases ev with
    | call e p b =>
      show OnDisk w (run w (lambdify w st e p b).2 t).2
      apply ih
      rw [lambdify_eq]
      split
      · exact hs
      · exact lambdifyImpl_onDisk (by split <;> exact hs) _
    | restart =>
      show OnDisk w (run w _ t).2
      exact ih _ hs

/-- The functions created successfully by this process are in its memory, each under its own
key. -/
def InMemory (w : Imports E F H) (st : Store E F H) : Prop :=
  (∀ k ∈ st.created, (∃ f, create w k = .ok f) → ∃ f, (k, f) ∈ st.memory) ∧
  (st.created.Pairwise fun k k' => (∃ f, create w k = .ok f) → (∃ f, create w k' = .ok f) →
    k'.beq k = false)

theorem lambdifyImpl_inMemory {st : Store E F H} (hs : InMemory w st) (k : Key E) :
    InMemory w (lambdifyImpl w st k).2 := by
  unfold lambdifyImpl
  cases hf : st.memory.find? (fun x => x.1.beq k) with
  | some x => exact hs
  | none =>
    have hno : ∀ k' f, (k', f) ∈ st.memory → k'.beq k = false := by
      intro k' f hm
      have := List.find?_eq_none.1 hf _ hm
      simpa using this
    have hpair : (k :: st.created).Pairwise fun k k' => (∃ f, create w k = .ok f) →
        (∃ f, create w k' = .ok f) → k'.beq k = false := by
      refine List.pairwise_cons.2 ⟨?_, hs.2⟩
      intro k' hk' _ hok
      obtain ⟨f, hf⟩ := hs.1 k' hk' hok
      exact hno _ f hf
    have keep : ∀ (f : F) k', (∃ f, (k', f) ∈ st.memory) → ∃ f', (k', f') ∈ (k, f) :: st.memory :=
      fun f k' ⟨f', h⟩ => ⟨f', List.mem_cons_of_mem _ h⟩
    unfold throughDisk
    cases hd : st.disk.find? (fun x => x.1 = w.hash k) with
    | some x =>
      exact ⟨fun k' hk' hok => keep _ _ (hs.1 k' hk' hok), hs.2⟩
    | none =>
      cases hc : create w k with
      | error e =>
        refine ⟨?_, hpair⟩
        intro k' hk' hok
        rcases List.mem_cons.1 hk' with rfl | hk'
        · rw [hc] at hok; obtain ⟨f, hf⟩ := hok; cases hf
        · exact hs.1 k' hk' hok
      | ok f =>
        refine ⟨?_, hpair⟩
        intro k' hk' hok
        rcases List.mem_cons.1 hk' with rfl | hk'
        · exact ⟨f, List.mem_cons_self ..⟩
        · exact keep _ _ (hs.1 k' hk' hok)

theorem run_inMemory (evs : List (Event E)) (hevs : ∀ ev ∈ evs, ev ≠ .restart) :
    ∀ st : Store E F H, InMemory w st → InMemory w (run w st evs).2 := by
  induction evs with
  | nil => intro st hs; exact hs
  | cons ev t ih =>
    intro st hs
    cases ev with
    | call e p b =>
      show InMemory w (run w (lambdify w st e p b).2 t).2
      apply ih fun ev hev => hevs ev (List.mem_cons_of_mem _ hev)
      rw [lambdify_eq]
      split
      · exact hs
      · exact lambdifyImpl_inMemory (by split <;> exact hs) _
    | restart => exact absurd rfl (hevs _ (List.mem_cons_self ..))

/-! Double precision. -/

theorem lambdifyImpl_x64 (st : Store E F H) (k : Key E) : (lambdifyImpl w st k).2.x64 = st.x64 := by
  unfold lambdifyImpl throughDisk
  cases st.memory.find? (fun x => x.1.beq k) with
  | some x => rfl
  | none =>
    cases st.disk.find? (fun x => x.1 = w.hash k) with
    | some x => rfl
    | none => cases create w k <;> rfl

theorem lambdify_x64 (st : Store E F H) (e : E) (p : SecondArg) (b : String) :
    (lambdify w st e p b).2.x64 = true ↔
      st.x64 = true ∨ usedBackend p b = "jax" ∧ w.jaxInstalled = true := by
  rw [lambdify_eq]
  split
  · rename_i h
    simp [h.2]
  · rename_i h
    rw [lambdifyImpl_x64]
    split
    · rename_i h1
      simp only [h1, true_and, true_iff]
      right
      rw [← Bool.not_eq_false]
      exact fun h2 => h ⟨h1, h2⟩
    · rename_i h1
      simp [h1]

theorem run_x64 (evs : List (Event E)) : ∀ st : Store E F H, (run w st evs).2.x64 = true ↔
    (st.x64 = true ∧ ∀ ev ∈ evs, ev ≠ .restart) ∨
    ∃ pre e p b post, evs = pre ++ .call e p b :: post ∧ usedBackend p b = "jax" ∧
      w.jaxInstalled = true ∧ ∀ ev ∈ post, ev ≠ .restart := by
  induction evs with
  | nil =>
    intro st
    show st.x64 = true ↔ _
    simp
  | cons ev t ih =>
    intro st
    have tail : (∃ pre e p b post, ev :: t = pre ++ Event.call e p b :: post ∧
        usedBackend p b = "jax" ∧ w.jaxInstalled = true ∧ ∀ ev ∈ post, ev ≠ .restart) ↔
        (∃ e p b, ev = .call e p b ∧ usedBackend p b = "jax" ∧ w.jaxInstalled = true ∧
          ∀ ev ∈ t, ev ≠ .restart) ∨
        ∃ pre e p b post, t = pre ++ Event.call e p b :: post ∧
        usedBackend p b = "jax" ∧ w.jaxInstalled = true ∧ ∀ ev ∈ post, ev ≠ .restart := by
      constructor
      · rintro ⟨pre, e, p, b, post, h, h'⟩
        cases pre with
        | nil =>
          injection h with h1 h2
          subst h2
          exact .inl ⟨e, p, b, h1, h'⟩
        | cons x pre =>
          injection h with h1 h2
          exact .inr ⟨pre, e, p, b, post, h2, h'⟩
      · rintro (⟨e, p, b, rfl, h⟩ | ⟨pre, e, p, b, post, rfl, h⟩)
        · exact ⟨[], e, p, b, t, rfl, h⟩
        · exact ⟨ev :: pre, e, p, b, post, rfl, h⟩
    rw [tail]
    cases ev with
    | call e p b =>
      show (run w (lambdify w st e p b).2 t).2.x64 = true ↔ _
      rw [ih, lambdify_x64]
      constructor
      · rintro (⟨h | h, h'⟩ | h)
        · exact .inl ⟨h, by
            intro ev hev
            rcases List.mem_cons.1 hev with rfl | hev
            · exact fun h => by cases h
            · exact h' ev hev⟩
        · exact .inr (.inl ⟨e, p, b, rfl, h.1, h.2, h'⟩)
        · exact .inr (.inr h)
      · rintro (⟨h, h'⟩ | ⟨e', p', b', he, h1, h2, h3⟩ | h)
        · exact .inl ⟨.inl h, fun ev hev => h' ev (List.mem_cons_of_mem _ hev)⟩
        · injection he with a1 a2 a3
          subst a1 a2 a3
          exact .inl ⟨.inr ⟨h1, h2⟩, h3⟩
        · exact .inr h
    | restart =>
      show (run w _ t).2.x64 = true ↔ _
      rw [ih]
      constructor
      · rintro (⟨h, h'⟩ | h)
        · cases h
        · exact .inr (.inr h)
      · rintro (⟨h, h'⟩ | ⟨e', p', b', he, -⟩ | h)
        · exact absurd rfl (h' _ (List.mem_cons_self ..))
        · cases he
        · exact .inr h

end Verif.Cached
