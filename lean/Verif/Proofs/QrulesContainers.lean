import Verif.Spec.QrulesContainers
import Verif.Proofs.QrulesCommute

/-! Lemmas for nested arguments of `normalize_state_ids` and `permute_equal_final_states`. -/
namespace Verif.Qrules
open Verif

variable {E N : Type}

/-- Neither an iterable nor the empty string. -/
def IsLeaf (a : Arg E N) : Prop := (∀ xs, a ≠ .iterable xs) ∧ a ≠ .text ""

theorem IsLeaf.leaves {a : Arg E N} (h : IsLeaf a) : Qrules.leaves a = [a] := by
  cases a with
  | iterable xs => exact absurd rfl (h.1 xs)
  | text s =>
    have : s ≠ "" := fun hs => h.2 (by rw [hs])
    simp [Qrules.leaves, this]
  | _ => simp [Qrules.leaves]

theorem IsLeaf.nesting {a : Arg E N} (h : IsLeaf a) : Qrules.nesting a = .leaf := by
  cases a with
  | iterable xs => exact absurd rfl (h.1 xs)
  | text s =>
    have : s ≠ "" := fun hs => h.2 (by rw [hs])
    simp [Qrules.nesting, this]
  | _ => simp [Qrules.nesting]

/-- An argument is an iterable, an empty string, or a leaf. -/
theorem Arg.cases (a : Arg E N) : (∃ xs, a = .iterable xs) ∨ a = .text "" ∨ IsLeaf a := by
  by_cases h1 : ∃ xs, a = .iterable xs
  · exact .inl h1
  · by_cases h2 : a = .text ""
    · exact .inr (.inl h2)
    · exact .inr (.inr ⟨fun xs h => h1 ⟨xs, h⟩, h2⟩)

theorem leaves_iterable (xs : List (Arg E N)) : leaves (.iterable xs) = leavesOf xs := by
  simp [leaves]

theorem leaves_empty : leaves (.text "" : Arg E N) = [] := by simp [leaves]

/-- Induction over nested arguments. -/
theorem Arg.induction {P : Arg E N → Prop} {Q : List (Arg E N) → Prop}
    (leaf : ∀ a, IsLeaf a → P a) (empty : P (.text "")) (iterable : ∀ xs, Q xs → P (.iterable xs))
    (nil : Q []) (cons : ∀ x xs, P x → Q xs → Q (x :: xs)) :
    (∀ a, P a) ∧ ∀ xs, Q xs := by
  have hP : ∀ a, P a := by
    intro a
    refine Arg.rec (motive_1 := P) (motive_2 := Q) ?_ ?_ ?_ ?_ ?_ ?_ ?_ ?_ nil ?_ a
    · intro t; exact leaf _ ⟨fun _ h => (by cases h), fun h => (by cases h)⟩
    · intro t; exact leaf _ ⟨fun _ h => (by cases h), fun h => (by cases h)⟩
    · intro t; exact leaf _ ⟨fun _ h => (by cases h), fun h => (by cases h)⟩
    · intro t; exact leaf _ ⟨fun _ h => (by cases h), fun h => (by cases h)⟩
    · intro a b t; exact leaf _ ⟨fun _ h => (by cases h), fun h => (by cases h)⟩
    · intro s
      by_cases hs : s = ""
      · rw [hs]; exact empty
      · exact leaf _ ⟨fun _ h => (by cases h), fun h => by injection h with h; exact hs h⟩
    · exact iterable
    · exact leaf _ ⟨fun _ h => (by cases h), fun h => (by cases h)⟩
    · exact cons
  refine ⟨hP, fun xs => ?_⟩
  induction xs with
  | nil => exact nil
  | cons x xs ih => exact cons x xs (hP x) ih

theorem isLeaf_of_mem : (∀ (a : Arg E N), ∀ x ∈ leaves a, IsLeaf x) ∧
    ∀ (xs : List (Arg E N)), ∀ x ∈ leavesOf xs, IsLeaf x := by
  apply Arg.induction
  · intro a ha x hx
    rw [ha.leaves, List.mem_singleton] at hx
    rw [hx]; exact ha
  · intro x hx; rw [leaves_empty] at hx; cases hx
  · intro xs h x hx; rw [leaves_iterable] at hx; exact h x hx
  · intro x hx; simp [leavesOf] at hx
  · intro x xs h1 h2 y hy
    simp only [leavesOf, List.mem_append] at hy
    exact hy.elim (h1 y) (h2 y)

theorem bind_ok {α β : Type} {x : Py α} {f : α → Py β} {b : β} (h : x >>= f = .ok b) :
    ∃ a, x = .ok a ∧ f a = .ok b := by
  cases x with
  | error e => cases h
  | ok a => exact ⟨a, rfl, h⟩

/-- The result of `normalize_state_ids` of a leaf is a leaf. -/
theorem normalize_leaf (nr : NewReaction) {a b : Arg E N} (ha : IsLeaf a)
    (h : normalize nr a = .ok b) : IsLeaf b := by
  cases a with
  | topology t =>
    simp only [normalize] at h; injection h with h; subst h
    exact ⟨fun _ h => (by cases h), fun h => (by cases h)⟩
  | frozen t =>
    simp only [normalize] at h
    obtain ⟨x, -, h⟩ := bind_ok h
    injection h with h; subst h
    exact ⟨fun _ h => (by cases h), fun h => (by cases h)⟩
  | mutable t =>
    simp only [normalize] at h
    obtain ⟨x, -, h⟩ := bind_ok h
    injection h with h; subst h
    exact ⟨fun _ h => (by cases h), fun h => (by cases h)⟩
  | reaction r =>
    simp only [normalize] at h
    obtain ⟨x, -, h⟩ := bind_ok h
    obtain ⟨y, -, h⟩ := bind_ok h
    injection h with h; subst h
    exact ⟨fun _ h => (by cases h), fun h => (by cases h)⟩
  | problemSet f s t =>
    simp only [normalize] at h
    obtain ⟨x, -, h⟩ := bind_ok h
    obtain ⟨y, -, h⟩ := bind_ok h
    injection h with h; subst h
    exact ⟨fun _ h => (by cases h), fun h => (by cases h)⟩
  | text s =>
    have : s ≠ "" := fun hs => ha.2 (by rw [hs])
    simp [normalize, this] at h
  | iterable xs => exact absurd rfl (ha.1 xs)
  | other => simp [normalize] at h

/-- Lists for which `f` returns or raises, in terms of the items. -/
theorem append_raises {f : Arg E N → Py (Arg E N)} {xs ys : List (Arg E N)} {e : PyErr} :
    RaisesAtFirst f (xs ++ ys) e ↔
      RaisesAtFirst f xs e ∨ (∀ x ∈ xs, ∃ z, f x = .ok z) ∧ RaisesAtFirst f ys e := by
  constructor
  · rintro ⟨pre, x, post, heq, hpre, hx⟩
    rw [List.append_eq_append_iff] at heq
    rcases heq with ⟨as, rfl, h⟩ | ⟨bs, rfl, h⟩
    · refine .inr ⟨fun y hy => hpre y (by simp [hy]), as, x, post, h, fun y hy => hpre y (by simp [hy]), hx⟩
    · cases bs with
      | nil =>
        simp only [List.nil_append] at h
        refine .inr ⟨fun y hy => hpre y (by simpa using hy), [], x, post, by simp [h], ?_, hx⟩
        intro y hy; cases hy
      | cons b bs =>
        injection h with h1 h2
        subst h1
        exact .inl ⟨pre, x, bs, rfl, hpre, hx⟩
  · rintro (⟨pre, x, post, rfl, hpre, hx⟩ | ⟨h, pre, x, post, rfl, hpre, hx⟩)
    · exact ⟨pre, x, post ++ ys, by simp, hpre, hx⟩
    · refine ⟨xs ++ pre, x, post, by simp, ?_, hx⟩
      intro y hy
      rcases List.mem_append.1 hy with hy | hy
      · exact h y hy
      · exact hpre y hy

theorem raises_not_returns {f : Arg E N → Py (Arg E N)} {xs : List (Arg E N)} {e : PyErr}
    (h : RaisesAtFirst f xs e) : ¬ ∀ x ∈ xs, ∃ z, f x = .ok z := by
  obtain ⟨pre, x, post, rfl, -, hx⟩ := h
  intro h
  obtain ⟨z, hz⟩ := h x (by simp)
  rw [hx] at hz
  cases hz

theorem raises_unique {f : Arg E N → Py (Arg E N)} {xs : List (Arg E N)} {e e' : PyErr}
    (h : RaisesAtFirst f xs e) (h' : RaisesAtFirst f xs e') : e = e' := by
  induction xs with
  | nil => obtain ⟨pre, x, post, h, -⟩ := h; simp at h
  | cons x xs ih =>
    rw [show x :: xs = [x] ++ xs from rfl, append_raises] at h h'
    have hone : ∀ e, RaisesAtFirst f [x] e → f x = .error e := by
      rintro e ⟨pre, y, post, heq, hpre, hy⟩
      cases pre with
      | nil => injection heq with h1 h2; rw [h1]; exact hy
      | cons a pre => injection heq with h1 h2; simp at h2
    rcases h with h | ⟨h1, h⟩ <;> rcases h' with h' | ⟨h1', h'⟩
    · have := (hone _ h).symm.trans (hone _ h')
      injection this
    · exact absurd h1' (raises_not_returns h)
    · exact absurd h1 (raises_not_returns h')
    · exact ih h h'

theorem raises_one {f : Arg E N → Py (Arg E N)} {x : Arg E N} {e : PyErr} :
    RaisesAtFirst f [x] e ↔ f x = .error e := by
  constructor
  · rintro ⟨pre, y, post, heq, hpre, hy⟩
    cases pre with
    | nil => injection heq with h1 h2; rw [h1]; exact hy
    | cons a pre => injection heq with h1 h2; simp at h2
  · intro h
    exact ⟨[], x, [], rfl, fun y hy => (by cases hy), h⟩

theorem not_raises_nil {f : Arg E N → Py (Arg E N)} {e : PyErr} : ¬ RaisesAtFirst f [] e := by
  rintro ⟨pre, x, post, h, -⟩
  simp at h

theorem forall₂_left {α β : Type} {R : α → β → Prop} {l : List α} {r : List β}
    (h : List.Forall₂ R l r) {a : α} (ha : a ∈ l) : ∃ b ∈ r, R a b := by
  induction h with
  | nil => cases ha
  | cons h1 _ ih =>
    rcases List.mem_cons.1 ha with rfl | ha
    · exact ⟨_, .head _, h1⟩
    · obtain ⟨b, hb, h⟩ := ih ha
      exact ⟨b, .tail _ hb, h⟩

/-- What `normalize_state_ids` returns or raises, in terms of the leaves. -/
theorem normalize_spec (nr : NewReaction) :
    (∀ a : Arg E N, (∀ b, normalize nr a = .ok b → nesting b = nesting a ∧
        List.Forall₂ (fun x y => normalize nr x = .ok y) (leaves a) (leaves b)) ∧
      ∀ e, normalize nr a = .error e → RaisesAtFirst (normalize nr) (leaves a) e) ∧
    ∀ xs : List (Arg E N), (∀ ys, normalizeItems nr xs = .ok ys → nestings ys = nestings xs ∧
        List.Forall₂ (fun x y => normalize nr x = .ok y) (leavesOf xs) (leavesOf ys)) ∧
      ∀ e, normalizeItems nr xs = .error e → RaisesAtFirst (normalize nr) (leavesOf xs) e := by
  apply Arg.induction
  · intro a ha
    constructor
    · intro b h
      have hb := normalize_leaf nr ha h
      rw [ha.nesting, hb.nesting, ha.leaves, hb.leaves]
      exact ⟨rfl, .cons h .nil⟩
    · intro e h
      rw [ha.leaves, raises_one]
      exact h
  · constructor
    · intro b h
      simp only [normalize, if_true] at h
      injection h with h
      subst h
      simp [nesting, nestings, leaves, leavesOf]
    · intro e h
      simp only [normalize, if_true] at h
      cases h
  · intro xs ih
    constructor
    · intro b h
      simp only [normalize] at h
      obtain ⟨ys, h1, h⟩ := bind_ok h
      injection h with h
      subst h
      obtain ⟨h2, h3⟩ := ih.1 ys h1
      simp only [nesting, leaves_iterable, h2]
      exact ⟨trivial, h3⟩
    · intro e h
      simp only [normalize] at h
      rw [leaves_iterable]
      apply ih.2
      cases hx : normalizeItems nr xs with
      | error e' => rw [hx] at h; injection h with h; rw [h]
      | ok ys => rw [hx] at h; cases h
  · constructor
    · intro ys h
      simp only [normalizeItems] at h
      injection h with h
      subst h
      exact ⟨rfl, .nil⟩
    · intro e h; simp [normalizeItems] at h
  · intro x xs h1 h2
    constructor
    · intro ys h
      simp only [normalizeItems] at h
      obtain ⟨y, hy, h⟩ := bind_ok h
      obtain ⟨zs, hzs, h⟩ := bind_ok h
      injection h with h
      subst h
      obtain ⟨a1, a2⟩ := h1.1 y hy
      obtain ⟨b1, b2⟩ := h2.1 zs hzs
      simp only [nestings, leavesOf, a1, b1]
      exact ⟨trivial, List.rel_append a2 b2⟩
    · intro e h
      simp only [normalizeItems] at h
      simp only [leavesOf]
      rw [append_raises]
      cases hx : normalize nr x with
      | error e' =>
        rw [hx] at h
        injection h with h
        subst h
        exact .inl (h1.2 _ hx)
      | ok y =>
        rw [hx] at h
        simp only [bind, Except.bind] at h
        cases hxs : normalizeItems nr xs with
        | ok zs => rw [hxs] at h; cases h
        | error e' =>
          rw [hxs] at h
          injection h with h
          subst h
          refine .inr ⟨?_, h2.2 _ hxs⟩
          intro z hz
          obtain ⟨b, -, hb⟩ := forall₂_left (h1.1 y hx).2 hz
          exact ⟨b, hb⟩

/-- `permute_equal_final_states` of an iterable, in terms of the leaves: they are treated one by
one. -/
theorem permuteItems_append (nr : NewReaction) (xs ys : List (Arg E N)) :
    permuteItems nr (xs ++ ys) = (do
      let a ← permuteItems nr xs
      let b ← permuteItems nr ys
      return a ++ b) := by
  induction xs with
  | nil =>
    simp only [List.nil_append, permuteItems]
    cases permuteItems nr ys <;> rfl
  | cons x xs ih =>
    simp only [List.cons_append, permuteItems, ih]
    cases permute nr x with
    | error e => rfl
    | ok a =>
      simp only [bind, Except.bind]
      cases extendItems a with
      | error e => rfl
      | ok as =>
        simp only
        cases permuteItems nr xs with
        | error e => rfl
        | ok bs =>
          simp only [pure, Except.pure]
          cases permuteItems nr ys with
          | error e => rfl
          | ok cs => simp [List.append_assoc]

theorem permuteItems_one (nr : NewReaction) (x : Arg E N) :
    permuteItems nr [x] = (permute nr x >>= extendItems) := by
  simp only [permuteItems]
  cases permute nr x with
  | error e => rfl
  | ok a =>
    simp only [bind, Except.bind]
    cases extendItems a with
    | error e => rfl
    | ok as => simp [pure, Except.pure]

theorem permute_flat (nr : NewReaction) :
    (∀ a : Arg E N, (permute nr a >>= extendItems) = permuteItems nr (leaves a)) ∧
    ∀ xs : List (Arg E N), permuteItems nr xs = permuteItems nr (leavesOf xs) := by
  apply Arg.induction
  · intro a ha
    rw [ha.leaves, permuteItems_one]
  · simp [permute, leaves_empty, permuteItems, bind, Except.bind, extendItems]
  · intro xs ih
    rw [leaves_iterable, ← ih]
    simp only [permute]
    cases permuteItems nr xs <;> rfl
  · simp [leavesOf]
  · intro x xs h1 h2
    simp only [leavesOf]
    rw [permuteItems_append, ← h1, ← h2]
    simp only [permuteItems]
    cases permute nr x <;> rfl

end Verif.Qrules
