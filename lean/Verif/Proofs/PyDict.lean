import Verif.Model.Py
import Mathlib.Data.List.Nodup

/-! Lemmas about insertion-ordered dictionaries. -/
namespace Verif.PyDict

variable {κ ν : Type _} [DecidableEq κ]

@[simp] theorem get?_nil (k : κ) : get? ([] : PyDict κ ν) k = none := rfl

theorem get?_cons (k k' : κ) (v : ν) (d : PyDict κ ν) :
    get? ((k', v) :: d) k = if k' = k then some v else get? d k := rfl

theorem get?_set (d : PyDict κ ν) (k k' : κ) (v : ν) :
    get? (set d k v) k' = if k = k' then some v else get? d k' := by
  induction d with
  | nil => simp [set, get?_cons]
  | cons x d ih =>
    obtain ⟨a, b⟩ := x
    unfold set
    by_cases h : a = k
    · subst h; simp only [if_true, get?_cons]; split <;> rfl
    · simp only [h, if_false, get?_cons, ih]
      by_cases h2 : a = k'
      · subst h2; simp [Ne.symm h]
      · simp [h2]

theorem get?_append (d e : PyDict κ ν) (k : κ) :
    get? (d ++ e) k = (get? d k).or (get? e k) := by
  induction d with
  | nil => simp
  | cons x d ih =>
    obtain ⟨a, b⟩ := x
    simp only [List.cons_append, get?_cons, ih]
    split <;> simp

theorem get?_update (d e : PyDict κ ν) (k : κ) :
    get? (update d e) k = (get? e.reverse k).or (get? d k) := by
  unfold update
  induction e generalizing d with
  | nil => simp
  | cons x e ih =>
    obtain ⟨a, b⟩ := x
    simp only [List.foldl_cons, ih, get?_set, List.reverse_cons, get?_append, get?_cons, get?_nil]
    cases get? e.reverse k <;> simp
    split <;> simp

theorem mem_of_get? {d : PyDict κ ν} {k : κ} {v : ν} (h : get? d k = some v) : (k, v) ∈ d := by
  induction d with
  | nil => simp at h
  | cons x d ih =>
    obtain ⟨a, b⟩ := x
    rw [get?_cons] at h
    split at h
    · rename_i h'; subst h'; cases h; exact List.mem_cons_self ..
    · exact List.mem_cons_of_mem _ (ih h)

theorem get?_eq_none {d : PyDict κ ν} {k : κ} : get? d k = none ↔ k ∉ keys d := by
  induction d with
  | nil => simp [keys]
  | cons x d ih =>
    obtain ⟨a, b⟩ := x
    rw [get?_cons]
    have : k ∉ keys ((a, b) :: d) ↔ ¬ a = k ∧ k ∉ keys d := by
      simp [keys, eq_comm]
    rw [this, ← ih]
    by_cases h : a = k <;> simp [h]

theorem mem_keys_iff {d : PyDict κ ν} {k : κ} : k ∈ keys d ↔ ∃ v, get? d k = some v := by
  rw [← not_iff_not, ← get?_eq_none, Option.eq_none_iff_forall_not_mem]
  simp

theorem get?_of_mem {d : PyDict κ ν} (hd : (keys d).Nodup) {k : κ} {v : ν} (h : (k, v) ∈ d) :
    get? d k = some v := by
  induction d with
  | nil => simp at h
  | cons x d ih =>
    obtain ⟨a, b⟩ := x
    rw [keys, List.map_cons, List.nodup_cons] at hd
    rw [get?_cons]
    rcases List.mem_cons.1 h with h | h
    · cases h; simp
    · have : a ≠ k := by
        rintro rfl
        exact hd.1 (List.mem_map.2 ⟨_, h, rfl⟩)
      rw [if_neg this]; exact ih hd.2 h

theorem mem_iff_get? {d : PyDict κ ν} (hd : (keys d).Nodup) {k : κ} {v : ν} :
    (k, v) ∈ d ↔ get? d k = some v := ⟨get?_of_mem hd, mem_of_get?⟩

theorem keys_set (d : PyDict κ ν) (k : κ) (v : ν) :
    keys (set d k v) = if k ∈ keys d then keys d else keys d ++ [k] := by
  induction d with
  | nil => simp [set, keys]
  | cons x d ih =>
    obtain ⟨a, b⟩ := x
    unfold set
    by_cases h : a = k
    · subst h; simp [keys]
    · simp only [h, if_false]
      have : keys ((a, b) :: set d k v) = a :: keys (set d k v) := rfl
      rw [this, ih]
      have h2 : k ∈ keys ((a, b) :: d) ↔ k ∈ keys d := by
        simp [keys, Ne.symm h]
      by_cases h3 : k ∈ keys d
      · rw [if_pos h3, if_pos (h2.2 h3)]; rfl
      · rw [if_neg h3, if_neg (fun h => h3 (h2.1 h))]; rfl

theorem mem_keys_set {d : PyDict κ ν} {k k' : κ} {v : ν} :
    k' ∈ keys (set d k v) ↔ k' = k ∨ k' ∈ keys d := by
  rw [mem_keys_iff, mem_keys_iff]
  simp only [get?_set]
  by_cases h : k = k'
  · simp [h]
  · simp [h, Ne.symm h]

theorem nodup_set {d : PyDict κ ν} (hd : (keys d).Nodup) (k : κ) (v : ν) :
    (keys (set d k v)).Nodup := by
  rw [keys_set]; split
  · exact hd
  · rename_i h
    rw [List.nodup_append]
    exact ⟨hd, by simp, fun a ha b hb => by simp at hb; subst hb; rintro rfl; exact h ha⟩

theorem nodup_update {d : PyDict κ ν} (hd : (keys d).Nodup) (e : PyDict κ ν) :
    (keys (update d e)).Nodup := by
  unfold update
  induction e generalizing d with
  | nil => exact hd
  | cons x e ih => exact ih (nodup_set hd _ _)

theorem nodup_ofItems (e : List (κ × ν)) : (keys (ofItems e)).Nodup :=
  nodup_update (by simp [keys]) e

theorem mem_keys_update {d e : PyDict κ ν} {k : κ} :
    k ∈ keys (update d e) ↔ k ∈ keys d ∨ k ∈ keys e := by
  unfold update
  induction e generalizing d with
  | nil => simp [keys]
  | cons x e ih =>
    obtain ⟨a, b⟩ := x
    rw [List.foldl_cons, ih, mem_keys_set]
    simp only [keys, List.map_cons, List.mem_cons]
    tauto

theorem get?_ofItems (e : List (κ × ν)) (k : κ) : get? (ofItems e) k = get? e.reverse k := by
  unfold ofItems; rw [get?_update]; simp

/-- `(k, v)` is the last item with key `k`. -/
theorem get?_reverse_iff (e : List (κ × ν)) (k : κ) (v : ν) :
    get? e.reverse k = some v ↔
      ∃ pre post, e = pre ++ (k, v) :: post ∧ ∀ x ∈ post, x.1 ≠ k := by
  induction e with
  | nil => simp
  | cons x e ih =>
    obtain ⟨a, b⟩ := x
    rw [List.reverse_cons, get?_append]
    constructor
    · intro h
      cases h' : get? e.reverse k with
      | some w =>
        rw [h'] at h
        simp at h; subst h
        obtain ⟨pre, post, h1, h2⟩ := ih.1 h'
        exact ⟨(a, b) :: pre, post, by rw [h1]; rfl, h2⟩
      | none =>
        rw [h'] at h
        simp [get?_cons] at h
        obtain ⟨rfl, rfl⟩ := h
        refine ⟨[], e, rfl, fun x hx hk => ?_⟩
        rw [get?_eq_none] at h'
        exact h' (by simp only [keys, List.map_reverse, List.mem_reverse]; exact hk ▸ List.mem_map.2 ⟨x, hx, rfl⟩)
    · rintro ⟨pre, post, h1, h2⟩
      cases pre with
      | nil =>
        simp at h1
        obtain ⟨⟨rfl, rfl⟩, rfl⟩ := h1
        have : get? e.reverse a = none := by
          rw [get?_eq_none]
          simp only [keys, List.map_reverse, List.mem_reverse, List.mem_map, not_exists, not_and]
          exact fun x hx => h2 x hx
        rw [this]; simp [get?_cons]
      | cons y pre =>
        simp at h1
        obtain ⟨rfl, rfl⟩ := h1
        rw [ih.2 ⟨pre, post, rfl, h2⟩]; simp

theorem get?_reverse_const {e : List (κ × ν)} {k : κ} {v : ν} (h1 : ∃ x ∈ e, x.1 = k)
    (h2 : ∀ x ∈ e, x.1 = k → x.2 = v) : get? e.reverse k = some v := by
  cases h : get? e.reverse k with
  | none =>
    rw [get?_eq_none] at h
    obtain ⟨x, hx, hk⟩ := h1
    exact absurd (by simp only [keys, List.map_reverse, List.mem_reverse]; exact hk ▸ List.mem_map.2 ⟨x, hx, rfl⟩) h
  | some w => rw [← h2 (k, w) (List.mem_reverse.1 (mem_of_get? h)) rfl]

/-- All items with the key have the same value. -/
theorem get?_update_const {d e : PyDict κ ν} {k : κ} {v : ν} (h1 : ∃ x ∈ e, x.1 = k)
    (h2 : ∀ x ∈ e, x.1 = k → x.2 = v) : get? (update d e) k = some v := by
  rw [get?_update, get?_reverse_const h1 h2, Option.some_or]

theorem get?_update_of_not_mem {d e : PyDict κ ν} {k : κ} (h : k ∉ keys e) :
    get? (update d e) k = get? d k := by
  rw [get?_update, get?_eq_none.2, Option.none_or]
  simpa only [keys, List.map_reverse, List.mem_reverse] using h

theorem mem_set {d : PyDict κ ν} {k : κ} {v : ν} {x : κ × ν} (h : x ∈ set d k v) : x = (k, v) ∨ x ∈ d := by
  induction d with
  | nil => exact .inl (List.mem_singleton.1 h)
  | cons y d ih =>
    unfold set at h
    split at h
    · rcases List.mem_cons.1 h with h | h
      · exact .inl h
      · exact .inr (List.mem_cons_of_mem _ h)
    · rcases List.mem_cons.1 h with h | h
      · exact .inr (h ▸ List.mem_cons_self ..)
      · rcases ih h with h | h
        · exact .inl h
        · exact .inr (List.mem_cons_of_mem _ h)

theorem mem_update {d e : PyDict κ ν} {x : κ × ν} (h : x ∈ update d e) : x ∈ d ∨ x ∈ e := by
  unfold update at h
  induction e generalizing d with
  | nil => exact .inl h
  | cons y e ih =>
    rcases ih h with h | h
    · rcases mem_set h with h | h
      · exact .inr (h ▸ List.mem_cons_self ..)
      · exact .inl h
    · exact .inr (List.mem_cons_of_mem _ h)

theorem mem_ofItems {e : List (κ × ν)} {x : κ × ν} (h : x ∈ ofItems e) : x ∈ e := by
  rcases mem_update h with h | h
  · cases h
  · exact h

end Verif.PyDict
