import Verif.Model.Spin
import Mathlib.Tactic.Linarith
import Mathlib.Tactic.Ring
import Mathlib.Tactic.FieldSimp
import Mathlib.Tactic.NormNum

namespace Verif.Spin

theorem arangeFuel_mem {x2 delta : ℚ} (hd : 0 < delta) (fuel : ℕ) (c x : ℚ) :
    x ∈ (arangeFuel x2 delta fuel c).1 ↔ ∃ n : ℕ, n < fuel ∧ x = c + n * delta ∧ x < x2 := by
  induction fuel generalizing c with
  | zero => simp [arangeFuel]
  | succ f ih =>
    unfold arangeFuel
    split
    · rename_i h
      simp only [List.mem_cons, ih]
      constructor
      · rintro (rfl | ⟨n, hn, rfl, h2⟩)
        · exact ⟨0, by omega, by simp, h⟩
        · refine ⟨n + 1, by omega, ?_, h2⟩
          push_cast; ring
      · rintro ⟨n, hn, rfl, h2⟩
        cases n with
        | zero => left; simp
        | succ n =>
          right
          refine ⟨n, by omega, ?_, h2⟩
          push_cast; ring
    · rename_i h
      simp only [List.not_mem_nil, false_iff]
      rintro ⟨n, hn, rfl, h2⟩
      apply h
      have : (0:ℚ) ≤ n * delta := by positivity
      linarith

theorem arangeFuel_pairwise {x2 delta : ℚ} (hd : 0 < delta) (fuel : ℕ) (c : ℚ) :
    (arangeFuel x2 delta fuel c).1.Pairwise (· < ·) := by
  induction fuel generalizing c with
  | zero => simp [arangeFuel]
  | succ f ih =>
    unfold arangeFuel
    split
    · simp only [List.pairwise_cons]
      refine ⟨?_, ih _⟩
      intro y hy
      rw [arangeFuel_mem hd] at hy
      obtain ⟨n, _, rfl, _⟩ := hy
      have : (0:ℚ) ≤ n * delta := by positivity
      linarith
    · simp

theorem arangeFuel_done {x2 delta : ℚ} (_hd : 0 < delta) (fuel : ℕ) (c : ℚ)
    (h : x2 ≤ c + fuel * delta) : (arangeFuel x2 delta fuel c).2 = true := by
  induction fuel generalizing c with
  | zero =>
    simp only [arangeFuel, decide_eq_true_eq, not_lt]
    simpa using h
  | succ f ih =>
    unfold arangeFuel
    split
    · apply ih
      push_cast at h
      linarith
    · rfl

theorem arangeFuel_diverges {x2 delta : ℚ} (hd : delta ≤ 0) (fuel : ℕ) (c : ℚ)
    (h : c < x2) : (arangeFuel x2 delta fuel c).2 = false := by
  induction fuel generalizing c with
  | zero => simp [arangeFuel, h]
  | succ f ih =>
    unfold arangeFuel
    rw [if_pos h]
    exact ih _ (by linarith)

theorem arange1_mem (x1 x2 x : ℚ) :
    x ∈ arange1 x1 x2 ↔ ∃ n : ℕ, x = x1 + n ∧ x < x2 := by
  unfold arange1
  rw [arangeFuel_mem one_pos]
  constructor
  · rintro ⟨n, _, rfl, h⟩
    exact ⟨n, by ring, h⟩
  · rintro ⟨n, rfl, h⟩
    refine ⟨n, ?_, by ring, h⟩
    have h1 : (n:ℚ) < x2 - x1 := by linarith
    have h2 : (n:ℚ) < (⌈x2 - x1⌉ : ℤ) := lt_of_lt_of_le h1 (Int.le_ceil _)
    have h3 : (n:ℤ) < ⌈x2 - x1⌉ := by exact_mod_cast h2
    omega

theorem createRationalRange_mem (a b x : ℚ) :
    x ∈ createRationalRange a b ↔ ∃ n : ℕ, x = a + n ∧ x < b + 1 / 2 :=
  arange1_mem _ _ _

theorem createRationalRange_pairwise (a b : ℚ) :
    (createRationalRange a b).Pairwise (· < ·) :=
  arangeFuel_pairwise one_pos _ _

theorem createRationalRange_nodup (a b : ℚ) : (createRationalRange a b).Nodup :=
  (createRationalRange_pairwise a b).imp (fun h => ne_of_lt h)

/-- two strictly increasing lists with the same members are equal -/
theorem eq_of_strict_mem {l1 l2 : List ℚ} (h1 : l1.Pairwise (· < ·)) (h2 : l2.Pairwise (· < ·))
    (h : ∀ x, x ∈ l1 ↔ x ∈ l2) : l1 = l2 := by
  have n1 : l1.Nodup := h1.imp (fun h => ne_of_lt h)
  have n2 : l2.Nodup := h2.imp (fun h => ne_of_lt h)
  have hp : l1.Perm l2 := (List.perm_ext_iff_of_nodup n1 n2).2 h
  exact hp.eq_of_pairwise (fun a b _ _ hab hba => absurd hab (not_lt.2 hba.le)) h1 h2

theorem createRationalRange_eq (a : ℚ) (n : ℕ) (b : ℚ) (hb : b = a + n) :
    createRationalRange a b = (List.range (n + 1)).map (fun k : ℕ => a + k) := by
  subst hb
  apply eq_of_strict_mem (createRationalRange_pairwise _ _)
  · rw [List.pairwise_map]
    refine List.pairwise_lt_range.imp ?_
    intro x y h
    have : (x:ℚ) < y := by exact_mod_cast h
    linarith
  · intro x
    rw [createRationalRange_mem]
    simp only [List.mem_map, List.mem_range]
    constructor
    · rintro ⟨k, rfl, h⟩
      refine ⟨k, ?_, rfl⟩
      have h1 : (k:ℚ) < n + 1 := by linarith
      exact_mod_cast h1
    · rintro ⟨k, h, rfl⟩
      refine ⟨k, rfl, ?_⟩
      have h1 : (k:ℚ) ≤ n := by exact_mod_cast Nat.lt_succ_iff.1 h
      linarith

theorem createSpinRange_eq (n : ℕ) :
    createSpinRange ((n : ℚ) / 2) = (List.range (n + 1)).map (fun k : ℕ => -((n : ℚ) / 2) + k) :=
  createRationalRange_eq _ n _ (by ring)

theorem createSpinRange_mem (n : ℕ) (x : ℚ) :
    x ∈ createSpinRange ((n : ℚ) / 2) ↔ ∃ k : ℕ, k ≤ n ∧ x = -((n : ℚ) / 2) + k := by
  rw [createSpinRange_eq]
  simp only [List.mem_map, List.mem_range, Nat.lt_succ_iff]
  constructor
  · rintro ⟨k, h, rfl⟩; exact ⟨k, h, rfl⟩
  · rintro ⟨k, h, rfl⟩; exact ⟨k, h, rfl⟩

theorem lsSorted_dedup (l : List (ℤ × ℚ)) : (l.dedup.mergeSort lsLe).Pairwise
      (fun x y => x.1 < y.1 ∨ (x.1 = y.1 ∧ x.2 < y.2)) := by
  have hnd : (l.dedup.mergeSort lsLe).Nodup := by
    rw [(List.mergeSort_perm _ _).nodup_iff]; exact List.nodup_dedup _
  have hs : (l.dedup.mergeSort lsLe).Pairwise (fun x y => lsLe x y = true) := by
    apply List.pairwise_mergeSort
    · intro a b c hab hbc
      simp only [lsLe, decide_eq_true_eq] at *
      rcases hab with h | ⟨h, h'⟩ <;> rcases hbc with g | ⟨g, g'⟩
      · left; omega
      · left; omega
      · left; omega
      · right; exact ⟨by omega, h'.trans g'⟩
    · intro a b
      simp only [lsLe, Bool.or_eq_true, decide_eq_true_eq]
      rcases lt_trichotomy a.1 b.1 with h | h | h
      · left; left; exact h
      · rcases le_total a.2 b.2 with g | g
        · left; right; exact ⟨h, g⟩
        · right; right; exact ⟨h.symm, g⟩
      · right; left; exact h
  refine (hs.and hnd).imp ?_
  rintro ⟨a1, a2⟩ ⟨b1, b2⟩ ⟨h, hne⟩
  simp only [lsLe, decide_eq_true_eq] at h
  rcases h with h | ⟨h, h'⟩
  · left; exact h
  · right
    refine ⟨h, lt_of_le_of_ne h' ?_⟩
    rintro rfl
    exact hne (by have h2 : a1 = b1 := h; rw [h2])

end Verif.Spin
