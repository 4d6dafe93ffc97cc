import Verif.Spec.ClebschGordan
import Mathlib.Algebra.BigOperators.Intervals

/-! Reflection symmetry of the Clebsch-Gordan coefficients. -/
namespace Verif.Spec
open Verif Verif.ThreeBody

theorem projection_neg {j m : ℚ} (hj : IsHalfInteger j) : Projection j (-m) ↔ Projection j m := by
  have key : ∀ m, Projection j m → Projection j (-m) := by
    rintro m ⟨h1, h2, n, hn⟩
    obtain ⟨t, ht⟩ := hj
    refine ⟨by linarith, by linarith, t - n, ?_⟩
    push_cast
    linarith
  exact ⟨fun h => by simpa using key _ h, key m⟩

theorem clebschGordan_neg (j1 m1 j2 m2 J M : ℚ) : clebschGordan j1 (-m1) j2 (-m2) J (-M) =
    (-1) ^ (⌊j1 + j2 - J⌋.toNat) * clebschGordan j1 m1 j2 m2 J M := by
  classical
  unfold clebschGordan
  by_cases h : (IsHalfInteger j1 ∧ IsHalfInteger j2 ∧ IsHalfInteger J) ∧
      (Projection j1 m1 ∧ Projection j2 m2 ∧ Projection J M) ∧ m1 + m2 = M ∧ Triangle j1 j2 J
  · have h' : (IsHalfInteger j1 ∧ IsHalfInteger j2 ∧ IsHalfInteger J) ∧
        (Projection j1 (-m1) ∧ Projection j2 (-m2) ∧ Projection J (-M)) ∧ -m1 + -m2 = -M ∧ Triangle j1 j2 J := by
      obtain ⟨hh, ⟨p1, p2, p3⟩, hM, ht⟩ := h
      exact ⟨hh, ⟨(projection_neg hh.1).2 p1, (projection_neg hh.2.1).2 p2, (projection_neg hh.2.2).2 p3⟩,
        by linarith, ht⟩
    rw [if_pos h, if_pos h']
    obtain ⟨hh, ⟨p1, p2, p3⟩, hM, ht⟩ := h
    obtain ⟨t, hn⟩ := ht.2.2
    have ht0 : 0 ≤ t := by
      have : (0 : ℚ) ≤ t := by rw [← hn]; linarith [ht.2.1]
      exact_mod_cast this
    obtain ⟨n, rfl⟩ := Int.eq_ofNat_of_zero_le ht0
    have hnn : ⌊j1 + j2 - J⌋.toNat = n := by rw [hn]; simp
    have hn : (n : ℚ) = j1 + j2 - J := by rw [hn]; simp
    rw [hnn, mul_left_comm ((-1 : ℝ) ^ n)]
    congr 1
    · congr 2
      rw [← sub_eq_add_neg, ← sub_eq_add_neg, ← sub_eq_add_neg, sub_neg_eq_add, sub_neg_eq_add, sub_neg_eq_add,
        mul_comm (fac (j1 - m1) : ℝ), mul_comm (fac (j2 - m2) : ℝ), mul_comm (fac (J - M) : ℝ)]
    · rw [← Finset.sum_range_reflect, Finset.mul_sum]
      apply Finset.sum_congr rfl
      intro k hk
      have hk' : k ≤ n := by have := Finset.mem_range.1 hk; omega
      have e : ((n + 1 - 1 - k : ℕ) : ℚ) = j1 + j2 - J - k := by
        rw [Nat.add_sub_cancel, Nat.cast_sub hk', hn]
      rw [e, mul_ite, mul_zero]
      refine if_congr ?_ ?_ rfl
      · constructor
        · rintro ⟨a, b, c, d⟩; exact ⟨by linarith, by linarith, by linarith, by linarith⟩
        · rintro ⟨a, b, c, d⟩; exact ⟨by linarith, by linarith, by linarith, by linarith⟩
      · rw [← mul_div_assoc, ← pow_add]
        congr 1
        · rw [Nat.add_sub_cancel]
          have : n + k = (n - k) + 2 * k := by omega
          rw [this, pow_add, pow_mul]
          simp
        · congr 1
          rw [show j1 + j2 - J - (j1 + j2 - J - k) = k by ring,
            show j1 - -m1 - (j1 + j2 - J - k) = J - j2 + m1 + k by ring,
            show J - j1 - -m2 + (j1 + j2 - J - k) = j2 + m2 - k by ring,
            show j2 + -m2 - (j1 + j2 - J - k) = J - j1 - m2 + k by ring,
            show J - j2 + -m1 + (j1 + j2 - J - k) = j1 - m1 - k by ring]
          ring
  · have h' : ¬ ((IsHalfInteger j1 ∧ IsHalfInteger j2 ∧ IsHalfInteger J) ∧
        (Projection j1 (-m1) ∧ Projection j2 (-m2) ∧ Projection J (-M)) ∧ -m1 + -m2 = -M ∧ Triangle j1 j2 J) := by
      rintro ⟨hh, ⟨p1, p2, p3⟩, hM, ht⟩
      exact h ⟨hh, ⟨(projection_neg hh.1).1 p1, (projection_neg hh.2.1).1 p2, (projection_neg hh.2.2).1 p3⟩,
        by linarith, ht⟩
    rw [if_neg h, if_neg h', mul_zero]

end Verif.Spec
