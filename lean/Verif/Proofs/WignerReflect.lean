import Verif.Proofs.WignerExists

/-! Reflection symmetry of the Wigner d-functions. -/
namespace Verif.Wigner
open Verif Verif.Spec Verif.ThreeBody Polynomial

theorem mat_reflect {n a b : ℕ} (ha : a ≤ n) (hb : b ≤ n) (x : ℝ) :
    (-1) ^ (n - b) * mat n (n - a) (n - b) x = (-1) ^ (n - a) * mat n a b x := by
  have key : ∑ b ∈ Finset.range (n + 1), C ((-1) ^ (n - b) * mat n (n - a) (n - b) x) * X ^ b =
      ∑ b ∈ Finset.range (n + 1), C ((-1) ^ (n - a) * mat n a b x) * X ^ b := by
    apply eq_of_infinite_eval_eq
    have hsub : {t : ℝ | t ≠ 0} ⊆ {t | eval t (∑ b ∈ Finset.range (n + 1),
        C ((-1) ^ (n - b) * mat n (n - a) (n - b) x) * X ^ b) =
        eval t (∑ b ∈ Finset.range (n + 1), C ((-1) ^ (n - a) * mat n a b x) * X ^ b)} := by
      intro t ht
      simp only [Set.mem_ofPred_eq] at ht ⊢
      simp only [eval_finsetSum, eval_mul, eval_C, eval_pow, eval_X]
      have h1 := homog ha x t 1 one_ne_zero
      have h2 := homog (Nat.sub_le n a) x (-1) t ht
      rw [Nat.sub_sub_self ha] at h2
      have e : ∑ b ∈ Finset.range (n + 1), (-1) ^ (n - a) * mat n a b x * t ^ b =
          (-1) ^ (n - a) * ∑ b ∈ Finset.range (n + 1), mat n a b x * (t ^ b * 1 ^ (n - b)) := by
        rw [Finset.mul_sum]
        exact Finset.sum_congr rfl fun b _ => by rw [one_pow]; ring
      rw [e, h1, ← Finset.sum_range_reflect]
      have e' : ∑ j ∈ Finset.range (n + 1), (-1) ^ (n - (n + 1 - 1 - j)) *
          mat n (n - a) (n - (n + 1 - 1 - j)) x * t ^ (n + 1 - 1 - j) =
          ∑ b ∈ Finset.range (n + 1), mat n (n - a) b x * ((-1) ^ b * t ^ (n - b)) := by
        apply Finset.sum_congr rfl
        intro j hj
        have hj' : j ≤ n := by have := Finset.mem_range.1 hj; omega
        rw [Nat.add_sub_cancel, Nat.sub_sub_self hj']
        ring
      rw [e', h2]
      rw [show Real.cos (x / 2) * -1 - Real.sin (x / 2) * t =
        (-1) * (Real.sin (x / 2) * t + Real.cos (x / 2) * 1) by ring, mul_pow]
      rw [show Real.sin (x / 2) * -1 + Real.cos (x / 2) * t = Real.cos (x / 2) * t - Real.sin (x / 2) * 1 by ring]
      ring
    apply Set.Infinite.mono hsub
    exact (Set.finite_singleton (0 : ℝ)).infinite_compl
  have := congrArg (fun p => coeff p b) key
  simp only [finsetSum_coeff, coeff_C_mul, coeff_X_pow] at this
  rw [Finset.sum_eq_single b, Finset.sum_eq_single b] at this
  · simpa using this
  · intro k _ hk; simp [Ne.symm hk]
  · intro h; exact absurd (Finset.mem_range.2 (by omega)) h
  · intro k _ hk; simp [Ne.symm hk]
  · intro h; exact absurd (Finset.mem_range.2 (by omega)) h

theorem neg_one_sq_pow (k : ℕ) : ((-1 : ℝ) ^ k) * (-1) ^ k = 1 := by
  rw [← pow_add, ← two_mul, pow_mul]; simp

theorem dmat_reflect {n a b : ℕ} (ha : a ≤ n) (hb : b ≤ n) (x : ℝ) :
    dmat n (n - a) (n - b) x = (-1) ^ (a + b) * dmat n a b x := by
  unfold dmat
  rw [Nat.choose_symm ha, Nat.choose_symm hb]
  have h := mat_reflect ha hb x
  have e : mat n (n - a) (n - b) x = (-1) ^ (a + b) * mat n a b x := by
    have h2 := congrArg (fun y => (-1) ^ (n - b) * y) h
    simp only [← mul_assoc, neg_one_sq_pow, one_mul] at h2
    rw [h2, ← pow_add]
    congr 1
    have : n - b + (n - a) + 2 * (a + b) = 2 * n + (a + b) := by omega
    calc ((-1 : ℝ) ^ (n - b + (n - a))) = (-1) ^ (n - b + (n - a) + 2 * (a + b)) := by
          rw [pow_add _ _ (2 * (a + b)), pow_mul]; simp
      _ = (-1) ^ (a + b) := by rw [this, pow_add, pow_mul]; simp
  rw [e]; ring

/-- Both projections reversed: a sign. -/
theorem wignerD_reflect {j : ℚ} (hj : IsHalfInteger j) {m m' : ℚ} (hm : m ∈ projections j) (hm' : m' ∈ projections j)
    {z : ℤ} (hz : m - m' = z) (x : ℝ) : wignerD j (-m) (-m') x = (-1) ^ z * wignerD j m m' x := by
  obtain ⟨n, a, hn, e1, ha, e2, rfl⟩ := pos_spec hj hm
  obtain ⟨n', b, hn', e3, hb, e4, rfl⟩ := pos_spec hj hm'
  obtain rfl : n = n' := by
    have : (n : ℚ) = n' := by rw [hn, hn']
    exact_mod_cast this
  have p : ∀ c : ℕ, c ≤ n → pos j (-(-j + (c : ℚ))) = n - c := by
    intro c hc
    unfold pos
    have : j + -(-j + (c : ℚ)) = ((n - c : ℕ) : ℚ) := by rw [Nat.cast_sub hc, hn]; ring
    rw [this]; simp
  unfold wignerD
  rw [e1, e2, e4, p a ha, p b hb, dmat_reflect ha hb]
  congr 1
  obtain rfl : z = (a : ℤ) - b := by
    have : (z : ℚ) = ((a : ℤ) - b : ℤ) := by rw [← hz]; push_cast; ring
    exact_mod_cast this
  rw [zpow_sub₀ (by norm_num), zpow_natCast, zpow_natCast, pow_add, div_eq_mul_inv]
  congr 1
  rw [← inv_pow]
  norm_num

end Verif.Wigner
