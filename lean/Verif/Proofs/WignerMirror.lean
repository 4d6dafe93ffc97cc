import Verif.Proofs.WignerReflect
import Mathlib.Algebra.Polynomial.Eval.Degree
import Mathlib.Algebra.Polynomial.Eval.Coeff

/-! The Wigner d-functions at `-x` and `π - x`. -/
namespace Verif.Wigner
open Verif Verif.Spec Verif.ThreeBody Polynomial

theorem mat_neg {n a b : ℕ} (x : ℝ) : mat n a b (-x) = (-1) ^ (a + b) * mat n a b x := by
  have h : poly n a (-x) = C ((-1) ^ a) * (poly n a x).comp (-X) := by
    unfold poly
    rw [neg_div, Real.cos_neg, Real.sin_neg]
    simp only [mul_comp, pow_comp, sub_comp, add_comp, C_comp, X_comp, map_neg, C_pow, C_1, map_pow]
    rw [← mul_assoc, ← mul_pow]
    congr 2 <;> ring
  unfold mat
  rw [h, coeff_C_mul, show (-X : ℝ[X]) = C (-1) * X by simp, comp_C_mul_X_coeff, pow_add]
  ring

theorem mat_pi {n a b : ℕ} (ha : a ≤ n) (hb : b ≤ n) (x : ℝ) :
    mat n a b (Real.pi - x) = (-1) ^ a * mat n a (n - b) x := by
  have hc : Real.cos ((Real.pi - x) / 2) = Real.sin (x / 2) := by
    rw [show (Real.pi - x) / 2 = Real.pi / 2 - x / 2 by ring, Real.cos_pi_div_two_sub]
  have hsn : Real.sin ((Real.pi - x) / 2) = Real.cos (x / 2) := by
    rw [show (Real.pi - x) / 2 = Real.pi / 2 - x / 2 by ring, Real.sin_pi_div_two_sub]
  have key : ∑ b ∈ Finset.range (n + 1), C (mat n a b (Real.pi - x)) * X ^ b =
      ∑ b ∈ Finset.range (n + 1), C ((-1) ^ a * mat n a (n - b) x) * X ^ b := by
    apply eq_of_infinite_eval_eq
    have hsub : {t : ℝ | t ≠ 0} ⊆ {t | eval t (∑ b ∈ Finset.range (n + 1),
        C (mat n a b (Real.pi - x)) * X ^ b) =
        eval t (∑ b ∈ Finset.range (n + 1), C ((-1) ^ a * mat n a (n - b) x) * X ^ b)} := by
      intro t ht
      simp only [Set.mem_ofPred_eq] at ht ⊢
      simp only [eval_finsetSum, eval_mul, eval_C, eval_pow, eval_X]
      have h1 := homog ha (Real.pi - x) t 1 one_ne_zero
      have h2 := homog ha x 1 t ht
      rw [hc, hsn] at h1
      have e : ∑ b ∈ Finset.range (n + 1), mat n a b (Real.pi - x) * t ^ b =
          ∑ b ∈ Finset.range (n + 1), mat n a b (Real.pi - x) * (t ^ b * 1 ^ (n - b)) :=
        Finset.sum_congr rfl fun b _ => by rw [one_pow, mul_one]
      rw [e, h1, ← Finset.sum_range_reflect]
      have e' : ∑ j ∈ Finset.range (n + 1), (-1) ^ a *
          mat n a (n - (n + 1 - 1 - j)) x * t ^ (n + 1 - 1 - j) =
          (-1) ^ a * ∑ b ∈ Finset.range (n + 1), mat n a b x * (1 ^ b * t ^ (n - b)) := by
        rw [Finset.mul_sum]
        apply Finset.sum_congr rfl
        intro j hj
        have hj' : j ≤ n := by have := Finset.mem_range.1 hj; omega
        rw [Nat.add_sub_cancel, Nat.sub_sub_self hj', one_pow]
        ring
      rw [e', h2, ← mul_assoc, ← mul_pow]
      congr 2 <;> ring
    apply Set.Infinite.mono hsub
    exact (Set.finite_singleton (0 : ℝ)).infinite_compl
  have := congrArg (fun p => coeff p b) key
  simp only [finsetSum_coeff, coeff_C_mul, coeff_X_pow] at this
  rw [Finset.sum_eq_single b, Finset.sum_eq_single b] at this
  · simpa using this
  · intro k _ hk; simp [Ne.symm hk]
  · intro h; exact absurd (Finset.mem_range.2 (by omega)) h
  · intro k _ hk; simp [Ne.symm hk]
  · intro h; exact absurd (Finset.mem_range.2 (by omega)) h

/-- `d^j_{m,m'}(-x) = (-1)^(m-m') d^j_{m,m'}(x)`. -/
theorem wignerD_mirror {j : ℚ} (hj : IsHalfInteger j) {m m' : ℚ} (hm : m ∈ projections j) (hm' : m' ∈ projections j)
    {z : ℤ} (hz : m - m' = z) (x : ℝ) : wignerD j m m' (-x) = (-1) ^ z * wignerD j m m' x := by
  obtain ⟨n, a, hn, e1, ha, e2, rfl⟩ := pos_spec hj hm
  obtain ⟨n', b, hn', e3, hb, e4, rfl⟩ := pos_spec hj hm'
  obtain rfl : z = (a : ℤ) - b := by
    have : (z : ℚ) = ((a : ℤ) - b : ℤ) := by rw [← hz]; push_cast; ring
    exact_mod_cast this
  unfold wignerD dmat
  have hs : ((-1 : ℝ) ^ a / (-1) ^ b) = (-1) ^ a * (-1) ^ b := by
    rw [div_eq_mul_inv, ← inv_pow]
    norm_num
  rw [e2, e4, mat_neg, zpow_sub₀ (by norm_num), zpow_natCast, zpow_natCast, hs, pow_add]
  ring

/-- `d^j_{m,-m'}(π - x) = (-1)^(j+m) d^j_{m,m'}(x)`. -/
theorem wignerD_supplement {j : ℚ} (hj : IsHalfInteger j) {m m' : ℚ} (hm : m ∈ projections j)
    (hm' : m' ∈ projections j) {z : ℤ} (hz : j + m = z) (x : ℝ) :
    wignerD j m (-m') (Real.pi - x) = (-1) ^ z * wignerD j m m' x := by
  obtain ⟨n, a, hn, e1, ha, e2, rfl⟩ := pos_spec hj hm
  obtain ⟨n', b, hn', e3, hb, e4, rfl⟩ := pos_spec hj hm'
  obtain rfl : n = n' := by
    have : (n : ℚ) = n' := by rw [hn, hn']
    exact_mod_cast this
  have p : pos j (-(-j + (b : ℚ))) = n - b := by
    unfold pos
    have : j + -(-j + (b : ℚ)) = ((n - b : ℕ) : ℚ) := by rw [Nat.cast_sub hb, hn]; ring
    rw [this]; simp
  obtain rfl : z = (a : ℤ) := by
    have : (z : ℚ) = ((a : ℤ) : ℚ) := by rw [← hz]; push_cast; ring
    exact_mod_cast this
  unfold wignerD dmat
  rw [e1, e2, e4, p, mat_pi ha (Nat.sub_le n b), Nat.sub_sub_self hb, Nat.choose_symm hb, zpow_natCast]
  ring

end Verif.Wigner
