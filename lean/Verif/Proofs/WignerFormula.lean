import Verif.Proofs.WignerExists
import Verif.Spec.WignerFormula
import Mathlib.Data.Nat.Choose.Cast

/-! Explicit form of the Wigner d-functions. -/
namespace Verif.Wigner
open Verif Verif.Spec Verif.ThreeBody Polynomial

theorem coeff_linear_pow (s c : ℝ) (N i : ℕ) :
    ((C s * X + C c) ^ N).coeff i = (N.choose i : ℝ) * s ^ i * c ^ (N - i) := by
  rw [add_pow, finsetSum_coeff]
  have : ∀ k ∈ Finset.range (N + 1), ((C s * X) ^ k * C c ^ (N - k) * (N.choose k : ℝ[X])).coeff i =
      if k = i then (N.choose i : ℝ) * s ^ i * c ^ (N - i) else 0 := by
    intro k _
    have e : (C s * X) ^ k * C c ^ (N - k) * (N.choose k : ℝ[X]) = C (s ^ k * c ^ (N - k) * N.choose k) * X ^ k := by
      simp only [mul_pow, C_mul, C_pow]
      simp only [map_natCast]
      ring
    rw [e, coeff_C_mul, coeff_X_pow]
    by_cases h : k = i
    · subst h; simp; ring
    · simp [h, Ne.symm h]
  rw [Finset.sum_congr rfl this, Finset.sum_ite_eq']
  split
  · rfl
  · rename_i h
    rw [Nat.choose_eq_zero_of_lt (by simpa using h)]
    simp

theorem mat_explicit (n a b : ℕ) (x : ℝ) :
    mat n a b x = ∑ s ∈ Finset.range (a + 1), if a - s ≤ b then
      (-1) ^ s * (a.choose s : ℝ) * ((n - a).choose (b - (a - s)) : ℝ) *
        Real.cos (x / 2) ^ (a - s + (n - a - (b - (a - s)))) * Real.sin (x / 2) ^ (s + (b - (a - s))) else 0 := by
  unfold mat poly
  rw [sub_eq_add_neg, add_comm (C (Real.cos (x / 2)) * X), add_pow, Finset.sum_mul, finsetSum_coeff]
  refine Finset.sum_congr rfl fun s hs => ?_
  have e : ((-C (Real.sin (x / 2))) ^ s * (C (Real.cos (x / 2)) * X) ^ (a - s) * (a.choose s : ℝ[X])) *
      (C (Real.sin (x / 2)) * X + C (Real.cos (x / 2))) ^ (n - a) =
      C ((-1) ^ s * Real.sin (x / 2) ^ s * Real.cos (x / 2) ^ (a - s) * a.choose s) *
        (X ^ (a - s) * (C (Real.sin (x / 2)) * X + C (Real.cos (x / 2))) ^ (n - a)) := by
    rw [neg_pow]
    simp only [mul_pow, C_mul, C_pow, C_neg, C_1, map_natCast]
    ring
  rw [e, coeff_C_mul, coeff_X_pow_mul', coeff_linear_pow]
  split
  · rw [pow_add, pow_add]; ring
  · simp

theorem dmat_explicit {n a b : ℕ} (ha : a ≤ n) (hb : b ≤ n) (x : ℝ) :
    dmat n a b x = √(a.factorial * (n - a).factorial * b.factorial * (n - b).factorial) *
      ∑ s ∈ (Finset.range (n + 1)).filter fun s => s ≤ a ∧ a ≤ b + s ∧ b + s ≤ n,
        (-1) ^ s * Real.cos (x / 2) ^ (a - s + (n - (b + s))) * Real.sin (x / 2) ^ (s + (b + s - a)) /
          ((a - s).factorial * s.factorial * (b + s - a).factorial * (n - (b + s)).factorial) := by
  unfold dmat
  rw [mat_explicit, Finset.mul_sum, Finset.mul_sum, Finset.sum_filter]
  have hsub : Finset.range (a + 1) ⊆ Finset.range (n + 1) := Finset.range_mono (by omega)
  rw [← Finset.sum_subset hsub (f := fun s => if s ≤ a ∧ a ≤ b + s ∧ b + s ≤ n then _ else _)]
  · refine Finset.sum_congr rfl fun s hs => ?_
    have hs : s ≤ a := Nat.lt_succ_iff.1 (Finset.mem_range.1 hs)
    by_cases h1 : a - s ≤ b
    · have e1 : b - (a - s) = b + s - a := by omega
      rw [if_pos h1, e1]
      by_cases h2 : b + s ≤ n
      · have e2 : n - a - (b + s - a) = n - (b + s) := by omega
        rw [if_pos ⟨hs, by omega, h2⟩, e2, Nat.cast_choose ℝ ha, Nat.cast_choose ℝ hb, Nat.cast_choose ℝ hs,
          Nat.cast_choose ℝ (show b + s - a ≤ n - a by omega), e2]
        have p1 : (0 : ℝ) < a.factorial := by exact_mod_cast Nat.factorial_pos _
        have p2 : (0 : ℝ) < (n - a).factorial := by exact_mod_cast Nat.factorial_pos _
        have p3 : (0 : ℝ) < b.factorial := by exact_mod_cast Nat.factorial_pos _
        have p4 : (0 : ℝ) < (n - b).factorial := by exact_mod_cast Nat.factorial_pos _
        have p5 : (0 : ℝ) < n.factorial := by exact_mod_cast Nat.factorial_pos _
        have p6 : ((a - s).factorial : ℝ) ≠ 0 := by exact_mod_cast Nat.factorial_ne_zero _
        have p7 : (s.factorial : ℝ) ≠ 0 := by exact_mod_cast Nat.factorial_ne_zero _
        have p8 : ((b + s - a).factorial : ℝ) ≠ 0 := by exact_mod_cast Nat.factorial_ne_zero _
        have p9 : ((n - (b + s)).factorial : ℝ) ≠ 0 := by exact_mod_cast Nat.factorial_ne_zero _
        generalize (a.factorial : ℝ) = A at *
        generalize ((n - a).factorial : ℝ) = A' at *
        generalize (b.factorial : ℝ) = B at *
        generalize ((n - b).factorial : ℝ) = B' at *
        generalize (n.factorial : ℝ) = N at *
        have hr : √(N / (A * A')) / √(N / (B * B')) * (A * A') = √(A * A' * B * B') := by
          rw [← Real.sqrt_div (by positivity)]
          have : A * A' = √((A * A') ^ 2) := (Real.sqrt_sq (by positivity)).symm
          rw [this, ← Real.sqrt_mul (by positivity)]
          congr 1
          rw [← this]
          field_simp
        rw [← hr]
        field_simp
      · rw [if_neg (by omega), Nat.choose_eq_zero_of_lt (by omega : n - a < b + s - a)]
        simp
    · rw [if_neg h1, if_neg (by omega)]
      simp
  · intro s _ hs
    rw [if_neg]
    rintro ⟨h, -⟩
    exact hs (Finset.mem_range.2 (by omega))

theorem factorial_nat {r : ℚ} {k : ℕ} (h : r = k) : factorial r = k.factorial := by
  simp [factorial, h]

theorem power_nat (x : ℝ) {r : ℚ} {k : ℕ} (h : r = k) : power x r = x ^ k := by
  simp [power, h]

/-- The d-functions are given by Wigner's formula. -/
theorem wignerD_formula {j m m' : ℚ} (hm : Projection j m) (hm' : Projection j m') (hj : IsHalfInteger j) (x : ℝ) :
    wignerD j m m' x = wignerFormula j m m' x := by
  obtain ⟨n, hn⟩ : ∃ n : ℕ, 2 * j = n := by
    obtain ⟨z, hz⟩ := hj
    have h0 : 0 ≤ 2 * j := by linarith [hm.1, hm.2.1]
    refine ⟨z.toNat, ?_⟩
    have : 0 ≤ z := by
      have : (0 : ℚ) ≤ z := by linarith
      exact_mod_cast this
    have e : ((z.toNat : ℤ) : ℚ) = z := by rw [Int.toNat_of_nonneg this]
    push_cast at e
    linarith
  have key : ∀ {p : ℚ}, Projection j p → ∃ a : ℕ, j + p = a ∧ a ≤ n := by
    intro p hp
    obtain ⟨z, hz⟩ := hp.2.2
    have e : j + p = ((n - z : ℤ) : ℚ) := by push_cast; linarith
    have h0 : (0 : ℚ) ≤ ((n - z : ℤ) : ℚ) := by rw [← e]; linarith [hp.1]
    have h0 : 0 ≤ (n : ℤ) - z := by exact_mod_cast h0
    have e' : (((n - z : ℤ).toNat : ℤ) : ℚ) = ((n - z : ℤ) : ℚ) := by rw [Int.toNat_of_nonneg h0]
    refine ⟨(n - z : ℤ).toNat, by rw [e, ← e']; push_cast; rfl, ?_⟩
    have : (((n - z : ℤ).toNat : ℤ) : ℚ) ≤ n := by
      rw [e', ← e]; linarith [hp.2.1]
    exact_mod_cast this
  obtain ⟨a, ea, ha⟩ := key hm
  obtain ⟨b, eb, hb⟩ := key hm'
  have ea' : j - m = ((n - a : ℕ) : ℚ) := by rw [Nat.cast_sub ha]; linarith
  have eb' : j - m' = ((n - b : ℕ) : ℚ) := by rw [Nat.cast_sub hb]; linarith
  unfold wignerD wignerFormula pos
  rw [factorial_nat ea, factorial_nat ea', factorial_nat eb, factorial_nat eb', ea, eb, hn]
  simp only [Int.floor_natCast, Int.toNat_natCast]
  rw [dmat_explicit ha hb]
  refine congrArg _ (Finset.sum_congr (Finset.filter_congr fun s _ => ?_) fun s hs => ?_)
  · refine and_congr ?_ (and_congr ?_ ?_)
    · rw [sub_nonneg, Nat.cast_le]
    · have : m' - m + s = (b + s : ℕ) - (a : ℚ) := by push_cast; linarith
      rw [this, sub_nonneg, Nat.cast_le]
    · have : j - m' - s = (n : ℚ) - (b + s : ℕ) := by push_cast; linarith
      rw [this, sub_nonneg, Nat.cast_le]
  · obtain ⟨-, h1, h2, h3⟩ := Finset.mem_filter.1 hs
    have c1 : (a : ℚ) - s = ((a - s : ℕ) : ℚ) := by rw [Nat.cast_sub]; · rw [sub_nonneg] at h1; exact_mod_cast h1
    have g1 : s ≤ a := by rw [sub_nonneg] at h1; exact_mod_cast h1
    have g2 : a ≤ b + s := by
      have : (a : ℚ) ≤ (b + s : ℕ) := by push_cast; linarith
      exact_mod_cast this
    have g3 : b + s ≤ n := by
      have : ((b + s : ℕ) : ℚ) ≤ n := by push_cast; linarith
      exact_mod_cast this
    rw [factorial_nat c1, factorial_nat (show m' - m + s = ((b + s - a : ℕ) : ℚ) by rw [Nat.cast_sub g2]; push_cast; linarith),
      factorial_nat (show j - m' - s = ((n - (b + s) : ℕ) : ℚ) by rw [Nat.cast_sub g3]; push_cast; linarith),
      power_nat _ (show (n : ℚ) + m - m' - 2 * s = ((a - s + (n - (b + s)) : ℕ) : ℚ) by
        rw [Nat.cast_add, Nat.cast_sub g1, Nat.cast_sub g3]; push_cast; linarith),
      power_nat _ (show m' - m + 2 * s = ((s + (b + s - a) : ℕ) : ℚ) by
        rw [Nat.cast_add, Nat.cast_sub g2]; push_cast; linarith)]

theorem wignerD_legendre (J : ℕ) (x : ℝ) : wignerD J 0 0 x = (legendre J).eval (Real.cos x) := by
  have e : (X ^ 2 - 1 : ℝ[X]) ^ J = (X + C (-1)) ^ J * (X + C 1) ^ J := by
    rw [← mul_pow]; congr 1; simp; ring
  have hc : Real.cos x = 2 * Real.cos (x / 2) ^ 2 - 1 := by rw [← Real.cos_two_mul]; congr 1; ring
  have hs : Real.cos x - 1 = -2 * Real.sin (x / 2) ^ 2 := by
    rw [hc]; linarith [Real.sin_sq_add_cos_sq (x / 2)]
  have hc' : Real.cos x + 1 = 2 * Real.cos (x / 2) ^ 2 := by rw [hc]; ring
  have hp : (⌊(2 * (J : ℚ))⌋).toNat = 2 * J := by
    have : (2 * (J : ℚ)) = ((2 * J : ℕ) : ℚ) := by push_cast; rfl
    rw [this, Int.floor_natCast, Int.toNat_natCast]
  have hq : pos J 0 = J := by simp [pos]
  have hf : (J.factorial : ℝ) ≠ 0 := by exact_mod_cast Nat.factorial_ne_zero _
  unfold wignerD legendre
  rw [hp, hq, dmat, div_self (choose_pos' (by omega)).ne', one_mul, mat_explicit, e, iterate_derivative_mul, eval_mul,
    eval_C, eval_finsetSum, Finset.mul_sum]
  refine Finset.sum_congr rfl fun k hk => ?_
  have hk : k ≤ J := Nat.lt_succ_iff.1 (Finset.mem_range.1 hk)
  rw [iterate_derivative_X_add_pow, iterate_derivative_X_add_pow]
  simp only [eval_mul, eval_pow, eval_add, eval_X, eval_C, nsmul_eq_mul, eval_natCast]
  have g2 : J - (J - k) = k := by omega
  have g3 : 2 * J - J = J := by omega
  rw [g2, g3, if_pos (by omega), ← sub_eq_add_neg, hs, hc', mul_pow, mul_pow, ← pow_mul, ← pow_mul, ← two_mul, ← two_mul,
    Nat.descFactorial_eq_factorial_mul_choose, Nat.descFactorial_eq_factorial_mul_choose, Nat.choose_symm hk]
  have h1 : (J.factorial : ℝ) = J.choose k * k.factorial * (J - k).factorial := by
    exact_mod_cast (Nat.choose_mul_factorial_mul_factorial hk).symm
  have h2 : (2 : ℝ) ^ J = 2 ^ k * 2 ^ (J - k) := by rw [← pow_add]; congr 1; omega
  have h3 : (-2 : ℝ) ^ k = (-1) ^ k * 2 ^ k := by rw [← mul_pow]; norm_num
  have q1 : (k.factorial : ℝ) ≠ 0 := by exact_mod_cast Nat.factorial_ne_zero _
  have q2 : ((J - k).factorial : ℝ) ≠ 0 := by exact_mod_cast Nat.factorial_ne_zero _
  have q3 : (J.choose k : ℝ) ≠ 0 := by exact_mod_cast (Nat.choose_pos hk).ne'
  rw [h1, h2, h3]
  push_cast
  field_simp

end Verif.Wigner
