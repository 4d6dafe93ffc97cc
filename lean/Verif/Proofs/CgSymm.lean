import Verif.Proofs.CgOrtho

/-! Exchange of the coupled spin with one of the spins in a Clebsch-Gordan coefficient. -/
namespace Verif.Cg
open Verif.Spec

theorem form_exchange (n p q β : ℕ) (a : ℤ) :
    form n p q a β = (-1) ^ (n + β) * form q p n (a + β - n) (n + q - β) := by
  rw [form_eq, form_eq, Finset.mul_sum]
  have l : ∀ k ∈ Finset.range (n + 1), (-1 : ℝ) ^ k * n.choose k * bin p (a - k) * bin q (β - (n - k)) ≠ 0 →
      n ≤ β + k ∧ β + k ≤ n + q := by
    intro k _ hk
    by_contra hc
    apply hk
    by_cases h1 : n ≤ β + k
    · rw [bin_gt q (by omega), mul_zero]
    · rw [bin_neg q (by omega), mul_zero]
  have r : ∀ k ∈ Finset.range (q + 1), (-1 : ℝ) ^ (n + β) * ((-1) ^ k * q.choose k * bin p (a + β - n - k) *
      bin n (n + q - β - (q - k))) ≠ 0 → β ≤ n + k ∧ k ≤ β := by
    intro k _ hk
    by_contra hc
    apply hk
    by_cases h1 : β ≤ n + k
    · rw [bin_gt n (by omega), mul_zero, mul_zero]
    · rw [bin_neg n (by omega), mul_zero, mul_zero]
  rw [← Finset.sum_filter_of_ne l, ← Finset.sum_filter_of_ne r]
  refine Finset.sum_nbij' (fun k => k + β - n) (fun k => k + n - β) ?_ ?_ ?_ ?_ ?_
  · intro k hk
    rw [Finset.mem_filter, Finset.mem_range] at *
    omega
  · intro k hk
    rw [Finset.mem_filter, Finset.mem_range] at *
    omega
  · intro k hk
    rw [Finset.mem_filter, Finset.mem_range] at hk
    omega
  · intro k hk
    rw [Finset.mem_filter, Finset.mem_range] at hk
    omega
  · intro k hk
    rw [Finset.mem_filter, Finset.mem_range] at hk
    have e : ((k + β - n : ℕ) : ℤ) = k + β - n := by omega
    rw [e, show a + β - n - (k + β - n : ℤ) = a - k by ring,
      show (n + q - β - (q - (k + β - n)) : ℤ) = (k : ℕ) by ring, bin_nat,
      show (β - (n - k) : ℤ) = ((k + β - n : ℕ) : ℤ) by omega, bin_nat]
    have es : (-1 : ℝ) ^ (n + β) * (-1) ^ (k + β - n) = (-1) ^ k := by
      rw [← pow_add, show n + β + (k + β - n) = k + 2 * β by omega, pow_add, pow_mul]
      simp
    linear_combination (-(q.choose (k + β - n) : ℝ) * bin p (a - k) * n.choose k) * es

theorem wt_symm (D : ℕ) (k : ℤ) : wt D (D - k) = wt D k := by
  unfold wt
  rw [show (D : ℤ) - (D - k) = k by ring]
  refine if_congr (by omega) ?_ rfl
  rw [mul_comm]

theorem cgn_exchange (n p q β : ℕ) (a : ℤ) :
    √(n + p + 1) * cgn n p q a β = (-1) ^ (n + β) * (√(p + q + 1) * cgn q p n (a + β - n) (n + q - β)) := by
  unfold cgn nrm
  rw [form_exchange n p q β a]
  have e1 : (a + β - n + (n + q - β) - q : ℤ) = a := by ring
  have e2 : wt (q + n) (n + q - β : ℤ) = wt (n + q) β := by
    rw [← wt_symm (n + q), add_comm q n]; push_cast; rfl
  rw [e1, e2, add_comm q p, add_comm p n, show n + p + q + 1 = p + q + n + 1 by ring]
  have w1 := wt_nonneg (n + p) a
  have w2 := wt_nonneg (n + q) β
  have w3 := wt_nonneg (p + q) (a + β - n)
  have hs : √((n + p + 1 : ℝ)) * (√((p + q + 1) * wt (p + q) (a + β - n) /
      ((p + q + n + 1).factorial * (n.factorial * p.factorial * q.factorial))) * √(wt (n + p) a * wt (n + q) β)) =
      √(p + q + 1 : ℝ) * (√((p + n + 1) * wt (n + p) a /
      ((p + q + n + 1).factorial * (q.factorial * p.factorial * n.factorial))) *
        √(wt (p + q) (a + β - n) * wt (n + q) β)) := by
    rw [← Real.sqrt_mul (by positivity), ← Real.sqrt_mul (by positivity), ← Real.sqrt_mul (by positivity),
      ← Real.sqrt_mul (by positivity)]
    congr 1
    field_simp
    ring
  linear_combination ((-1) ^ (n + β) * form q p n (a + β - n) (n + q - β)) * hs

end Verif.Cg
