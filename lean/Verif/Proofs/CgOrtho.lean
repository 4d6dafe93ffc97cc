import Verif.Proofs.CgForms
import Verif.Proofs.ClebschGordan
import Mathlib.LinearAlgebra.Matrix.NonsingularInverse
import Mathlib.Algebra.BigOperators.Field

/-! Orthonormality and completeness of the Clebsch-Gordan coefficients. -/
namespace Verif.Cg
open Verif.Spec

/-- Normalisation of the form `n p q` at degree `d`. -/
noncomputable def nrm (n p q : ℕ) (d : ℤ) : ℝ :=
  √((p + q + 1) * wt (p + q) (d - n) / ((n + p + q + 1).factorial * (n.factorial * p.factorial * q.factorial)))

/-- The coefficient with `n = j1+j2-J`, `p = j1-j2+J`, `q = -j1+j2+J`, `a = j1-m1`, `β = j2-m2`. -/
noncomputable def cgn (n p q : ℕ) (a β : ℤ) : ℝ :=
  nrm n p q (a + β) * √(wt (n + p) a * wt (n + q) β) * form n p q a β

theorem wt_nonneg (D : ℕ) (k : ℤ) : 0 ≤ wt D k := by
  unfold wt
  split <;> positivity

theorem wt_zero {D : ℕ} {k : ℤ} (h : ¬ (0 ≤ k ∧ k ≤ D)) : wt D k = 0 := if_neg h

theorem wt_mul_bin {D : ℕ} {k : ℤ} (h : 0 ≤ k) (h' : k ≤ D) : wt D k * bin D k = D.factorial := by
  obtain ⟨m, rfl⟩ := Int.eq_ofNat_of_zero_le h
  have hm : m ≤ D := by omega
  rw [wt_nat hm, bin_nat, ← Nat.choose_mul_factorial_mul_factorial hm]
  push_cast
  ring

theorem cgn_sum (n p q n' p' q' : ℕ) (hp : n + p = n' + p') (hq : n + q = n' + q') (d : ℤ) :
    ∑ a ∈ Finset.range (n + p + 1), cgn n p q a (d - a) * cgn n' p' q' a (d - a) =
      nrm n p q d * nrm n' p' q' d * ip (n + p) (n + q) d (form n p q) (form n' p' q') := by
  unfold ip
  rw [Finset.mul_sum]
  apply Finset.sum_congr rfl
  intro a _
  unfold cgn
  rw [← hp, ← hq, show (a : ℤ) + (d - a) = d by ring]
  have h := Real.mul_self_sqrt (mul_nonneg (wt_nonneg (n + p) a) (wt_nonneg (n + q) (d - a)))
  linear_combination (nrm n p q d * nrm n' p' q' d * form n p q a (d - a) * form n' p' q' a (d - a)) * h

theorem cgn_orthogonal {n p q n' p' q' : ℕ} (hn : n ≠ n') (hp : n + p = n' + p') (hq : n + q = n' + q') (d : ℤ) :
    ∑ a ∈ Finset.range (n + p + 1), cgn n p q a (d - a) * cgn n' p' q' a (d - a) = 0 := by
  rw [cgn_sum n p q n' p' q' hp hq, ip_form_ne hn hp hq, mul_zero]

theorem cgn_normal (n p q : ℕ) {d : ℤ} (h : n ≤ d) (h' : d ≤ n + p + q) :
    ∑ a ∈ Finset.range (n + p + 1), cgn n p q a (d - a) * cgn n p q a (d - a) = 1 := by
  rw [cgn_sum n p q n p q rfl rfl]
  have hw : wt (p + q) (d - n) * bin (p + q) (d - n) = (p + q).factorial := by
    exact wt_mul_bin (by omega) (by push_cast; omega)
  have h1 := ip_form_self n p q d
  have hs : ((p + q + 1).factorial : ℝ) = (p + q + 1) * (p + q).factorial := by
    rw [Nat.factorial_succ]; push_cast; ring
  have hi := eq_div_of_mul_eq (by positivity) h1
  rw [hi]
  unfold nrm
  rw [Real.mul_self_sqrt (div_nonneg (mul_nonneg (by positivity) (wt_nonneg _ _)) (by positivity)), hs]
  field_simp
  linear_combination hw

theorem fac_int {x : ℚ} (z : ℤ) (h : x = z) : fac x = z.toNat.factorial := by
  unfold fac
  rw [h, Int.floor_intCast]

theorem bin_div {D : ℕ} {k : ℤ} (h : 0 ≤ k) (h' : k ≤ D) :
    bin D k = D.factorial / (k.toNat.factorial * (D - k).toNat.factorial) := by
  have h1 := wt_mul_bin h h'
  unfold wt at h1
  rw [if_pos ⟨h, h'⟩] at h1
  push_cast at h1
  rw [eq_div_iff (by positivity), ← h1]
  ring

theorem racah_term (n p q k : ℕ) (hk : k ≤ n) (a β : ℤ) :
    (if (k : ℤ) ≤ a ∧ k ≤ n + q - β ∧ 0 ≤ p - a + k ∧ 0 ≤ β - n + k then
      (-1) ^ k / ((k.factorial * (n - k : ℤ).toNat.factorial * ((a - k).toNat.factorial * (β - n + k).toNat.factorial) *
        ((n + q - β - k).toNat.factorial * (p - a + k).toNat.factorial) : ℕ) : ℝ) else 0) =
    (-1) ^ k * n.choose k * bin p (a - k) * bin q (β - (n - k)) / (n.factorial * p.factorial * q.factorial) := by
  split_ifs with h
  · obtain ⟨h1, h2, h3, h4⟩ := h
    rw [bin_div (by omega) (by omega), bin_div (by omega) (by omega), ← bin_nat, bin_div (by omega) (by omega),
      show (p : ℤ) - (a - k) = p - a + k by ring, show (β - (n - k : ℤ)) = β - n + k by ring,
      show (q : ℤ) - (β - n + k) = n + q - β - k by ring, Int.toNat_natCast]
    push_cast
    field_simp
  · by_cases h1 : (k : ℤ) ≤ a ∧ 0 ≤ p - a + k
    · have : bin q (β - (n - k)) = 0 := by
        by_cases h2 : 0 ≤ β - n + k
        · exact bin_gt _ (by omega)
        · exact bin_neg _ (by omega)
      rw [this]; simp
    · have : bin p (a - k) = 0 := by
        by_cases h2 : (k : ℤ) ≤ a
        · exact bin_gt _ (by omega)
        · exact bin_neg _ (by omega)
      rw [this]; simp

theorem sqrt_normal {N P Q T c w1 w2 w3 : ℝ} (hN : 0 < N) (hP : 0 < P) (hQ : 0 < Q) (hT : 0 < T) (hc : 0 ≤ c)
    (h1 : 0 ≤ w1) (h2 : 0 ≤ w2) (h3 : 0 ≤ w3) (F : ℝ) :
    √(c * N * P * Q / T) * √(w1 * w2 * w3) * (F / (N * P * Q)) =
      √(c * w3 / (T * (N * P * Q))) * √(w1 * w2) * F := by
  have e : √(c * N * P * Q / T) * √(w1 * w2 * w3) = √(c * w3 / (T * (N * P * Q))) * √(w1 * w2) * (N * P * Q) := by
    rw [← Real.sqrt_mul (by positivity), ← Real.sqrt_mul (by positivity),
      show c * N * P * Q / T * (w1 * w2 * w3) = c * w3 / (T * (N * P * Q)) * (w1 * w2) * (N * P * Q) ^ 2 by field_simp,
      Real.sqrt_mul (by positivity), Real.sqrt_sq (by positivity)]
  rw [e]
  field_simp

theorem clebschGordan_eq (n p q : ℕ) (a β : ℤ) :
    clebschGordan ((n + p) / 2) ((n + p) / 2 - a) ((n + q) / 2) ((n + q) / 2 - β) ((p + q) / 2)
      ((n + p) / 2 + (n + q) / 2 - a - β) = cgn n p q a β := by
  classical
  unfold clebschGordan
  split_ifs with h
  · obtain ⟨-, ⟨⟨h1, h2, -⟩, ⟨h3, h4, -⟩, ⟨h5, h6, -⟩⟩, -, -⟩ := h
    have h1 : a ≤ n + p := by
      have : (a : ℚ) ≤ n + p := by linarith
      exact_mod_cast this
    have h2 : 0 ≤ a := by
      have : (0 : ℚ) ≤ a := by linarith
      exact_mod_cast this
    have h3 : β ≤ n + q := by
      have : (β : ℚ) ≤ n + q := by linarith
      exact_mod_cast this
    have h4 : 0 ≤ β := by
      have : (0 : ℚ) ≤ β := by linarith
      exact_mod_cast this
    have h5 : a + β ≤ n + p + q := by
      have : (a + β : ℚ) ≤ n + p + q := by linarith
      exact_mod_cast this
    have h6 : n ≤ a + β := by
      have : (n : ℚ) ≤ a + β := by linarith
      exact_mod_cast this
    have en : ((n + p) / 2 + (n + q) / 2 - (p + q) / 2 : ℚ) = (n : ℤ) := by push_cast; ring
    rw [en, Int.floor_intCast, Int.toNat_natCast]
    have es : ∀ k ∈ Finset.range (n + 1), (if (k : ℚ) ≤ (n + p) / 2 - ((n + p) / 2 - a) ∧
        (k : ℚ) ≤ (n + q) / 2 + ((n + q) / 2 - β) ∧
        0 ≤ (p + q : ℚ) / 2 - (n + q) / 2 + ((n + p) / 2 - a) + k ∧
        0 ≤ (p + q : ℚ) / 2 - (n + p) / 2 - ((n + q) / 2 - β) + k then
        (-1) ^ k / ((fac k * fac ((n : ℤ) - k) * (fac ((n + p) / 2 - ((n + p) / 2 - a) - k) *
          fac ((p + q : ℚ) / 2 - (n + p) / 2 - ((n + q) / 2 - β) + k)) *
          (fac ((n + q) / 2 + ((n + q) / 2 - β) - k) *
          fac ((p + q : ℚ) / 2 - (n + q) / 2 + ((n + p) / 2 - a) + k)) : ℕ) : ℝ) else 0) =
        (-1) ^ k * n.choose k * bin p (a - k) * bin q (β - (n - k)) / (n.factorial * p.factorial * q.factorial) := by
      intro k hk
      rw [← racah_term n p q k (by have := Finset.mem_range.1 hk; omega)]
      rw [fac_int (k : ℤ) (by push_cast; ring), fac_int ((n : ℤ) - k) (by push_cast; ring),
        fac_int (a - k) (by push_cast; ring), fac_int (β - n + k) (by push_cast; ring),
        fac_int (n + q - β - k) (by push_cast; ring), fac_int (p - a + k) (by push_cast; ring), Int.toNat_natCast]
      refine if_congr ?_ rfl rfl
      have c1 : ((k : ℚ) ≤ (n + p) / 2 - ((n + p) / 2 - a)) ↔ (k : ℤ) ≤ a := by
        rw [← @Int.cast_le ℚ]; push_cast; constructor <;> intro <;> linarith
      have c2 : ((k : ℚ) ≤ (n + q) / 2 + ((n + q) / 2 - β)) ↔ (k : ℤ) ≤ n + q - β := by
        rw [← @Int.cast_le ℚ]; push_cast; constructor <;> intro <;> linarith
      have c3 : (0 ≤ (p + q : ℚ) / 2 - (n + q) / 2 + ((n + p) / 2 - a) + k) ↔ (0 : ℤ) ≤ p - a + k := by
        rw [← @Int.cast_le ℚ]; push_cast; constructor <;> intro <;> linarith
      have c4 : (0 ≤ (p + q : ℚ) / 2 - (n + p) / 2 - ((n + q) / 2 - β) + k) ↔ (0 : ℤ) ≤ β - n + k := by
        rw [← @Int.cast_le ℚ]; push_cast; constructor <;> intro <;> linarith
      rw [c1, c2, c3, c4]
    rw [Finset.sum_congr rfl es, ← Finset.sum_div, ← form_eq]
    unfold cgn nrm
    rw [fac_int (n : ℤ) (by rfl), fac_int (p : ℤ) (by push_cast; ring), fac_int (q : ℤ) (by push_cast; ring),
      fac_int ((n + p + q + 1 : ℕ) : ℤ) (by push_cast; ring),
      fac_int (n + p - a) (by push_cast; ring), fac_int a (by ring), fac_int (n + q - β) (by push_cast; ring),
      fac_int β (by ring), fac_int (n + p + q - a - β) (by push_cast; ring), fac_int (a + β - n) (by push_cast; ring)]
    have w1 : wt (n + p) a = ((n + p - a).toNat.factorial : ℝ) * a.toNat.factorial := by
      unfold wt
      rw [if_pos (by push_cast; omega)]
      push_cast
      ring
    have w2 : wt (n + q) β = ((n + q - β).toNat.factorial : ℝ) * β.toNat.factorial := by
      unfold wt
      rw [if_pos (by push_cast; omega)]
      push_cast
      ring
    have w3 : wt (p + q) (a + β - n) = ((n + p + q - a - β).toNat.factorial : ℝ) * (a + β - n).toNat.factorial := by
      unfold wt
      rw [if_pos (by push_cast; omega), show ((p + q : ℕ) : ℤ) - (a + β - n) = n + p + q - a - β by push_cast; ring]
      push_cast
      ring
    rw [← w1, ← w2, ← w3, show (((2 * ((p + q) / 2) + 1 : ℚ)) : ℝ) = p + q + 1 by push_cast; ring]
    simp only [Int.toNat_natCast]
    exact sqrt_normal (by positivity) (by positivity) (by positivity) (by positivity) (by positivity) (wt_nonneg _ _)
      (wt_nonneg _ _) (wt_nonneg _ _) _
  · symm
    unfold cgn nrm
    by_cases ha : 0 ≤ a ∧ a ≤ (n + p : ℕ)
    swap
    · rw [wt_zero ha]; simp
    by_cases hβ : 0 ≤ β ∧ β ≤ (n + q : ℕ)
    swap
    · rw [wt_zero hβ]; simp
    by_cases hd : 0 ≤ a + β - n ∧ a + β - n ≤ (p + q : ℕ)
    swap
    · rw [wt_zero hd]; simp
    refine absurd ?_ h
    have i1 : (0 : ℚ) ≤ a ∧ (a : ℚ) ≤ n + p := by exact_mod_cast ha
    have i2 : (0 : ℚ) ≤ β ∧ (β : ℚ) ≤ n + q := by exact_mod_cast hβ
    have i3 : (0 : ℚ) ≤ a + β - n ∧ (a + β - n : ℚ) ≤ p + q := by exact_mod_cast hd
    refine ⟨⟨⟨n + p, by push_cast; ring⟩, ⟨n + q, by push_cast; ring⟩, ⟨p + q, by push_cast; ring⟩⟩,
      ⟨⟨by linarith, by linarith, ?_⟩, ⟨by linarith, by linarith, ?_⟩, ⟨by linarith, by linarith, ?_⟩⟩, by ring,
      ?_, ?_, ?_⟩
    · exact ⟨a, by ring⟩
    · exact ⟨β, by ring⟩
    · exact ⟨a + β - n, by push_cast; ring⟩
    · rw [abs_le]
      constructor <;> linarith [(Nat.cast_nonneg p : (0 : ℚ) ≤ p), (Nat.cast_nonneg q : (0 : ℚ) ≤ q)]
    · linarith [(Nat.cast_nonneg n : (0 : ℚ) ≤ n)]
    · exact ⟨n, by push_cast; ring⟩

theorem cgn_zero {n p q : ℕ} {a β : ℤ}
    (h : ¬ ((0 ≤ a ∧ a ≤ n + p) ∧ (0 ≤ β ∧ β ≤ n + q) ∧ n ≤ a + β ∧ a + β ≤ n + p + q)) : cgn n p q a β = 0 := by
  unfold cgn nrm
  by_cases ha : 0 ≤ a ∧ a ≤ (n + p : ℕ)
  swap
  · rw [wt_zero ha]; simp
  by_cases hβ : 0 ≤ β ∧ β ≤ (n + q : ℕ)
  swap
  · rw [wt_zero hβ]; simp
  by_cases hd : 0 ≤ a + β - n ∧ a + β - n ≤ (p + q : ℕ)
  swap
  · rw [wt_zero hd]; simp
  push_cast at *
  exact absurd ⟨ha, hβ, by omega, by omega⟩ h

theorem cgn_complete {D₁ D₂ d a a' : ℕ} (h1 : a ≤ D₁) (h2 : a ≤ d) (h3 : d ≤ D₂ + a)
    (h1' : a' ≤ D₁) (h2' : a' ≤ d) (h3' : d ≤ D₂ + a') :
    ∑ n ∈ Finset.range (min D₁ D₂ + 1), cgn n (D₁ - n) (D₂ - n) a (d - a) * cgn n (D₁ - n) (D₂ - n) a' (d - a') =
      if a = a' then 1 else 0 := by
  obtain ⟨r, hr⟩ : ∃ r, r = min (min D₁ D₂) (min d (D₁ + D₂ - d)) := ⟨_, rfl⟩
  obtain ⟨lo, hlo⟩ : ∃ lo, lo = d - D₂ := ⟨_, rfl⟩
  let Q : Matrix (Fin (r + 1)) (Fin (r + 1)) ℝ := fun n t =>
    cgn n (D₁ - n) (D₂ - n) ((lo + t : ℕ) : ℤ) (d - (lo + t : ℕ))
  have hQ : Q * Q.transpose = 1 := by
    ext n n'
    have hn := n.isLt
    have hn' := n'.isLt
    rw [Matrix.mul_apply, Matrix.one_apply]
    show ∑ t : Fin (r + 1), cgn n (D₁ - n) (D₂ - n) ((lo + t : ℕ) : ℤ) (d - (lo + t : ℕ)) *
      cgn n' (D₁ - n') (D₂ - n') ((lo + t : ℕ) : ℤ) (d - (lo + t : ℕ)) = _
    rw [← Finset.sum_range (fun t => cgn n (D₁ - n) (D₂ - n) ((lo + t : ℕ) : ℤ) (d - (lo + t : ℕ)) *
      cgn n' (D₁ - n') (D₂ - n') ((lo + t : ℕ) : ℤ) (d - (lo + t : ℕ)))]
    have e : ∑ t ∈ Finset.range (r + 1), cgn n (D₁ - n) (D₂ - n) ((lo + t : ℕ) : ℤ) (d - (lo + t : ℕ)) *
        cgn n' (D₁ - n') (D₂ - n') ((lo + t : ℕ) : ℤ) (d - (lo + t : ℕ)) =
        ∑ x ∈ Finset.range (n + (D₁ - n) + 1), cgn n (D₁ - n) (D₂ - n) x (d - x) *
        cgn n' (D₁ - n') (D₂ - n') x (d - x) := by
      have := Finset.sum_Ico_eq_sum_range (fun x : ℕ => cgn n (D₁ - n) (D₂ - n) x (d - x) *
        cgn n' (D₁ - n') (D₂ - n') x (d - x)) lo (lo + (r + 1))
      rw [Nat.add_sub_cancel_left] at this
      rw [← this]
      apply Finset.sum_subset
      · intro x hx
        rw [Finset.mem_Ico] at hx
        rw [Finset.mem_range]
        omega
      · intro x hx hx'
        rw [Finset.mem_range] at hx
        rw [Finset.mem_Ico] at hx'
        rw [cgn_zero (n := n), zero_mul]
        omega
    rw [e]
    split_ifs with h
    · subst h
      exact cgn_normal _ _ _ (by omega) (by omega)
    · exact cgn_orthogonal (fun g => h (Fin.ext g)) (by omega) (by omega) _
  have hQ' := mul_eq_one_comm.1 hQ
  have key := congrFun (congrFun hQ' ⟨a - lo, by omega⟩) ⟨a' - lo, by omega⟩
  rw [Matrix.mul_apply, Matrix.one_apply] at key
  have key : ∑ n : Fin (r + 1), cgn n (D₁ - n) (D₂ - n) ((lo + (a - lo) : ℕ) : ℤ) (d - (lo + (a - lo) : ℕ)) *
      cgn n (D₁ - n) (D₂ - n) ((lo + (a' - lo) : ℕ) : ℤ) (d - (lo + (a' - lo) : ℕ)) = _ := key
  rw [show lo + (a - lo) = a by omega, show lo + (a' - lo) = a' by omega, ← Finset.sum_range (fun n =>
    cgn n (D₁ - n) (D₂ - n) a (d - a) * cgn n (D₁ - n) (D₂ - n) a' (d - a'))] at key
  have hs : ∑ n ∈ Finset.range (min D₁ D₂ + 1),
      cgn n (D₁ - n) (D₂ - n) a (d - a) * cgn n (D₁ - n) (D₂ - n) a' (d - a') =
      ∑ n ∈ Finset.range (r + 1), cgn n (D₁ - n) (D₂ - n) a (d - a) * cgn n (D₁ - n) (D₂ - n) a' (d - a') := by
    symm
    apply Finset.sum_subset
    · intro x hx
      rw [Finset.mem_range] at *
      omega
    · intro x hx hx'
      rw [Finset.mem_range] at *
      rw [cgn_zero (n := x), zero_mul]
      omega
  rw [hs, key]
  refine if_congr ?_ rfl rfl
  rw [Fin.mk.injEq]
  omega

end Verif.Cg
