import Verif.Proofs.Reference
import Mathlib.Algebra.Polynomial.Roots
import Mathlib.Analysis.SpecialFunctions.Trigonometric.Basic
import Mathlib.Data.Nat.Choose.Sum

/-!
The Wigner d-functions exist: the matrices of the rotations of the plane by half the angle, acting on
homogeneous polynomials of degree `2j` in two variables.
-/
namespace Verif.Wigner
open Verif Verif.Spec Verif.ThreeBody Polynomial

/-- `(c X - s)^a (s X + c)^(n-a)`: the image of the monomial `X^a Y^(n-a)` at `Y = 1`. -/
noncomputable def poly (n a : ℕ) (x : ℝ) : ℝ[X] :=
  (C (Real.cos (x / 2)) * X - C (Real.sin (x / 2))) ^ a *
    (C (Real.sin (x / 2)) * X + C (Real.cos (x / 2))) ^ (n - a)

/-- Matrix elements in the basis of monomials. -/
noncomputable def mat (n a b : ℕ) (x : ℝ) : ℝ := (poly n a x).coeff b

theorem natDegree_poly {n a : ℕ} (ha : a ≤ n) (x : ℝ) : (poly n a x).natDegree ≤ n := by
  have h1 : (C (Real.cos (x / 2)) * X - C (Real.sin (x / 2))).natDegree ≤ 1 := by
    compute_degree
  have h2 : (C (Real.sin (x / 2)) * X + C (Real.cos (x / 2))).natDegree ≤ 1 := by
    compute_degree
  unfold poly
  calc _ ≤ a * 1 + (n - a) * 1 := natDegree_mul_le_of_le (natDegree_pow_le_of_le a h1)
        (natDegree_pow_le_of_le _ h2)
    _ = n := by omega

theorem poly_eval {n a : ℕ} (x t : ℝ) : (poly n a x).eval t =
    (Real.cos (x / 2) * t - Real.sin (x / 2)) ^ a *
      (Real.sin (x / 2) * t + Real.cos (x / 2)) ^ (n - a) := by
  simp [poly]

/-- Expansion of the image of a monomial in homogeneous form. -/
theorem homog {n a : ℕ} (ha : a ≤ n) (x A B : ℝ) (hB : B ≠ 0) :
    ∑ b ∈ Finset.range (n + 1), mat n a b x * (A ^ b * B ^ (n - b)) =
      (Real.cos (x / 2) * A - Real.sin (x / 2) * B) ^ a *
        (Real.sin (x / 2) * A + Real.cos (x / 2) * B) ^ (n - a) := by
  have h := eval_eq_sum_range' (Nat.lt_succ_of_le (natDegree_poly ha x)) (A / B)
  rw [poly_eval] at h
  have e1 : Real.cos (x / 2) * A - Real.sin (x / 2) * B =
      B * (Real.cos (x / 2) * (A / B) - Real.sin (x / 2)) := by field_simp
  have e2 : Real.sin (x / 2) * A + Real.cos (x / 2) * B =
      B * (Real.sin (x / 2) * (A / B) + Real.cos (x / 2)) := by field_simp
  rw [e1, e2, mul_pow, mul_pow, mul_mul_mul_comm, ← pow_add, Nat.add_sub_cancel' ha, h, Finset.mul_sum]
  apply Finset.sum_congr rfl
  intro b hb
  have hb' : b ≤ n := Nat.lt_succ_iff.1 (Finset.mem_range.1 hb)
  unfold mat
  rw [div_pow]
  have : B ^ n = B ^ b * B ^ (n - b) := by rw [← pow_add, Nat.add_sub_cancel' hb']
  rw [this]
  field_simp

theorem mat_add {n a b : ℕ} (ha : a ≤ n) (x y : ℝ) :
    mat n a b (x + y) = ∑ k ∈ Finset.range (n + 1), mat n a k x * mat n k b y := by
  have key : poly n a (x + y) = ∑ k ∈ Finset.range (n + 1), C (mat n a k x) * poly n k y := by
    apply eq_of_infinite_eval_eq
    have hsub : {t : ℝ | Real.sin (y / 2) * t + Real.cos (y / 2) ≠ 0} ⊆
        {t | eval t (poly n a (x + y)) =
          eval t (∑ k ∈ Finset.range (n + 1), C (mat n a k x) * poly n k y)} := by
      intro t ht
      simp only [Set.mem_ofPred_eq] at ht ⊢
      rw [eval_finsetSum, poly_eval]
      simp only [eval_mul, eval_C, poly_eval]
      rw [homog ha x _ _ ht]
      have hxy : (x + y) / 2 = x / 2 + y / 2 := by ring
      rw [hxy, Real.cos_add, Real.sin_add]
      congr 2 <;> ring
    apply Set.Infinite.mono hsub
    have hfin : ({t : ℝ | Real.sin (y / 2) * t + Real.cos (y / 2) ≠ 0}ᶜ).Finite := by
      apply Set.Subsingleton.finite
      intro t ht t' ht'
      simp only [Set.mem_compl_iff, Set.mem_ofPred_eq, not_not] at ht ht'
      have hs : Real.sin (y / 2) ≠ 0 := by
        intro h0
        rw [h0] at ht
        have := Real.sin_sq_add_cos_sq (y / 2)
        simp only [zero_mul, zero_add] at ht
        rw [h0, ht] at this
        norm_num at this
      exact mul_left_cancel₀ hs (by linarith)
    exact Set.infinite_of_finite_compl hfin
  unfold mat
  rw [key, finsetSum_coeff]
  simp [mat]

theorem mat_zero {n a b : ℕ} : mat n a b 0 = if a = b then 1 else 0 := by
  unfold mat poly
  simp [coeff_X_pow, eq_comm]

theorem mat_turn {n a b : ℕ} (ha : a ≤ n) (x : ℝ) :
    mat n a b (x + 2 * Real.pi) = (-1) ^ n * mat n a b x := by
  unfold mat poly
  have h : (x + 2 * Real.pi) / 2 = x / 2 + Real.pi := by ring
  rw [h, Real.cos_add_pi, Real.sin_add_pi]
  have e1 : (C (-Real.cos (x / 2)) * X - C (-Real.sin (x / 2))) =
      C (-1 : ℝ) * (C (Real.cos (x / 2)) * X - C (Real.sin (x / 2))) := by
    simp only [map_neg, map_one]; ring
  have e2 : (C (-Real.sin (x / 2)) * X + C (-Real.cos (x / 2))) =
      C (-1 : ℝ) * (C (Real.sin (x / 2)) * X + C (Real.cos (x / 2))) := by
    simp only [map_neg, map_one]; ring
  rw [e1, e2, mul_pow, mul_pow, mul_mul_mul_comm, ← pow_add, Nat.add_sub_cancel' ha, ← C_pow,
    coeff_C_mul]

theorem mat_transpose {n a b : ℕ} (ha : a ≤ n) (hb : b ≤ n) (x : ℝ) :
    (n.choose a : ℝ) * mat n a b x = n.choose b * mat n b a (-x) := by
  have h1 : ∀ u : ℝ, ∑ k ∈ Finset.range (n + 1), C ((n.choose k : ℝ) * u ^ k) * poly n k x =
      ∑ k ∈ Finset.range (n + 1), C ((n.choose k : ℝ) * (poly n k (-x)).eval u) * X ^ k := by
    intro u
    apply Polynomial.funext
    intro t
    simp only [eval_finsetSum, eval_mul, eval_C, poly_eval, eval_pow, eval_X]
    have hneg : -x / 2 = -(x / 2) := by ring
    rw [hneg, Real.cos_neg, Real.sin_neg]
    have L : ∑ k ∈ Finset.range (n + 1), (n.choose k : ℝ) * u ^ k *
        ((Real.cos (x / 2) * t - Real.sin (x / 2)) ^ k *
          (Real.sin (x / 2) * t + Real.cos (x / 2)) ^ (n - k)) =
        (u * (Real.cos (x / 2) * t - Real.sin (x / 2)) +
          (Real.sin (x / 2) * t + Real.cos (x / 2))) ^ n := by
      rw [add_pow]
      apply Finset.sum_congr rfl
      intro k _
      rw [mul_pow]; ring
    have R : ∑ k ∈ Finset.range (n + 1), (n.choose k : ℝ) *
        ((Real.cos (x / 2) * u - -Real.sin (x / 2)) ^ k *
          (-Real.sin (x / 2) * u + Real.cos (x / 2)) ^ (n - k)) * t ^ k =
        ((Real.cos (x / 2) * u - -Real.sin (x / 2)) * t +
          (-Real.sin (x / 2) * u + Real.cos (x / 2))) ^ n := by
      rw [add_pow]
      apply Finset.sum_congr rfl
      intro k _
      rw [mul_pow]; ring
    rw [L, R]
    congr 1; ring
  have h2 : ∑ k ∈ Finset.range (n + 1), C ((n.choose k : ℝ) * mat n k b x) * X ^ k =
      C (n.choose b : ℝ) * poly n b (-x) := by
    apply Polynomial.funext
    intro u
    have := congrArg (fun p => coeff p b) (h1 u)
    simp only [finsetSum_coeff, coeff_C_mul, coeff_X_pow] at this
    simp only [eval_finsetSum, eval_mul, eval_C, eval_pow, eval_X]
    have hR : ∑ k ∈ Finset.range (n + 1), (n.choose k : ℝ) * eval u (poly n k (-x)) *
        (if b = k then 1 else 0) = n.choose b * eval u (poly n b (-x)) := by
      rw [Finset.sum_eq_single b]
      · simp
      · intro k _ hk; simp [Ne.symm hk]
      · intro h; exact absurd (Finset.mem_range.2 (by omega)) h
    rw [hR] at this
    rw [← this]
    apply Finset.sum_congr rfl
    intro k _
    unfold mat; ring
  have := congrArg (fun p => coeff p a) h2
  simp only [finsetSum_coeff, coeff_C_mul, coeff_X_pow] at this
  rw [Finset.sum_eq_single a] at this
  · simpa [mat] using this
  · intro k _ hk; simp [Ne.symm hk]
  · intro h; exact absurd (Finset.mem_range.2 (by omega)) h

/-- Matrix elements in the orthonormal basis. -/
noncomputable def dmat (n a b : ℕ) (x : ℝ) : ℝ :=
  √(n.choose a) / √(n.choose b) * mat n a b x

/-- The index of a projection. -/
def pos (j m : ℚ) : ℕ := (⌊j + m⌋).toNat

/-- The Wigner d-function. -/
noncomputable def wignerD (j m m' : ℚ) (x : ℝ) : ℝ := dmat (⌊2 * j⌋).toNat (pos j m) (pos j m') x

theorem choose_pos' {n a : ℕ} (ha : a ≤ n) : 0 < √(n.choose a : ℝ) :=
  Real.sqrt_pos.2 (by exact_mod_cast Nat.choose_pos ha)

theorem dmat_neg {n a b : ℕ} (ha : a ≤ n) (hb : b ≤ n) (x : ℝ) : dmat n a b (-x) = dmat n b a x := by
  have h := mat_transpose hb ha x
  have pa := choose_pos' ha
  have pb := choose_pos' hb
  have ea : (n.choose a : ℝ) = √(n.choose a : ℝ) ^ 2 := (Real.sq_sqrt (by positivity)).symm
  have eb : (n.choose b : ℝ) = √(n.choose b : ℝ) ^ 2 := (Real.sq_sqrt (by positivity)).symm
  unfold dmat
  rw [ea, eb] at h
  generalize √(n.choose a : ℝ) = p at *
  generalize √(n.choose b : ℝ) = q at *
  field_simp
  linarith

theorem dmat_add {n a b : ℕ} (ha : a ≤ n) (x y : ℝ) :
    dmat n a b (x + y) = ∑ k ∈ Finset.range (n + 1), dmat n a k x * dmat n k b y := by
  unfold dmat
  rw [mat_add ha, Finset.mul_sum]
  apply Finset.sum_congr rfl
  intro k hk
  have := choose_pos' (n := n) (a := k) (by have := Finset.mem_range.1 hk; omega)
  field_simp

theorem dmat_zero {n a b : ℕ} (ha : a ≤ n) : dmat n a b 0 = if a = b then 1 else 0 := by
  unfold dmat
  rw [mat_zero]
  have := choose_pos' ha
  split
  · rename_i h; subst h; field_simp
  · simp

theorem pos_spec {j : ℚ} (hj : IsHalfInteger j) {m : ℚ} (hm : m ∈ projections j) :
    ∃ n a : ℕ, (n : ℚ) = 2 * j ∧ (⌊2 * j⌋).toNat = n ∧ a ≤ n ∧ pos j m = a ∧ m = -j + a := by
  obtain ⟨h1, h2, z, hz⟩ := (mem_projections hj m).1 hm
  obtain ⟨t, ht⟩ := hj
  have hj0 : 0 ≤ j := by linarith
  have ht0 : 0 ≤ t := by
    have : (0 : ℚ) ≤ t := by linarith
    exact_mod_cast this
  obtain ⟨n, rfl⟩ := Int.eq_ofNat_of_zero_le ht0
  have hjm : j + m = ((n : ℤ) - z : ℤ) := by push_cast; push_cast at ht; linarith
  have hz0 : 0 ≤ (n : ℤ) - z := by
    have : (0 : ℚ) ≤ (((n : ℤ) - z : ℤ) : ℚ) := by rw [← hjm]; linarith
    exact_mod_cast this
  obtain ⟨a, ha⟩ := Int.eq_ofNat_of_zero_le hz0
  have hja : j + m = a := by rw [hjm, ha]; simp
  have hn : (n : ℚ) = 2 * j := by push_cast at ht; linarith
  refine ⟨n, a, hn, ?_, ?_, ?_, by linarith⟩
  · rw [← hn]; simp
  · have : (a : ℚ) ≤ n := by linarith
    exact_mod_cast this
  · unfold pos; rw [hja]; simp

theorem sum_projections {n : ℕ} {j : ℚ} (hn : (n : ℚ) = 2 * j) (f : ℕ → ℝ) :
    ∑ m ∈ projections j, f (pos j m) = ∑ k ∈ Finset.range (n + 1), f k := by
  unfold projections
  have h2 : (⌊2 * j⌋ + 1).toNat = n + 1 := by
    rw [← hn]; simp
  rw [h2, Finset.sum_image]
  · apply Finset.sum_congr rfl
    intro k _
    unfold pos
    congr 1
    rw [show j + (-j + (k : ℚ)) = k by ring]
    simp
  · intro a _ b _ h
    have : (a : ℚ) = b := by simpa using h
    exact_mod_cast this

/-- There is a family of functions with the properties of the Wigner d-functions, for all spins. -/
theorem isWignerD : IsWignerD wignerD := by
  classical
  constructor
  · intro j hj m hm m' hm'
    obtain ⟨n, a, hn, e1, ha, e2, rfl⟩ := pos_spec hj hm
    obtain ⟨n', b, hn', -, -, e4, rfl⟩ := pos_spec hj hm'
    unfold wignerD
    rw [e1, e2, e4, dmat_zero ha]
    simp
  · intro j hj m hm m' hm' x y
    obtain ⟨n, a, hn, e1, ha, e2, -⟩ := pos_spec hj hm
    unfold wignerD
    rw [e1, e2, dmat_add ha]
    exact (sum_projections hn (fun k => dmat n a k x * dmat n k (pos j m') y)).symm
  · intro j hj m hm m' hm' x
    obtain ⟨n, a, hn, e1, ha, e2, -⟩ := pos_spec hj hm
    obtain ⟨n', b, hn', e3, hb, e4, -⟩ := pos_spec hj hm'
    obtain rfl : n = n' := by
      have : (n : ℚ) = n' := by rw [hn, hn']
      exact_mod_cast this
    unfold wignerD
    rw [e1, e2, e4, dmat_neg ha hb]
  · intro j hj m hm m' hm' x
    obtain ⟨n, a, hn, e1, ha, e2, -⟩ := pos_spec hj hm
    unfold wignerD dmat
    rw [e1, e2, mat_turn ha]
    have hs : ((-1) ^ n : ℝ) = if IsInteger j then 1 else -1 := by
      split
      · rename_i h
        obtain ⟨z, hz⟩ := h
        apply Even.neg_one_pow
        have : (n : ℤ) = 2 * z := by
          have : ((n : ℤ) : ℚ) = ((2 * z : ℤ) : ℚ) := by push_cast; rw [hn, hz]
          exact_mod_cast this
        rw [← Int.even_coe_nat, this]
        exact even_two_mul z
      · rename_i h
        apply Odd.neg_one_pow
        rw [← Nat.not_even_iff_odd]
        rintro ⟨k, hk⟩
        apply h
        refine ⟨k, ?_⟩
        have : (n : ℚ) = k + k := by rw [hk]; push_cast; ring
        push_cast
        linarith
    rw [hs]; ring

end Verif.Wigner
