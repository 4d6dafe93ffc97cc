import Verif.Proofs.WignerExists
import Mathlib.Analysis.SpecialFunctions.Trigonometric.Deriv
import Mathlib.Algebra.Polynomial.Derivative
import Mathlib.Analysis.SpecialFunctions.Integrals.Basic
import Mathlib.MeasureTheory.Integral.IntervalIntegral.FundThmCalculus

/-! Orthogonality of the Wigner d-functions: `∫ d^j d^j' sin x dx = 2/(2j+1) δ_jj'` over `[0, π]`. The matrix elements have
ladder operators in the second projection, from which both cases follow by integration of a derivative. -/
namespace Verif.Wigner
open Verif Verif.Spec Verif.ThreeBody Polynomial

/-- Derivative of a polynomial with respect to a parameter, coefficient by coefficient. -/
def PDeriv (p : ℝ → ℝ[X]) (p' : ℝ[X]) (x : ℝ) : Prop := ∀ k, HasDerivAt (fun y => (p y).coeff k) (p'.coeff k) x

theorem PDeriv.mul {p q : ℝ → ℝ[X]} {p' q' : ℝ[X]} {x : ℝ} (hp : PDeriv p p' x) (hq : PDeriv q q' x) :
    PDeriv (fun y => p y * q y) (p' * q x + p x * q') x := by
  intro k
  simp only [coeff_add, coeff_mul, ← Finset.sum_add_distrib]
  exact HasDerivAt.fun_sum fun i _ => (hp i.1).mul (hq i.2)

theorem PDeriv.pow {p : ℝ → ℝ[X]} {p' : ℝ[X]} {x : ℝ} (hp : PDeriv p p' x) (n : ℕ) :
    PDeriv (fun y => p y ^ n) ((n : ℝ[X]) * p x ^ (n - 1) * p') x := by
  induction n with
  | zero =>
    intro k
    simpa using hasDerivAt_const x ((1 : ℝ[X]).coeff k)
  | succ n ih =>
    have h := ih.mul hp
    have e : ((n : ℝ[X]) * p x ^ (n - 1) * p') * p x + p x ^ n * p' =
        ((n + 1 : ℕ) : ℝ[X]) * p x ^ (n + 1 - 1) * p' := by
      rcases n with - | n
      · simp
      · simp only [Nat.add_sub_cancel]
        push_cast
        ring
    rw [e] at h
    simpa only [pow_succ] using h

/-- First factor. -/
noncomputable def pu (x : ℝ) : ℝ[X] := C (Real.cos (x / 2)) * X - C (Real.sin (x / 2))
/-- Second factor. -/
noncomputable def pv (x : ℝ) : ℝ[X] := C (Real.sin (x / 2)) * X + C (Real.cos (x / 2))

theorem poly_uv (n a : ℕ) (x : ℝ) : poly n a x = pu x ^ a * pv x ^ (n - a) := rfl

theorem deriv_cos_half (x : ℝ) : HasDerivAt (fun y => Real.cos (y / 2)) (-(1 / 2) * Real.sin (x / 2)) x := by
  have := ((hasDerivAt_id x).div_const 2).cos
  simp only [id] at this
  convert this using 1
  ring

theorem deriv_sin_half (x : ℝ) : HasDerivAt (fun y => Real.sin (y / 2)) (1 / 2 * Real.cos (x / 2)) x := by
  have := ((hasDerivAt_id x).div_const 2).sin
  simp only [id] at this
  convert this using 1
  ring

theorem pderiv_u (x : ℝ) : PDeriv pu (C (-(1 / 2)) * pv x) x := by
  intro k
  have e : ∀ y, (pu y).coeff k = Real.cos (y / 2) * (X : ℝ[X]).coeff k - Real.sin (y / 2) * (1 : ℝ[X]).coeff k := by
    intro y
    unfold pu
    rw [coeff_sub, coeff_C_mul, ← mul_one (C (Real.sin (y / 2))), coeff_C_mul]
  have e' : (C (-(1 / 2)) * pv x).coeff k =
      -(1 / 2) * Real.sin (x / 2) * (X : ℝ[X]).coeff k - 1 / 2 * Real.cos (x / 2) * (1 : ℝ[X]).coeff k := by
    unfold pv
    rw [coeff_C_mul, coeff_add, coeff_C_mul, ← mul_one (C (Real.cos (x / 2))), coeff_C_mul]
    ring
  simp only [e, e']
  exact ((deriv_cos_half x).mul_const _).sub ((deriv_sin_half x).mul_const _)

theorem pderiv_v (x : ℝ) : PDeriv pv (C (1 / 2) * pu x) x := by
  intro k
  have e : ∀ y, (pv y).coeff k = Real.sin (y / 2) * (X : ℝ[X]).coeff k + Real.cos (y / 2) * (1 : ℝ[X]).coeff k := by
    intro y
    unfold pv
    rw [coeff_add, coeff_C_mul, ← mul_one (C (Real.cos (y / 2))), coeff_C_mul]
  have e' : (C (1 / 2) * pu x).coeff k =
      1 / 2 * Real.cos (x / 2) * (X : ℝ[X]).coeff k + -(1 / 2) * Real.sin (x / 2) * (1 : ℝ[X]).coeff k := by
    unfold pu
    rw [coeff_C_mul, coeff_sub, coeff_C_mul, ← mul_one (C (Real.sin (x / 2))), coeff_C_mul]
    ring
  simp only [e, e']
  exact ((deriv_sin_half x).mul_const _).add ((deriv_cos_half x).mul_const _)

theorem cs_one (x : ℝ) :
    C (Real.cos (x / 2)) * C (Real.cos (x / 2)) + C (Real.sin (x / 2)) * C (Real.sin (x / 2)) = (1 : ℝ[X]) := by
  rw [← C_mul, ← C_mul, ← C_add, ← C_1]
  congr 1
  nlinarith [Real.sin_sq_add_cos_sq (x / 2)]

theorem uv_x (x : ℝ) : C (Real.cos (x / 2)) * pu x + C (Real.sin (x / 2)) * pv x = X := by
  have h := cs_one x
  unfold pu pv
  linear_combination X * h

theorem uv_one (x : ℝ) : C (Real.cos (x / 2)) * pv x - C (Real.sin (x / 2)) * pu x = 1 := by
  have h := cs_one x
  unfold pu pv
  linear_combination h

theorem derivative_uv (a m : ℕ) (x : ℝ) : derivative (pu x ^ a * pv x ^ m) =
    (a : ℝ[X]) * pu x ^ (a - 1) * C (Real.cos (x / 2)) * pv x ^ m +
      pu x ^ a * ((m : ℝ[X]) * pv x ^ (m - 1) * C (Real.sin (x / 2))) := by
  have hu : derivative (pu x) = C (Real.cos (x / 2)) := by simp [pu]
  have hv : derivative (pv x) = C (Real.sin (x / 2)) := by simp [pv]
  rw [derivative_mul, derivative_pow, derivative_pow, hu, hv]
  simp

theorem pred_pow (a : ℕ) (p : ℝ[X]) : (a : ℝ[X]) * p ^ (a - 1) * p = a * p ^ a := by
  rcases a with - | a
  · simp
  · rw [Nat.add_sub_cancel, pow_succ]; ring

/-- The derivative with respect to the angle is a rotation generator. -/
theorem pderiv_poly {n a : ℕ} (ha : a ≤ n) (x : ℝ) :
    PDeriv (poly n a) (C (1 / 2) * ((n : ℝ[X]) * X * poly n a x - (1 + X ^ 2) * derivative (poly n a x))) x := by
  obtain ⟨m, rfl⟩ := Nat.exists_eq_add_of_le ha
  have h := ((pderiv_u x).pow a).mul ((pderiv_v x).pow m)
  have hx := uv_x x
  have h1 := uv_one x
  have h2 := cs_one x
  have hp : poly (a + m) a = fun y => pu y ^ a * pv y ^ m := by
    funext y; rw [poly_uv, Nat.add_sub_cancel_left]
  rw [hp]
  convert h using 1
  rw [derivative_uv, show (C (-(1 / 2)) : ℝ[X]) = -C (1 / 2) by simp]
  have ea := pred_pow a (pu x)
  have em := pred_pow m (pv x)
  push_cast
  generalize C (1 / 2 : ℝ) = w
  generalize C (Real.cos (x / 2)) = c at *
  generalize C (Real.sin (x / 2)) = s at *
  generalize pu x ^ (a - 1) = U at *
  generalize pv x ^ (m - 1) = V at *
  generalize pu x ^ a = Ua at *
  generalize pv x ^ m = Vm at *
  generalize pu x = u at *
  generalize pv x = v at *
  rw [← hx]
  have hq : 1 + (c * u + s * v) ^ 2 = u ^ 2 + v ^ 2 := by
    linear_combination (-(c * v - s * u) - 1) * h1 + (u ^ 2 + v ^ 2) * h2
  linear_combination w * (-((a : ℝ[X]) * U * c * Vm + Ua * (m * V * s)) * hq + (-c * u * Vm - s * v * Vm) * ea +
    (-s * v * Ua - c * u * Ua) * em + (-(a : ℝ[X]) * v * U * Vm + m * u * Ua * V) * h1)

/-- The second projection is an eigenvalue: the generator of rotations about the rotated axis. -/
theorem poly_axis {n a : ℕ} (ha : a ≤ n) (x : ℝ) :
    (2 * (a : ℝ[X]) - (n : ℝ[X])) * poly n a x = C (Real.cos x) * (2 * X * derivative (poly n a x) - (n : ℝ[X]) * poly n a x) -
      C (Real.sin x) * ((1 - X ^ 2) * derivative (poly n a x) + (n : ℝ[X]) * X * poly n a x) := by
  obtain ⟨m, rfl⟩ := Nat.exists_eq_add_of_le ha
  have hx := uv_x x
  have h1 := uv_one x
  have h2 := cs_one x
  have hc : (C (Real.cos x) : ℝ[X]) = C (Real.cos (x / 2)) * C (Real.cos (x / 2)) -
      C (Real.sin (x / 2)) * C (Real.sin (x / 2)) := by
    rw [← C_mul, ← C_mul, ← C_sub]
    congr 1
    conv_lhs => rw [show x = 2 * (x / 2) by ring]
    rw [Real.cos_two_mul']
    ring
  have hs : (C (Real.sin x) : ℝ[X]) = 2 * C (Real.sin (x / 2)) * C (Real.cos (x / 2)) := by
    rw [show (2 : ℝ[X]) = C 2 from (map_ofNat C 2).symm, ← C_mul, ← C_mul]
    congr 1
    conv_lhs => rw [show x = 2 * (x / 2) by ring]
    rw [Real.sin_two_mul]
  rw [poly_uv, Nat.add_sub_cancel_left, derivative_uv, hc, hs]
  have ea := pred_pow a (pu x)
  have em := pred_pow m (pv x)
  push_cast
  generalize C (Real.cos (x / 2)) = c at *
  generalize C (Real.sin (x / 2)) = s at *
  generalize pu x ^ (a - 1) = U at *
  generalize pv x ^ (m - 1) = V at *
  generalize pu x ^ a = Ua at *
  generalize pv x ^ m = Vm at *
  generalize pu x = u at *
  generalize pv x = v at *
  have hq : (c * c - s * s) * (2 * X) - 2 * s * c * (1 - X ^ 2) = 2 * u * v := by
    rw [← hx]
    linear_combination (-(c * c - s * s) * 2 * (c * u + s * v) + 2 * s * c * (c * v - s * u + 1)) * h1 +
      2 * u * v * (c * c + s * s + 1) * h2
  have hl : (c * c - s * s) + 2 * s * c * X = c * v + s * u := by
    rw [← hx]
    linear_combination (-(c * c - s * s)) * h1 + (c * v + s * u) * h2
  linear_combination -((a : ℝ[X]) * U * c * Vm + Ua * (m * V * s)) * hq + (a + m) * Ua * Vm * hl - 2 * v * c * Vm * ea -
    2 * u * s * Ua * em - (a - m) * Ua * Vm * h1

theorem coeff_x_derivative (p : ℝ[X]) (b : ℕ) : (X * derivative p).coeff b = b * p.coeff b := by
  rcases b with - | b
  · simp
  · rw [coeff_X_mul, coeff_derivative]; push_cast; ring

/-- Derivative of a matrix element with respect to the angle. -/
noncomputable def mat' (n a b : ℕ) (x : ℝ) : ℝ :=
  (C (1 / 2) * ((n : ℝ[X]) * X * poly n a x - (1 + X ^ 2) * derivative (poly n a x))).coeff b

theorem hasDerivAt_mat {n a : ℕ} (ha : a ≤ n) (b : ℕ) (x : ℝ) : HasDerivAt (mat n a b) (mat' n a b x) x :=
  pderiv_poly ha x b

theorem mat'_eq (n a b : ℕ) (x : ℝ) : mat' n a b x = 1 / 2 * (((n : ℝ[X]) * X * poly n a x -
    X ^ 2 * derivative (poly n a x)).coeff b - (b + 1) * mat n a (b + 1) x) := by
  unfold mat' mat
  rw [coeff_C_mul, show (n : ℝ[X]) * X * poly n a x - (1 + X ^ 2) * derivative (poly n a x) =
    (n : ℝ[X]) * X * poly n a x - X ^ 2 * derivative (poly n a x) - derivative (poly n a x) by ring, coeff_sub _ (derivative _),
    coeff_derivative]
  ring

theorem mat_axis {n a : ℕ} (ha : a ≤ n) (b : ℕ) (x : ℝ) : (2 * a - n) * mat n a b x =
    Real.cos x * (2 * b - n) * mat n a b x - Real.sin x * ((b + 1) * mat n a (b + 1) x +
      ((n : ℝ[X]) * X * poly n a x - X ^ 2 * derivative (poly n a x)).coeff b) := by
  have h := congrArg (fun p => p.coeff b) (poly_axis ha x)
  rw [show (2 * (a : ℝ[X]) - (n : ℝ[X])) = C (2 * (a : ℝ) - n) by simp only [C_sub, C_mul, map_natCast, map_ofNat], coeff_C_mul,
    show C (Real.cos x) * (2 * X * derivative (poly n a x) - (n : ℝ[X]) * poly n a x) -
      C (Real.sin x) * ((1 - X ^ 2) * derivative (poly n a x) + (n : ℝ[X]) * X * poly n a x) =
      C (Real.cos x * 2) * (X * derivative (poly n a x)) - C (Real.cos x * n) * poly n a x -
      C (Real.sin x) * (derivative (poly n a x) +
        ((n : ℝ[X]) * X * poly n a x - X ^ 2 * derivative (poly n a x))) by
      simp only [C_mul, map_ofNat, map_natCast]; ring,
    coeff_sub, coeff_sub, coeff_C_mul, coeff_C_mul, coeff_C_mul, coeff_add, coeff_x_derivative, coeff_derivative] at h
  unfold mat
  linear_combination h

theorem mat_up {n a : ℕ} (ha : a ≤ n) (b : ℕ) (x : ℝ) : Real.sin x * mat' n a b x =
    -((a - n / 2) - (b - n / 2) * Real.cos x) * mat n a b x - (b + 1) * Real.sin x * mat n a (b + 1) x := by
  have h := mat_axis ha b x
  rw [mat'_eq]
  linear_combination h / 2

theorem mat_down {n a : ℕ} (ha : a ≤ n) (b : ℕ) (x : ℝ) : Real.sin x * mat' n a (b + 1) x =
    ((a - n / 2) - (b + 1 - n / 2) * Real.cos x) * mat n a (b + 1) x + (n - b) * Real.sin x * mat n a b x := by
  have h := mat_axis ha (b + 1) x
  have hy : ((n : ℝ[X]) * X * poly n a x - X ^ 2 * derivative (poly n a x)).coeff (b + 1) = (n - b) * mat n a b x := by
    rw [show (n : ℝ[X]) * X * poly n a x - X ^ 2 * derivative (poly n a x) =
      X * (C (n : ℝ) * poly n a x - X * derivative (poly n a x)) by simp; ring, coeff_X_mul, coeff_sub, coeff_C_mul,
      coeff_x_derivative]
    unfold mat
    ring
  rw [mat'_eq, hy]
  rw [hy] at h
  push_cast at h ⊢
  linear_combination -h / 2

/-- Two spins that differ by an integer and have the same projections. -/
theorem deriv_product {n a n' a' b b' : ℕ} (ha : a ≤ n) (ha' : a' ≤ n') (hm : (a : ℝ) - n / 2 = a' - n' / 2)
    (hb : (b : ℝ) - n / 2 = b' - n' / 2) (x : ℝ) :
    HasDerivAt (fun y => Real.sin y * mat n a b y * mat n' a' (b' + 1) y)
      (((n' - b') * (mat n a b x * mat n' a' b' x * Real.sin x)) -
        (b + 1) * (mat n a (b + 1) x * mat n' a' (b' + 1) x * Real.sin x)) x := by
  have h := ((Real.hasDerivAt_sin x).mul (hasDerivAt_mat ha b x)).mul (hasDerivAt_mat ha' (b' + 1) x)
  refine h.congr_deriv ?_
  have h1 := mat_up ha b x
  have h2 := mat_down ha' b' x
  rw [← hm, show ((b' : ℝ) + 1 - n' / 2) = b - n / 2 + 1 by linarith] at h2
  simp only [Pi.mul_apply]
  linear_combination mat n' a' (b' + 1) x * h1 + mat n a b x * h2

theorem continuous_mat {n a : ℕ} (ha : a ≤ n) (b : ℕ) : Continuous (mat n a b) :=
  continuous_iff_continuousAt.2 fun x => (hasDerivAt_mat ha b x).continuousAt

/-- Overlap of two matrix elements. -/
noncomputable def overlap (n a b n' a' b' : ℕ) : ℝ := ∫ x in (0 : ℝ)..Real.pi, mat n a b x * mat n' a' b' x * Real.sin x

theorem overlap_comm (n a b n' a' b' : ℕ) : overlap n a b n' a' b' = overlap n' a' b' n a b := by
  unfold overlap
  congr 1
  ext x
  ring

theorem overlap_step {n a n' a' b b' : ℕ} (ha : a ≤ n) (ha' : a' ≤ n') (hm : (a : ℝ) - n / 2 = a' - n' / 2)
    (hb : (b : ℝ) - n / 2 = b' - n' / 2) :
    (n' - b') * overlap n a b n' a' b' = (b + 1) * overlap n a (b + 1) n' a' (b' + 1) := by
  have c1 := continuous_mat ha b
  have c2 := continuous_mat ha (b + 1)
  have c3 := continuous_mat ha' b'
  have c4 := continuous_mat ha' (b' + 1)
  have i1 : Continuous fun x => mat n a b x * mat n' a' b' x * Real.sin x := (c1.mul c3).mul Real.continuous_sin
  have i2 : Continuous fun x => mat n a (b + 1) x * mat n' a' (b' + 1) x * Real.sin x := (c2.mul c4).mul Real.continuous_sin
  have h := intervalIntegral.integral_eq_sub_of_hasDerivAt (a := 0) (b := Real.pi)
    (fun x _ => deriv_product ha ha' hm hb x) (((i1.const_mul _).sub (i2.const_mul _)).intervalIntegrable _ _)
  rw [intervalIntegral.integral_sub ((i1.const_mul _).intervalIntegrable _ _) ((i2.const_mul _).intervalIntegrable _ _),
    intervalIntegral.integral_const_mul, intervalIntegral.integral_const_mul] at h
  simp only [Real.sin_pi, Real.sin_zero, zero_mul, sub_zero] at h
  unfold overlap
  linarith

theorem overlap_ne {n a n' a' b b' : ℕ} (ha : a ≤ n) (ha' : a' ≤ n') (hm : (a : ℝ) - n / 2 = a' - n' / 2)
    (hb : (b : ℝ) - n / 2 = b' - n' / 2) (hn : n ≠ n') : overlap n a b n' a' b' = 0 := by
  have h1 := overlap_step ha ha' hm hb
  have h2 := overlap_step ha' ha hm.symm hb.symm
  rw [overlap_comm n' a' b', overlap_comm n' a' (b' + 1)] at h2
  have h3 : ((n' - b') * (b' + 1) - (n - b) * (b + 1) : ℝ) * overlap n a b n' a' b' = 0 := by
    linear_combination (b' + 1) * h1 - (b + 1) * h2
  rcases mul_eq_zero.1 h3 with h | h
  · exfalso
    have e : (b' : ℝ) = b - n / 2 + n' / 2 := by linarith
    rw [e] at h
    have : ((n' : ℝ) - n) * (n' + n + 2) = 0 := by linear_combination 4 * h
    rcases mul_eq_zero.1 this with h | h
    · apply hn
      have : (n' : ℝ) = n := by linarith
      exact_mod_cast this.symm
    · have := (Nat.cast_nonneg n : (0 : ℝ) ≤ n)
      have := (Nat.cast_nonneg n' : (0 : ℝ) ≤ n')
      linarith
  · exact h

theorem continuous_dmat {n a : ℕ} (ha : a ≤ n) (b : ℕ) : Continuous (dmat n a b) := (continuous_mat ha b).const_mul _

theorem integral_dmat (n a b n' a' b' : ℕ) : ∫ x in (0 : ℝ)..Real.pi, dmat n a b x * dmat n' a' b' x * Real.sin x =
    √(n.choose a) / √(n.choose b) * (√(n'.choose a') / √(n'.choose b')) * overlap n a b n' a' b' := by
  unfold overlap
  rw [← intervalIntegral.integral_const_mul]
  congr 1
  ext x
  unfold dmat
  ring

theorem overlap_choose {n a : ℕ} (ha : a ≤ n) (b : ℕ) (hb : b ≤ n) :
    overlap n a b n a b = n.choose b * overlap n a 0 n a 0 := by
  induction b with
  | zero => simp
  | succ b ih =>
    have h := overlap_step ha ha (b := b) (b' := b) rfl rfl
    rw [ih (by omega)] at h
    have hc : (n.choose (b + 1) : ℝ) * (b + 1) = n.choose b * (n - b) := by
      have := Nat.choose_succ_right_eq n b
      have h2 : ((n - b : ℕ) : ℝ) = n - b := by push_cast [Nat.cast_sub (show b ≤ n by omega)]; ring
      rw [← h2]
      exact_mod_cast this
    have hpos : (b : ℝ) + 1 ≠ 0 := by positivity
    apply mul_left_cancel₀ hpos
    rw [← h]
    linear_combination -overlap n a 0 n a 0 * hc

theorem sum_dmat_sq {n a : ℕ} (ha : a ≤ n) (x : ℝ) : ∑ k ∈ Finset.range (n + 1), dmat n a k x * dmat n a k x = 1 := by
  have h := dmat_add (b := a) ha x (-x)
  rw [add_neg_cancel, dmat_zero ha, if_pos rfl] at h
  rw [h]
  apply Finset.sum_congr rfl
  intro k hk
  rw [dmat_neg (by have := Finset.mem_range.1 hk; omega) ha]

theorem integral_dmat_sq {n a b : ℕ} (ha : a ≤ n) (hb : b ≤ n) :
    ∫ x in (0 : ℝ)..Real.pi, dmat n a b x * dmat n a b x * Real.sin x = 2 / (n + 1) := by
  have hconst : ∀ b, b ≤ n → ∫ x in (0 : ℝ)..Real.pi, dmat n a b x * dmat n a b x * Real.sin x =
      n.choose a * overlap n a 0 n a 0 := by
    intro b hb
    rw [integral_dmat, overlap_choose ha b hb]
    have pb := choose_pos' hb
    have ea : (n.choose a : ℝ) = √(n.choose a : ℝ) ^ 2 := (Real.sq_sqrt (by positivity)).symm
    have eb : (n.choose b : ℝ) = √(n.choose b : ℝ) ^ 2 := (Real.sq_sqrt (by positivity)).symm
    rw [show √(n.choose a : ℝ) / √(n.choose b : ℝ) * (√(n.choose a : ℝ) / √(n.choose b : ℝ)) *
      ((n.choose b : ℝ) * overlap n a 0 n a 0) = √(n.choose a : ℝ) ^ 2 * ((n.choose b : ℝ) / √(n.choose b : ℝ) ^ 2) *
        overlap n a 0 n a 0 by ring, ← ea, ← eb, div_self (by rw [eb]; positivity), mul_one]
  have hs : ∫ x in (0 : ℝ)..Real.pi, (∑ k ∈ Finset.range (n + 1), dmat n a k x * dmat n a k x * Real.sin x) = 2 := by
    simp only [← Finset.sum_mul, sum_dmat_sq ha, one_mul, integral_sin]
    norm_num
  have hi : ∀ k ∈ Finset.range (n + 1), IntervalIntegrable (fun x => dmat n a k x * dmat n a k x * Real.sin x)
      MeasureTheory.volume 0 Real.pi := fun k _ =>
    (((continuous_dmat ha k).mul (continuous_dmat ha k)).mul Real.continuous_sin).intervalIntegrable _ _
  rw [intervalIntegral.integral_finsetSum hi,
    Finset.sum_congr rfl fun k hk => hconst k (by have := Finset.mem_range.1 hk; omega)] at hs
  rw [Finset.sum_const, Finset.card_range, nsmul_eq_mul] at hs
  rw [hconst b hb, eq_div_iff (by positivity), ← hs]
  push_cast
  ring

theorem continuous_wignerD {j : ℚ} (hj : IsHalfInteger j) {m : ℚ} (hm : m ∈ projections j) (m' : ℚ) :
    Continuous (wignerD j m m') := by
  obtain ⟨n, a, -, e1, ha, e2, -⟩ := pos_spec hj hm
  unfold wignerD
  rw [e1, e2]
  exact continuous_dmat ha _

/-- Orthogonality of the Wigner d-functions: `∫₀^π d^j_{mm'} d^{j'}_{mm'} sin θ dθ = 2/(2j+1) δ_{jj'}`. -/
theorem wignerD_orthogonal {j j' : ℚ} (hj : IsHalfInteger j) (hj' : IsHalfInteger j') {m m' : ℚ} (hm : m ∈ projections j)
    (hm' : m' ∈ projections j) (km : m ∈ projections j') (km' : m' ∈ projections j') :
    ∫ x in (0 : ℝ)..Real.pi, wignerD j m m' x * wignerD j' m m' x * Real.sin x =
      if j = j' then 2 / (2 * (j : ℝ) + 1) else 0 := by
  obtain ⟨n, a, hn, e1, ha, e2, e3⟩ := pos_spec hj hm
  obtain ⟨n2, b, hn2, f1, hb, f2, f3⟩ := pos_spec hj hm'
  obtain ⟨n', a', hn', g1, ha', g2, g3⟩ := pos_spec hj' km
  obtain ⟨n2', b', hn2', k1, hb', k2, k3⟩ := pos_spec hj' km'
  obtain rfl : n = n2 := by exact_mod_cast hn.trans hn2.symm
  obtain rfl : n' = n2' := by exact_mod_cast hn'.trans hn2'.symm
  unfold wignerD
  rw [e1, e2, f2, g1, g2, k2]
  split
  · rename_i h
    subst h
    obtain rfl : n = n' := by exact_mod_cast hn.trans hn'.symm
    obtain rfl : a = a' := e2.symm.trans g2
    obtain rfl : b = b' := f2.symm.trans k2
    rw [integral_dmat_sq ha hb]
    congr 2
    exact_mod_cast congrArg (fun q : ℚ => (q : ℝ)) hn
  · rename_i h
    rw [integral_dmat, overlap_ne ha ha', mul_zero]
    · have h1 : (a : ℚ) - n / 2 = a' - n' / 2 := by rw [hn, hn']; linarith
      have h2 := congrArg (fun q : ℚ => (q : ℝ)) h1
      push_cast at h2
      exact h2
    · have h1 : (b : ℚ) - n / 2 = b' - n' / 2 := by rw [hn, hn']; linarith
      have h2 := congrArg (fun q : ℚ => (q : ℝ)) h1
      push_cast at h2
      exact h2
    · rintro rfl
      apply h
      linarith

end Verif.Wigner
