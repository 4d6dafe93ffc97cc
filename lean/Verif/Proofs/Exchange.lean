import Verif.Spec.Exchange
import Verif.Proofs.WignerExists
import Verif.Proofs.Superposition
import Verif.Props.Angles

/-! Exchange of two identical particles: angles and Wigner functions. -/
namespace Verif.Wigner
open Verif Verif.Spec Polynomial

theorem mat_middle (n : ℕ) (x : ℝ) : mat (2 * n) n n (Real.pi - x) = (-1) ^ n * mat (2 * n) n n x := by
  have hc : (Real.pi - x) / 2 = Real.pi / 2 - x / 2 := by ring
  have hp : poly (2 * n) n (Real.pi - x) = (poly (2 * n) n x).comp (-X) := by
    unfold poly
    rw [hc, Real.cos_pi_div_two_sub, Real.sin_pi_div_two_sub, show 2 * n - n = n by omega]
    simp only [mul_comp, pow_comp, sub_comp, add_comp, C_comp, X_comp]
    rw [← mul_pow, ← mul_pow]
    congr 1
    ring
  unfold mat
  rw [hp, show (-X : ℝ[X]) = C (-1) * X by simp, comp_C_mul_X_coeff, mul_comm]

theorem wignerD_nat (J : ℕ) (x : ℝ) : wignerD J 0 0 x = mat (2 * J) J J x := by
  have h1 : (⌊2 * (J : ℚ)⌋).toNat = 2 * J := by
    rw [show 2 * (J : ℚ) = ((2 * J : ℕ) : ℚ) by push_cast; ring, Int.floor_natCast]
    rfl
  have h2 : pos (J : ℚ) 0 = J := by
    unfold pos
    rw [add_zero, Int.floor_natCast]
    rfl
  unfold wignerD dmat
  rw [h1, h2]
  have : √((2 * J).choose J : ℝ) ≠ 0 := (choose_pos' (by omega)).ne'
  field_simp

theorem reflects : Reflects wignerD := by
  intro J x
  rw [wignerD_nat, wignerD_nat, mat_middle]

theorem wignerD_zero (x : ℝ) : wignerD 0 0 0 x = 1 := by
  have := wignerD_nat 0 x
  norm_num at this
  rw [this]
  simp [mat, poly]

theorem wignerD_one (x : ℝ) : wignerD 1 0 0 x = Real.cos x := by
  have := wignerD_nat 1 x
  norm_num at this
  rw [this]
  have hp : poly 2 1 x = C (Real.cos (x / 2) * Real.sin (x / 2)) * X ^ 2 +
      C (Real.cos (x / 2) ^ 2 - Real.sin (x / 2) ^ 2) * X - C (Real.sin (x / 2) * Real.cos (x / 2)) := by
    unfold poly
    simp only [pow_one, Nat.add_one_sub_one, C_mul, C_sub, C_pow]
    ring
  unfold mat
  rw [hp]
  simp only [coeff_sub, coeff_add, coeff_C_mul, coeff_X_pow, coeff_X, coeff_C]
  norm_num
  have h2 := Real.cos_two_mul' (x / 2)
  rw [show 2 * (x / 2) = x by ring] at h2
  linarith

end Verif.Wigner

namespace Verif.Angles
open Verif Verif.Spec RExpr

variable {ρ ρ' : Sym → ℝ}

/-- The cosine of the scattering angle, times the product of the two square roots. -/
def scatNum (ρ : Sym → ℝ) (i j k : ℤ) : ℝ := 2 * vs ρ k * (vs ρ j - vm ρ k ^ 2 - vm ρ i ^ 2)
  - (vs ρ k + vm ρ i ^ 2 - vm ρ j ^ 2) * (vm ρ 0 ^ 2 - vs ρ k - vm ρ k ^ 2)

theorem scat_eval (i j k : ℤ) : eval ρ (scatE i j k) =
    (if kallenR (vm ρ 0 ^ 2) (vm ρ k ^ 2) (vs ρ k) < 0 then none
     else if kallenR (vs ρ k) (vm ρ i ^ 2) (vm ρ j ^ 2) < 0 then none
     else if √(kallenR (vm ρ 0 ^ 2) (vm ρ k ^ 2) (vs ρ k)) * √(kallenR (vs ρ k) (vm ρ i ^ 2) (vm ρ j ^ 2)) = 0
       then none
     else if -1 ≤ scatNum ρ i j k / (√(kallenR (vm ρ 0 ^ 2) (vm ρ k ^ 2) (vs ρ k)) *
          √(kallenR (vs ρ k) (vm ρ i ^ 2) (vm ρ j ^ 2))) ∧ scatNum ρ i j k /
          (√(kallenR (vm ρ 0 ^ 2) (vm ρ k ^ 2) (vs ρ k)) * √(kallenR (vs ρ k) (vm ρ i ^ 2) (vm ρ j ^ 2))) ≤ 1
       then some (Real.arccos (scatNum ρ i j k / (√(kallenR (vm ρ 0 ^ 2) (vm ρ k ^ 2) (vs ρ k)) *
          √(kallenR (vs ρ k) (vm ρ i ^ 2) (vm ρ j ^ 2)))))
     else none) := by
  have e0 := eval_pow (n := 2) ρ (eval_m' (ρ := ρ) 0)
  have ei := eval_pow (n := 2) ρ (eval_m' (ρ := ρ) i)
  have ej := eval_pow (n := 2) ρ (eval_m' (ρ := ρ) j)
  have ek := eval_pow (n := 2) ρ (eval_m' (ρ := ρ) k)
  have sk := eval_σ' (ρ := ρ) k
  have sj := eval_σ' (ρ := ρ) j
  have hNN := eval_sub ρ
    (eval_mul ρ (eval_mul ρ (eval_num (n := 2) ρ) sk) (eval_sub ρ (eval_sub ρ sj ek) ei))
    (eval_mul ρ (eval_sub ρ (eval_add ρ sk ei) ej) (eval_sub ρ (eval_sub ρ e0 sk) ek))
  have := eval_acosRatio_gen hNN (eval_kallen ρ e0 ek sk) (eval_kallen ρ sk ei ej)
  push_cast at this
  exact this

theorem scat_cos {i j k : ℤ} {v : ℝ} (h : eval ρ (scatE i j k) = some v) :
    ∃ q : ℝ, 0 < q ∧ Real.cos v = scatNum ρ i j k / q := by
  rw [scat_eval] at h
  split_ifs at h with h1 h2 h3 h4
  injection h with h
  refine ⟨_, lt_of_le_of_ne (by positivity) (Ne.symm h3), ?_⟩
  rw [← h, Real.cos_arccos h4.1 h4.2]

theorem scat_swap (hs : SumRule ρ) {i j k : ℤ} (hp : IsPerm123 i j k) :
    eval ρ (scatE j i k) = (eval ρ (scatE i j k)).map fun θ => Real.pi - θ := by
  obtain ⟨s, s', e, e', h1, h2, h3⟩ := C09_scattering_swapped hs hp
  rw [scat_forms hp] at h1
  rw [scat_forms (perm_swap hp)] at h2
  injection h1 with h1; injection h1 with _ h1
  injection h2 with h2; injection h2 with _ h2
  rw [h1, h2]
  exact h3

/-- Renaming the particles. -/
theorem scat_rename (f : ℤ → ℤ) {i j k : ℤ} (h0 : vm ρ' 0 = vm ρ 0)
    (hm : ∀ x ∈ [i, j, k], vm ρ' x = vm ρ (f x)) (hs : ∀ x ∈ [i, j, k], vs ρ' x = vs ρ (f x)) :
    eval ρ' (scatE i j k) = eval ρ (scatE (f i) (f j) (f k)) := by
  rw [scat_eval, scat_eval]
  unfold scatNum
  rw [h0, hm i (by simp), hm j (by simp), hm k (by simp), hs j (by simp), hs k (by simp)]

theorem swap_perm {a b i j k : ℤ} (ha : a ∈ ([1, 2, 3] : List ℤ)) (hb : b ∈ ([1, 2, 3] : List ℤ))
    (h : IsPerm123 i j k) : IsPerm123 (Equiv.swap a b i) (Equiv.swap a b j) (Equiv.swap a b k) := by
  unfold IsPerm123 at *
  have h1 : [Equiv.swap a b i, Equiv.swap a b j, Equiv.swap a b k].Perm
      [Equiv.swap a b 1, Equiv.swap a b 2, Equiv.swap a b 3] := h.map (Equiv.swap a b)
  refine h1.trans ?_
  simp only [List.mem_cons, List.not_mem_nil, or_false] at ha hb
  rcases ha with rfl | rfl | rfl <;> rcases hb with rfl | rfl | rfl <;> decide

end Verif.Angles
