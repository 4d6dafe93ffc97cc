import Verif.Proofs.Angles

/-! Values of the three families of angles at an event. -/
namespace Verif.Angles
open Verif Verif.Spec RExpr InnerProductGeometry
open scoped RealInnerProductSpace

variable {V : Type*} [NormedAddCommGroup V] [InnerProductSpace ℝ V]
variable {ρ : Sym → ℝ} {ev : Event V}

/-- Value of the scattering-angle expression in the rest frame of `(ij)`. -/
theorem scattering_value (h : AtEvent ρ ev) {i j k : ℤ} (hp : IsPerm123 i j k)
    (rest : (ev.P i).p + (ev.P j).p = 0) (hi : (ev.P i).p ≠ 0) (hk : (ev.P k).p ≠ 0) :
    eval ρ (acosRatio
      (2 * σ k * (σ j - m k ^ 2 - m i ^ 2) - (σ k + m i ^ 2 - m j ^ 2) * (m 0 ^ 2 - σ k - m k ^ 2))
      (kallen (m 0 ^ 2) (m k ^ 2) (σ k)) (kallen (σ k) (m i ^ 2) (m j ^ 2)))
      = some (angle (ev.P i).p (-(ev.P k).p)) := by
  obtain ⟨mi, mj, mk⟩ := perm_mem hp
  have e0 := eval_pow (n := 2) ρ (eval_m h (i := 0) (by simp))
  have ei := eval_pow (n := 2) ρ (eval_m h (mem0 mi))
  have ej := eval_pow (n := 2) ρ (eval_m h (mem0 mj))
  have ek := eval_pow (n := 2) ρ (eval_m h (mem0 mk))
  have sk := eval_σ h hp
  have sj := eval_σ h (perm_rot (perm_rot hp))
  have hW : 0 < (ev.P i).E + (ev.P j).E :=
    add_pos_of_pos_of_nonneg (energy_pos ev mi hi) (ev.energy_nonneg j mj)
  have hpj : (ev.P j).p = -(ev.P i).p := by rw [eq_neg_iff_add_eq_zero, add_comm]; exact rest
  rw [angle_comm]
  refine eval_acosRatio_angle ρ
    (eval_sub ρ (eval_mul ρ (eval_mul ρ (eval_num ρ) sk) (eval_sub ρ (eval_sub ρ sj ek) ei))
      (eval_mul ρ (eval_sub ρ (eval_add ρ sk ei) ej) (eval_sub ρ (eval_sub ρ e0 sk) ek)))
    (eval_kallen ρ e0 ek sk) (eval_kallen ρ sk ei ej)
    (t := 2 * ((ev.P i).E + (ev.P j).E)) (s := 2 * ((ev.P i).E + (ev.P j).E))
    (by positivity) (by positivity) (neg_ne_zero.2 hk) hi ?_ ?_ ?_
  all_goals
    have hm0 : ev.m 0 ^ 2 = (ev.P 0).sq := (ev.mass_shell 0 (by simp)).symm
    have ht := total_perm ev hp
    rw [FourVec.sq, ht.1, ht.2, rest, zero_add] at hm0
    simp only [hm0, shell ev mi, shell ev mj, shell ev mk, sq_add, hpj, norm_neg, inner_neg_left,
      inner_neg_right, real_inner_self_eq_norm_sq, kallenR, real_inner_comm (ev.P i).p (ev.P k).p]
    push_cast
    ring

/-- Value of the theta-hat expression in the rest frame of the decaying particle. -/
theorem thetaHat_value (h : AtEvent ρ ev) {i j k : ℤ} (hp : IsPerm123 i j k)
    (rest : (ev.P 0).p = 0) (hi : (ev.P i).p ≠ 0) (hj : (ev.P j).p ≠ 0) :
    eval ρ (acosRatio
      ((m 0 ^ 2 + m i ^ 2 - σ i) * (m 0 ^ 2 + m j ^ 2 - σ j)
        - 2 * m 0 ^ 2 * (σ k - m i ^ 2 - m j ^ 2))
      (kallen (m 0 ^ 2) (m j ^ 2) (σ j)) (kallen (m 0 ^ 2) (σ i) (m i ^ 2)))
      = some (angle (ev.P i).p (ev.P j).p) := by
  obtain ⟨mi, mj, mk⟩ := perm_mem hp
  have e0 := eval_pow (n := 2) ρ (eval_m h (i := 0) (by simp))
  have ei := eval_pow (n := 2) ρ (eval_m h (mem0 mi))
  have ej := eval_pow (n := 2) ρ (eval_m h (mem0 mj))
  have sk := eval_σ h hp
  have si := eval_σ h (perm_rot hp)
  have sj := eval_σ h (perm_rot (perm_rot hp))
  have ht := total_perm ev hp
  have hW : 0 < (ev.P i).E + (ev.P j).E + (ev.P k).E := by
    have := energy_pos ev mi hi
    have := energy_pos ev mj hj
    have := ev.energy_nonneg k mk
    positivity
  have hpk : (ev.P k).p = -((ev.P i).p + (ev.P j).p) := by
    rw [eq_neg_iff_add_eq_zero, add_comm]; rw [← rest, ht.2]
  rw [angle_comm]
  refine eval_acosRatio_angle ρ
    (eval_sub ρ (eval_mul ρ (eval_sub ρ (eval_add ρ e0 ei) si) (eval_sub ρ (eval_add ρ e0 ej) sj))
      (eval_mul ρ (eval_mul ρ (eval_num ρ) e0) (eval_sub ρ (eval_sub ρ sk ei) ej)))
    (eval_kallen ρ e0 ej sj) (eval_kallen ρ e0 si ei)
    (t := 2 * ((ev.P i).E + (ev.P j).E + (ev.P k).E))
    (s := 2 * ((ev.P i).E + (ev.P j).E + (ev.P k).E))
    (by positivity) (by positivity) hj hi ?_ ?_ ?_
  all_goals
    have hm0 : ev.m 0 ^ 2 = (ev.P 0).sq := (ev.mass_shell 0 (by simp)).symm
    rw [FourVec.sq, rest, norm_zero, ht.1] at hm0
    simp only [hm0, shell ev mi, shell ev mj, sq_add, hpk, norm_neg, inner_neg_left,
      inner_neg_right, real_inner_self_eq_norm_sq, kallenR, real_inner_comm (ev.P i).p (ev.P j).p,
      inner_add_left, inner_add_right, norm_add_sq_real]
    push_cast
    ring


/-- The three-momentum in the rest frame of `i` that the subsystem ID `k` refers to, in Spec form
for distinct `i, a, b`: angle between the decaying particle and `a`. -/
theorem zetaA_value (h : AtEvent ρ ev) {i a b : ℤ} (hp : IsPerm123 i a b)
    (rest : (ev.P i).p = 0) (hm : 0 < ev.m i) (h0 : (ev.P 0).p ≠ 0) (ha : (ev.P a).p ≠ 0) :
    eval ρ (acosRatio
      (2 * m i ^ 2 * (σ a - m 0 ^ 2 - m a ^ 2) + (m 0 ^ 2 + m i ^ 2 - σ i) * (σ b - m i ^ 2 - m a ^ 2))
      (kallen (m 0 ^ 2) (m i ^ 2) (σ i)) (kallen (σ b) (m i ^ 2) (m a ^ 2)))
      = some (angle (ev.P 0).p (ev.P a).p) := by
  obtain ⟨mi, ma, mb⟩ := perm_mem hp
  have e0 := eval_pow (n := 2) ρ (eval_m h (i := 0) (by simp))
  have ei := eval_pow (n := 2) ρ (eval_m h (mem0 mi))
  have ea := eval_pow (n := 2) ρ (eval_m h (mem0 ma))
  have sb := eval_σ h hp
  have si := eval_σ h (perm_rot hp)
  have sa := eval_σ h (perm_rot (perm_rot hp))
  have ht := total_perm ev hp
  have hE : (ev.P i).E = ev.m i := by
    have h1 := shell ev mi
    rw [rest, norm_zero] at h1
    have h2 := ev.energy_nonneg i mi
    nlinarith
  have ht2 := ht.2
  rw [rest, zero_add] at ht2
  refine eval_acosRatio_angle ρ
    (eval_add ρ (eval_mul ρ (eval_mul ρ (eval_num ρ) ei) (eval_sub ρ (eval_sub ρ sa e0) ea))
      (eval_mul ρ (eval_sub ρ (eval_add ρ e0 ei) si) (eval_sub ρ (eval_sub ρ sb ei) ea)))
    (eval_kallen ρ e0 ei si) (eval_kallen ρ sb ei ea)
    (t := 2 * ev.m i) (s := 2 * ev.m i)
    (by positivity) (by positivity) h0 ha ?_ ?_ ?_
  all_goals
    have hm0 : ev.m 0 ^ 2 = (ev.P 0).sq := (ev.mass_shell 0 (by simp)).symm
    rw [FourVec.sq, ht2, ht.1, hE] at hm0
    simp only [ht2, mul_pow, norm_add_sq_real, hm0, shell ev ma, sq_add,
      rest, norm_zero, inner_zero_left, inner_zero_right, hE, kallenR,
      inner_add_left, real_inner_self_eq_norm_sq, real_inner_comm (ev.P a).p (ev.P b).p]
    push_cast
    ring

/-- Angle between `a` and `b` in the rest frame of `i`. -/
theorem zetaB_value (h : AtEvent ρ ev) {i a b : ℤ} (hp : IsPerm123 i a b)
    (rest : (ev.P i).p = 0) (hm : 0 < ev.m i) (ha : (ev.P a).p ≠ 0) (hb : (ev.P b).p ≠ 0) :
    eval ρ (acosRatio
      (2 * m i ^ 2 * (m a ^ 2 + m b ^ 2 - σ i) + (σ a - m i ^ 2 - m b ^ 2) * (σ b - m i ^ 2 - m a ^ 2))
      (kallen (σ a) (m b ^ 2) (m i ^ 2)) (kallen (σ b) (m i ^ 2) (m a ^ 2)))
      = some (angle (ev.P b).p (ev.P a).p) := by
  obtain ⟨mi, ma, mb⟩ := perm_mem hp
  have ei := eval_pow (n := 2) ρ (eval_m h (mem0 mi))
  have ea := eval_pow (n := 2) ρ (eval_m h (mem0 ma))
  have eb := eval_pow (n := 2) ρ (eval_m h (mem0 mb))
  have sb := eval_σ h hp
  have si := eval_σ h (perm_rot hp)
  have sa := eval_σ h (perm_rot (perm_rot hp))
  have hE : (ev.P i).E = ev.m i := by
    have h1 := shell ev mi
    rw [rest, norm_zero] at h1
    have h2 := ev.energy_nonneg i mi
    nlinarith
  refine eval_acosRatio_angle ρ
    (eval_add ρ (eval_mul ρ (eval_mul ρ (eval_num ρ) ei) (eval_sub ρ (eval_add ρ ea eb) si))
      (eval_mul ρ (eval_sub ρ (eval_sub ρ sa ei) eb) (eval_sub ρ (eval_sub ρ sb ei) ea)))
    (eval_kallen ρ sa eb ei) (eval_kallen ρ sb ei ea)
    (t := 2 * ev.m i) (s := 2 * ev.m i)
    (by positivity) (by positivity) hb ha ?_ ?_ ?_
  all_goals
    simp only [shell ev ma, shell ev mb, sq_add,
      rest, norm_zero, inner_zero_left, inner_zero_right, hE, kallenR,
      real_inner_comm (ev.P a).p (ev.P b).p]
    push_cast
    ring

end Verif.Angles
