import Verif.Proofs.Angles3

/-! Sum rules of the angles. -/
namespace Verif.Angles
open Verif Verif.Spec RExpr InnerProductGeometry
open scoped RealInnerProductSpace

variable {V : Type*} [NormedAddCommGroup V] [InnerProductSpace ℝ V]
variable {ρ : Sym → ℝ} {ev : Event V}

/-- An angle is only defined if both Källén functions are positive. -/
theorem acosRatio_defined {N k1 k2 : RExpr} {x y v : ℝ} (h1 : eval ρ k1 = some x)
    (h2 : eval ρ k2 = some y) (h : eval ρ (acosRatio N k1 k2) = some v) : 0 < x ∧ 0 < y := by
  change eval ρ (.acos (.div N (.mul (.sqrt k1) (.sqrt k2)))) = some v at h
  cases hN : eval ρ N with
  | none => simp [eval, hN] at h
  | some n =>
    simp only [eval, hN, h1, h2, Option.bind_eq_bind, Option.bind_some] at h
    by_cases hx : x < 0
    · simp [hx] at h
    by_cases hy : y < 0
    · simp [hx, hy] at h
    by_cases hx0 : x = 0
    · simp [hx0, hy] at h
    by_cases hy0 : y = 0
    · simp [hy0, hx] at h
    exact ⟨lt_of_le_of_ne (not_lt.1 hx) (Ne.symm hx0), lt_of_le_of_ne (not_lt.1 hy) (Ne.symm hy0)⟩

theorem eval_acosRatio_gen {N k1 k2 : RExpr} {n x y : ℝ} (hN : eval ρ N = some n)
    (h1 : eval ρ k1 = some x) (h2 : eval ρ k2 = some y) :
    eval ρ (acosRatio N k1 k2) =
      if x < 0 then none else if y < 0 then none else if √x * √y = 0 then none
      else if -1 ≤ n / (√x * √y) ∧ n / (√x * √y) ≤ 1 then some (Real.arccos (n / (√x * √y)))
      else none := by
  show eval ρ (.acos (.div N (.mul (.sqrt k1) (.sqrt k2)))) = _
  simp only [eval, hN, h1, h2, Option.bind_eq_bind, Option.bind_some]
  by_cases hx : x < 0
  · simp [hx]
  by_cases hy : y < 0
  · simp [hx, hy]
  simp only [hx, hy, if_false, Option.bind_some]
  by_cases h0 : √x * √y = 0
  · simp only [h0, if_true, Option.bind_none]
  · simp only [h0, if_false, Option.bind_some]

theorem angle_split {x y : V} (h : x ≠ 0 ∨ y ≠ 0) :
    angle x y = angle x (x + y) + angle (x + y) y := by
  by_cases hx : x = 0
  · subst hx
    rcases h with h | h
    · exact absurd rfl h
    · simp [angle_self h]
  by_cases hy : y = 0
  · subst hy; simp [angle_self hx]
  by_cases h0 : x + y = 0
  · have : y = -x := by rw [eq_neg_iff_add_eq_zero, add_comm]; exact h0
    subst this
    rw [angle_self_neg_of_nonzero hx]; simp
  have := angle_add_angle_sub_add_angle_sub_eq_pi x h0
  have e1 : x - (x + y) = -y := by abel
  have e2 : x + y - x = y := by abel
  rw [e1, e2, angle_neg_right] at this
  linarith

section rest
variable {i a b : ℤ}

omit [InnerProductSpace ℝ V] in
theorem rest_E (hp : IsPerm123 i a b) (rest : (ev.P i).p = 0) :
    (ev.P i).E = ev.m i := by
  obtain ⟨mi, ma, mb⟩ := perm_mem hp
  have h1 := shell ev mi
  rw [rest, norm_zero] at h1
  have h2 := ev.energy_nonneg i mi
  have h3 := ev.m_nonneg i
  nlinarith

theorem K0_value (h : AtEvent ρ ev) (hp : IsPerm123 i a b) (rest : (ev.P i).p = 0) :
    eval ρ (kallen (m 0 ^ 2) (m i ^ 2) (σ i)) = some ((2 * ev.m i * ‖(ev.P 0).p‖) ^ 2) := by
  obtain ⟨mi, ma, mb⟩ := perm_mem hp
  rw [eval_kallen ρ (eval_pow ρ (eval_m h (i := 0) (by simp))) (eval_pow ρ (eval_m h (mem0 mi)))
    (eval_σ h (perm_rot hp))]
  have ht := total_perm ev hp
  have hE := rest_E hp rest
  have ht2 := ht.2
  rw [rest, zero_add] at ht2
  have hm0 : ev.m 0 ^ 2 = (ev.P 0).sq := (ev.mass_shell 0 (by simp)).symm
  rw [FourVec.sq, ht2, ht.1, hE] at hm0
  simp only [ht2, mul_pow, norm_add_sq_real, hm0, sq_add, kallenR]
  congr 1
  ring

theorem K1_value (h : AtEvent ρ ev) (hp : IsPerm123 i a b) (rest : (ev.P i).p = 0) :
    eval ρ (kallen (σ b) (m i ^ 2) (m a ^ 2)) = some ((2 * ev.m i * ‖(ev.P a).p‖) ^ 2) := by
  obtain ⟨mi, ma, mb⟩ := perm_mem hp
  rw [eval_kallen ρ (eval_σ h hp) (eval_pow ρ (eval_m h (mem0 mi)))
    (eval_pow ρ (eval_m h (mem0 ma)))]
  have hE := rest_E hp rest
  simp only [mul_pow, shell ev ma, sq_add, kallenR, rest, hE, norm_zero, inner_zero_left]
  congr 1
  ring

theorem K2_value (h : AtEvent ρ ev) (hp : IsPerm123 i a b) (rest : (ev.P i).p = 0) :
    eval ρ (kallen (σ a) (m b ^ 2) (m i ^ 2)) = some ((2 * ev.m i * ‖(ev.P b).p‖) ^ 2) := by
  obtain ⟨mi, ma, mb⟩ := perm_mem hp
  rw [eval_kallen ρ (eval_σ h (perm_rot (perm_rot hp))) (eval_pow ρ (eval_m h (mem0 mb)))
    (eval_pow ρ (eval_m h (mem0 mi)))]
  have hE := rest_E hp rest
  simp only [mul_pow, shell ev mb, sq_add, kallenR, rest, hE, norm_zero, inner_zero_right]
  congr 1
  ring

omit [InnerProductSpace ℝ V] in
theorem ne_of_K {v : V} {t : ℝ} (h : 0 < (t * ‖v‖) ^ 2) : v ≠ 0 := by
  rintro rfl
  simp at h

theorem mink_nonneg (ev : Event V) {i a : ℤ} (hi : i ∈ ([1, 2, 3] : List ℤ))
    (ha : a ∈ ([1, 2, 3] : List ℤ)) : 0 ≤ (ev.P i).E * (ev.P a).E - ⟪(ev.P i).p, (ev.P a).p⟫ := by
  have key : ∀ {c : ℤ}, c ∈ ([1, 2, 3] : List ℤ) → ‖(ev.P c).p‖ ≤ (ev.P c).E := by
    intro c hc
    apply abs_le_of_sq_le_sq' _ (ev.energy_nonneg c hc) |>.2
    have := shell ev hc
    nlinarith [sq_nonneg (ev.m c)]
  have h3 := real_inner_le_norm (ev.P i).p (ev.P a).p
  have h4 : ‖(ev.P i).p‖ * ‖(ev.P a).p‖ ≤ (ev.P i).E * (ev.P a).E := by
    have := ev.energy_nonneg i hi
    gcongr
    · exact key hi
    · exact key ha
  linarith

/-- For a massless rotated particle all alignment angles vanish. -/
theorem acos_one {N k1 k2 : RExpr} {p q v : ℝ} (hN : eval ρ N = some (p * q))
    (h1 : eval ρ k1 = some (p ^ 2)) (h2 : eval ρ k2 = some (q ^ 2)) (hp : 0 ≤ p) (hq : 0 ≤ q)
    (h : eval ρ (acosRatio N k1 k2) = some v) : v = 0 := by
  obtain ⟨hp2, hq2⟩ := acosRatio_defined h1 h2 h
  rw [eval_acosRatio ρ hN h1 h2 hp2 hq2 (by rw [mul_pow])] at h
  rw [Real.sqrt_sq hp, Real.sqrt_sq hq] at h
  have : p * q ≠ 0 := by
    intro h0
    rcases mul_eq_zero.1 h0 with h0 | h0 <;> simp [h0] at hp2 hq2
  rw [div_self this, Real.arccos_one] at h
  exact (Option.some.inj h).symm

theorem zetaA_massless (h : AtEvent ρ ev) (hp : IsPerm123 i a b) (hm : ev.m i = 0) {v : ℝ}
    (hv : eval ρ (zetaAE i a b) = some v) : v = 0 := by
  obtain ⟨mi, ma, mb⟩ := perm_mem hp
  have e0 := eval_pow (n := 2) ρ (eval_m h (i := 0) (by simp))
  have ei := eval_pow (n := 2) ρ (eval_m h (mem0 mi))
  have ea := eval_pow (n := 2) ρ (eval_m h (mem0 ma))
  have sb := eval_σ h hp
  have si := eval_σ h (perm_rot hp)
  have sa := eval_σ h (perm_rot (perm_rot hp))
  have hi0 := shell ev mi
  have ha0 := shell ev ma
  have ht := total_perm ev hp
  have hm0 : ev.m 0 ^ 2 = (ev.P 0).sq := (ev.mass_shell 0 (by simp)).symm
  rw [FourVec.sq, ht.1, ht.2] at hm0
  rw [hm] at hi0
  refine acos_one (p := ev.m 0 ^ 2 - (ev.P a + ev.P b).sq)
    (q := (ev.P i + ev.P a).sq - ev.m a ^ 2) ?_ ?_ ?_ ?_ ?_ hv
  · rw [eval_add ρ (eval_mul ρ (eval_mul ρ (eval_num ρ) ei) (eval_sub ρ (eval_sub ρ sa e0) ea))
      (eval_mul ρ (eval_sub ρ (eval_add ρ e0 ei) si) (eval_sub ρ (eval_sub ρ sb ei) ea)), hm]
    congr 1; ring
  · rw [eval_kallen ρ e0 ei si, hm]
    congr 1; unfold kallenR; ring
  · rw [eval_kallen ρ sb ei ea, hm]
    congr 1; unfold kallenR; ring
  · have h1 := mink_nonneg ev mi ma
    have h2 := mink_nonneg ev mi mb
    rw [hm0, sq_add, norm_add_sq_real, norm_add_sq_real, inner_add_left]
    rw [real_inner_comm] at h1 h2
    nlinarith [real_inner_comm (ev.P i).p (ev.P a).p, real_inner_comm (ev.P i).p (ev.P b).p]
  · have h1 := mink_nonneg ev mi ma
    rw [sq_add, ha0]
    nlinarith

theorem zetaB_massless (h : AtEvent ρ ev) (hp : IsPerm123 i a b) (hm : ev.m i = 0) {v : ℝ}
    (hv : eval ρ (zetaBE i a b) = some v) : v = 0 := by
  obtain ⟨mi, ma, mb⟩ := perm_mem hp
  have ei := eval_pow (n := 2) ρ (eval_m h (mem0 mi))
  have ea := eval_pow (n := 2) ρ (eval_m h (mem0 ma))
  have eb := eval_pow (n := 2) ρ (eval_m h (mem0 mb))
  have sb := eval_σ h hp
  have si := eval_σ h (perm_rot hp)
  have sa := eval_σ h (perm_rot (perm_rot hp))
  have hi0 := shell ev mi
  have ha0 := shell ev ma
  have hb0 := shell ev mb
  rw [hm] at hi0
  refine acos_one (p := (ev.P b + ev.P i).sq - ev.m b ^ 2)
    (q := (ev.P i + ev.P a).sq - ev.m a ^ 2) ?_ ?_ ?_ ?_ ?_ hv
  · rw [eval_add ρ (eval_mul ρ (eval_mul ρ (eval_num ρ) ei) (eval_sub ρ (eval_add ρ ea eb) si))
      (eval_mul ρ (eval_sub ρ (eval_sub ρ sa ei) eb) (eval_sub ρ (eval_sub ρ sb ei) ea)), hm]
    congr 1; ring
  · rw [eval_kallen ρ sa eb ei, hm]
    congr 1; unfold kallenR; ring
  · rw [eval_kallen ρ sb ei ea, hm]
    congr 1; unfold kallenR; ring
  · have h1 := mink_nonneg ev mb mi
    rw [sq_add, hb0]
    nlinarith
  · have h1 := mink_nonneg ev mi ma
    rw [sq_add, ha0]
    nlinarith

/-- Positions of the reference directions on a circle: all zeta angles are differences. -/
theorem zeta_positions (h : AtEvent ρ ev) (hc : Cyclic i a b) :
    ∃ pos : ℤ → ℝ, pos b = 0 ∧
      (∀ v, eval ρ (zetaAE i a b) = some v → v = pos i - pos b) ∧
      (∀ v, eval ρ (zetaAE i b a) = some v → v = pos a - pos i) ∧
      (∀ v, eval ρ (zetaBE i a b) = some v → v = pos a - pos b) := by
  have hp := cyclic_perm hc
  obtain ⟨mi, ma, mb⟩ := perm_mem hp
  have hab : a ≠ b ∧ i ≠ b ∧ i ≠ a := by
    rcases cyclic_cases hc with ⟨rfl, rfl, rfl⟩ | ⟨rfl, rfl, rfl⟩ | ⟨rfl, rfl, rfl⟩ <;> decide
  have hp' : IsPerm123 i b a := perm_swap (perm_rot (perm_rot hp))
  rcases eq_or_lt_of_le (ev.m_nonneg i) with hm | hm
  · refine ⟨fun _ => 0, rfl, ?_, ?_, ?_⟩
    · intro v hv; simpa using zetaA_massless h hp hm.symm hv
    · intro v hv; simpa using zetaA_massless h hp' hm.symm hv
    · intro v hv; simpa using zetaB_massless h hp hm.symm hv
  · obtain ⟨ev', h', hmm, rest⟩ := exists_rest_frame h (mem0 mi) hm
    rw [← hmm] at hm
    have ht := (total_perm ev' hp).2
    rw [rest, zero_add] at ht
    refine ⟨fun k => if k = b then 0 else if k = i then angle (ev'.P a).p (ev'.P 0).p
      else angle (ev'.P a).p (ev'.P b).p, by simp, ?_, ?_, ?_⟩
    · intro v hv
      obtain ⟨q1, q2⟩ := acosRatio_defined (K0_value h' hp rest) (K1_value h' hp rest) hv
      have := zetaA_value h' hp rest hm (ne_of_K q1) (ne_of_K q2)
      unfold zetaAE at hv
      rw [hv] at this
      simp only [if_true, if_neg hab.2.1, sub_zero]
      rw [angle_comm]; exact Option.some.inj this
    · intro v hv
      obtain ⟨q1, q2⟩ := acosRatio_defined (K0_value h' hp' rest) (K1_value h' hp' rest) hv
      have := zetaA_value h' hp' rest hm (ne_of_K q1) (ne_of_K q2)
      unfold zetaAE at hv
      rw [hv] at this
      simp only [if_true, if_neg hab.1, if_neg (Ne.symm hab.2.2), if_neg hab.2.1]
      rw [angle_split (Or.inr (ne_of_K q2)), ← ht]
      rw [Option.some.inj this]; ring
    · intro v hv
      obtain ⟨q1, q2⟩ := acosRatio_defined (K2_value h' hp rest) (K1_value h' hp rest) hv
      have := zetaB_value h' hp rest hm (ne_of_K q2) (ne_of_K q1)
      unfold zetaBE at hv
      rw [hv] at this
      simp only [if_true, if_neg hab.1, if_neg (Ne.symm hab.2.2), sub_zero]
      rw [angle_comm]; exact Option.some.inj this

end rest

section mother
variable {i j k : ℤ}

theorem K3_value (h : AtEvent ρ ev) (hp : IsPerm123 i j k) (rest : (ev.P 0).p = 0) :
    eval ρ (kallen (m 0 ^ 2) (m j ^ 2) (σ j)) = some ((2 * ev.m 0 * ‖(ev.P j).p‖) ^ 2) := by
  obtain ⟨mi, mj, mk⟩ := perm_mem hp
  rw [eval_kallen ρ (eval_pow ρ (eval_m h (i := 0) (by simp))) (eval_pow ρ (eval_m h (mem0 mj)))
    (eval_σ h (perm_rot (perm_rot hp)))]
  have ht := total_perm ev hp
  have hm0 : ev.m 0 ^ 2 = (ev.P 0).sq := (ev.mass_shell 0 (by simp)).symm
  rw [FourVec.sq, rest, norm_zero, ht.1] at hm0
  have hpk : (ev.P k).p = -((ev.P i).p + (ev.P j).p) := by
    rw [eq_neg_iff_add_eq_zero, add_comm]; rw [← rest, ht.2]
  simp only [mul_pow, hm0, shell ev mj, sq_add, kallenR, hpk, norm_neg, inner_neg_left,
    inner_add_left, norm_add_sq_real, real_inner_self_eq_norm_sq,
    real_inner_comm (ev.P i).p (ev.P j).p]
  congr 1
  ring

theorem kallen_comm23 {x y z : RExpr} {v : ℝ} (h : eval ρ (kallen x y z) = some v) :
    eval ρ (kallen x z y) = some v := by
  cases hx : eval ρ x with
  | none => simp [eval, hx] at h
  | some a =>
  cases hy : eval ρ y with
  | none => simp [eval, hx, hy] at h
  | some b =>
  cases hz : eval ρ z with
  | none => simp [eval, hx, hy, hz] at h
  | some c =>
    rw [eval_kallen ρ hx hy hz] at h
    rw [eval_kallen ρ hx hz hy, ← h]
    congr 1; unfold kallenR; ring

theorem hat_defined (h : AtEvent ρ ev) (hp : IsPerm123 i j k) (rest : (ev.P 0).p = 0) {v : ℝ}
    (hv : eval ρ (hatE i j k) = some v) : (ev.P i).p ≠ 0 ∧ (ev.P j).p ≠ 0 := by
  obtain ⟨q1, q2⟩ := acosRatio_defined (K3_value h hp rest)
    (kallen_comm23 (K3_value h (perm_swap hp) rest)) hv
  exact ⟨ne_of_K q2, ne_of_K q1⟩

theorem angles_full_turn {x y z : V} (hy : y ≠ 0) (h : x + y + z = 0) :
    angle x y + angle y z + angle z x = 2 * Real.pi := by
  have hz : z = -(x + y) := by rw [eq_neg_iff_add_eq_zero, add_comm]; exact h
  have := angle_add_angle_sub_add_angle_sub_eq_pi x (neg_ne_zero.2 hy)
  have e1 : x - -y = -z := by rw [hz]; abel
  have e2 : -y - x = z := by rw [hz]; abel
  rw [e1, e2, angle_neg_right, angle_neg_right, angle_neg_left, angle_comm x z] at this
  linarith

end mother
end Verif.Angles
