import Verif.Proofs.DalitzSlice
import Verif.Spec.DalitzCoordinate

/-! Property C106: the decay angle as a coordinate of the Dalitz plot. -/
namespace Verif.Angles
open Verif Verif.Spec RExpr

theorem numer_eval (ρ : Sym → ℝ) (i j k : ℤ) : ∃ N x y, scatE i j k = acosRatio N x y ∧
    eval ρ N = some (numer (vm ρ 0) (vm ρ i) (vm ρ j) (vm ρ k) (vs ρ k) (vs ρ j)) ∧
    eval ρ x = some (kallenR (vm ρ 0 ^ 2) (vm ρ k ^ 2) (vs ρ k)) ∧
    eval ρ y = some (kallenR (vs ρ k) (vm ρ i ^ 2) (vm ρ j ^ 2)) := by
  have e0 := eval_pow (n := 2) ρ (eval_m' (ρ := ρ) 0)
  have ei := eval_pow (n := 2) ρ (eval_m' (ρ := ρ) i)
  have ej := eval_pow (n := 2) ρ (eval_m' (ρ := ρ) j)
  have ek := eval_pow (n := 2) ρ (eval_m' (ρ := ρ) k)
  have sk := eval_σ' (ρ := ρ) k
  have sj := eval_σ' (ρ := ρ) j
  have hNN := eval_sub ρ
    (eval_mul ρ (eval_mul ρ (eval_num (n := 2) ρ) sk) (eval_sub ρ (eval_sub ρ sj ek) ei))
    (eval_mul ρ (eval_sub ρ (eval_add ρ sk ei) ej) (eval_sub ρ (eval_sub ρ e0 sk) ek))
  push_cast at hNN
  exact ⟨_, _, _, rfl, hNN, eval_kallen ρ e0 ek sk, eval_kallen ρ sk ei ej⟩

theorem eval_acosRatio_none {ρ : Sym → ℝ} {N k1 k2 : RExpr} {n x y : ℝ} (hN : eval ρ N = some n)
    (h1 : eval ρ k1 = some x) (h2 : eval ρ k2 = some y) (hx : 0 < x) (hy : 0 < y)
    (hlt : x * y < n ^ 2) : eval ρ (acosRatio N k1 k2) = none := by
  have hs : 0 < √x * √y := mul_pos (Real.sqrt_pos.2 hx) (Real.sqrt_pos.2 hy)
  have hb : ¬ (-1 ≤ n / (√x * √y) ∧ n / (√x * √y) ≤ 1) := by
    rw [← abs_le, abs_div, abs_of_pos hs, div_le_one hs, not_le]
    apply lt_of_pow_lt_pow_left₀ 2 (abs_nonneg _)
    rw [mul_pow, Real.sq_sqrt hx.le, Real.sq_sqrt hy.le, sq_abs]
    exact hlt
  show eval ρ (.acos (.div N (.mul (.sqrt k1) (.sqrt k2)))) = _
  simp only [eval, hN, h1, h2, Option.bind_eq_bind, Option.bind_some, not_lt.2 hx.le, not_lt.2 hy.le, if_false, hs.ne', hb]

theorem kibble_perm {ρ : Sym → ℝ} {i j k : ℤ} (h : IsPerm123 i j k) : kibbleFunction ρ =
    lam (lam (vm ρ 0 ^ 2) (vm ρ i ^ 2) (vs ρ i)) (lam (vm ρ 0 ^ 2) (vm ρ j ^ 2) (vs ρ j))
      (lam (vm ρ 0 ^ 2) (vm ρ k ^ 2) (vs ρ k)) := by
  have e : kibbleFunction ρ =
    lam (lam (vm ρ 0 ^ 2) (vm ρ 1 ^ 2) (vs ρ 1)) (lam (vm ρ 0 ^ 2) (vm ρ 2 ^ 2) (vs ρ 2))
      (lam (vm ρ 0 ^ 2) (vm ρ 3 ^ 2) (vs ρ 3)) := rfl
  have c1 : ∀ a b c : ℝ, lam a b c = lam b a c := fun a b c => by unfold lam; ring
  have c2 : ∀ a b c : ℝ, lam a b c = lam b c a := fun a b c => by unfold lam; ring
  rw [e]
  rcases perm_cases h with ⟨rfl, rfl, rfl⟩ | ⟨rfl, rfl, rfl⟩ | ⟨rfl, rfl, rfl⟩ |
    ⟨rfl, rfl, rfl⟩ | ⟨rfl, rfl, rfl⟩ | ⟨rfl, rfl, rfl⟩
  · rfl
  · rw [c2, c1, c2, c2]
  · exact c1 _ _ _
  · exact c2 _ _ _
  · rw [c2, c2]
  · rw [c1, c2, c2]

theorem sum_perm {ρ : Sym → ℝ} {i j k : ℤ} (h : IsPerm123 i j k) (hs : SumRule ρ) :
    vs ρ i + vs ρ j + vs ρ k = vm ρ 0 ^ 2 + vm ρ i ^ 2 + vm ρ j ^ 2 + vm ρ k ^ 2 := by
  have g : vs ρ 1 + vs ρ 2 + vs ρ 3 = vm ρ 0 ^ 2 + vm ρ 1 ^ 2 + vm ρ 2 ^ 2 + vm ρ 3 ^ 2 := hs
  rcases perm_cases h with ⟨rfl, rfl, rfl⟩ | ⟨rfl, rfl, rfl⟩ | ⟨rfl, rfl, rfl⟩ |
    ⟨rfl, rfl, rfl⟩ | ⟨rfl, rfl, rfl⟩ | ⟨rfl, rfl, rfl⟩ <;> linarith

/-- C106: for an allowed mass of the isobar, the scattering angle is a real number exactly inside the Dalitz plot and on
its boundary. It is strictly between 0 and π exactly in the interior, and 0 or π exactly on the boundary. -/
theorem C106_phase_space {ρ : Sym → ℝ} {i j k : ℤ} (h : IsPerm123 i j k) (hpos : MassesPositive ρ) (hs : SumRule ρ)
    (hk : AllowedMass ρ i j k) : ∃ s e, formulateScatteringAngle i j = .ok (s, e) ∧
    (kibbleFunction ρ < 0 ↔ DalitzInterior ρ) ∧ ((∃ v, e.eval ρ = some v) ↔ kibbleFunction ρ ≤ 0) ∧
    ∀ v, e.eval ρ = some v → (0 < v ∧ v < Real.pi ↔ DalitzInterior ρ) ∧
      (v = 0 ∨ v = Real.pi ↔ kibbleFunction ρ = 0) := by
  have p0 : 0 < vm ρ 0 := hpos 0 (by simp)
  have pi : 0 < vm ρ i := hpos i (mem0 (perm_mem h).1)
  have pj : 0 < vm ρ j := hpos j (mem0 (perm_mem h).2.1)
  have pk : 0 < vm ρ k := hpos k (mem0 (perm_mem h).2.2)
  have hth : BetweenThresholds (vm ρ 0) (vm ρ i) (vm ρ j) (vm ρ k) (vs ρ k) := hk
  have hsum := sum_perm h hs
  refine ⟨_, _, scat_forms h, ?_⟩
  obtain ⟨N, x, y, hE, e1, e2, e3⟩ := numer_eval ρ i j k
  rw [hE, dalitz_iff_gen h, gen_iff p0 pi pj pk hth hsum]
  have hkib := kib_numer (vm ρ 0) (vm ρ i) (vm ρ j) (vm ρ k) (vs ρ k) (vs ρ j)
  rw [show vm ρ 0 ^ 2 + vm ρ i ^ 2 + vm ρ j ^ 2 + vm ρ k ^ 2 - vs ρ j - vs ρ k = vs ρ i by linarith, ← kibble_perm h] at hkib
  have hx := lam_upper_pos pk hth.2.1 hth.2.2
  have hy := lam_lower_pos pi pj hth.1
  have hs0 : 0 < vs ρ k := lt_of_le_of_lt (sq_nonneg _) hth.1
  generalize numer (vm ρ 0) (vm ρ i) (vm ρ j) (vm ρ k) (vs ρ k) (vs ρ j) = n at *
  generalize kallenR (vm ρ 0 ^ 2) (vm ρ k ^ 2) (vs ρ k) = X at *
  generalize kallenR (vs ρ k) (vm ρ i ^ 2) (vm ρ j ^ 2) = Y at *
  generalize kibbleFunction ρ = K at *
  have hM : 0 < 4 * vm ρ 0 ^ 2 := by positivity
  have k1 : K < 0 ↔ n ^ 2 < X * Y := by
    constructor
    · intro hK
      have : 0 < 4 * vm ρ 0 ^ 2 * (X * Y - n ^ 2) := by rw [← hkib]; nlinarith
      have := pos_of_mul_pos_right this hM.le
      linarith
    · intro hn
      have : 0 < -(vs ρ k * K) := by rw [hkib]; exact mul_pos hM (by linarith)
      rw [← mul_neg] at this
      have := pos_of_mul_pos_right this hs0.le
      linarith
  have k2 : K = 0 ↔ n ^ 2 = X * Y := by
    constructor
    · intro hK
      rw [hK, mul_zero, neg_zero] at hkib
      rcases mul_eq_zero.1 hkib.symm with h | h
      · exact absurd h hM.ne'
      · linarith
    · intro hn
      rw [hn, sub_self, mul_zero, neg_eq_zero] at hkib
      exact (mul_eq_zero.1 hkib).resolve_left hs0.ne'
  have hq : 0 < √X * √Y := mul_pos (Real.sqrt_pos.2 hx) (Real.sqrt_pos.2 hy)
  have hqq : (√X * √Y) ^ 2 = X * Y := by rw [mul_pow, Real.sq_sqrt hx.le, Real.sq_sqrt hy.le]
  refine ⟨k1, ?_, ?_⟩
  · rw [le_iff_lt_or_eq, k1, k2, ← le_iff_lt_or_eq]
    constructor
    · rintro ⟨v, hv⟩
      by_contra hn
      rw [eval_acosRatio_none e1 e2 e3 hx hy (not_le.1 hn)] at hv
      cases hv
    · intro hn
      exact ⟨_, eval_acosRatio ρ e1 e2 e3 hx hy hn⟩
  · intro v hv
    have hn : n ^ 2 ≤ X * Y := by
      by_contra hn
      rw [eval_acosRatio_none e1 e2 e3 hx hy (not_le.1 hn)] at hv
      cases hv
    rw [eval_acosRatio ρ e1 e2 e3 hx hy hn] at hv
    cases hv
    have habs : |n / (√X * √Y)| ≤ 1 := by
      rw [abs_div, abs_of_pos hq, div_le_one hq]
      exact abs_le_of_sq_le_sq (by rw [hqq]; exact hn) hq.le
    have hsq : n ^ 2 = X * Y ↔ n / (√X * √Y) = 1 ∨ n / (√X * √Y) = -1 := by
      rw [← hqq, sq_eq_sq_iff_eq_or_eq_neg, div_eq_iff hq.ne', div_eq_iff hq.ne', one_mul, neg_one_mul]
    have hb : Real.arccos (n / (√X * √Y)) = 0 ∨ Real.arccos (n / (√X * √Y)) = Real.pi ↔ n ^ 2 = X * Y := by
      rw [hsq, Real.arccos_eq_zero, Real.arccos_eq_pi]
      have := abs_le.1 habs
      constructor
      · rintro (h | h)
        · exact Or.inl (le_antisymm this.2 h)
        · exact Or.inr (le_antisymm h this.1)
      · rintro (h | h)
        · exact Or.inl h.ge
        · exact Or.inr h.le
    refine ⟨?_, by rw [hb, k2]⟩
    have h0 := Real.arccos_nonneg (n / (√X * √Y))
    have h1 := Real.arccos_le_pi (n / (√X * √Y))
    constructor
    · rintro ⟨a, b⟩
      refine lt_of_le_of_ne hn fun hEq => ?_
      rcases hb.2 hEq with h | h <;> linarith
    · intro hlt
      constructor
      · exact lt_of_le_of_ne h0 fun hEq => hlt.ne (hb.1 (Or.inl hEq.symm))
      · exact lt_of_le_of_ne h1 fun hEq => hlt.ne (hb.1 (Or.inr hEq))

/-- C106: for an allowed mass of the isobar, every angle between 0 and π belongs to exactly one point of the Dalitz
plot, and the angle decreases if the other Mandelstam variable increases. -/
theorem C106_coordinate {ρ : ℝ → Sym → ℝ} {i j k : ℤ} (h : IsPerm123 i j k) (hρ : Slice ρ j k)
    (hpos : MassesPositive (ρ 0)) (hk : AllowedMass (ρ 0) i j k) : ∃ s e, formulateScatteringAngle i j = .ok (s, e) ∧
    (∀ x : ℝ, 0 < x → x < Real.pi → ∃! t, DalitzInterior (ρ t) ∧ e.eval (ρ t) = some x) ∧
    ∀ t t' x x', DalitzInterior (ρ t) → DalitzInterior (ρ t') → e.eval (ρ t) = some x → e.eval (ρ t') = some x' →
      t < t' → x' < x := by
  obtain ⟨hR, c, hc⟩ := slice_thresholds h hρ hpos hk
  generalize halfRange _ _ _ _ _ = R at *
  refine ⟨_, _, scat_forms h, ?_, ?_⟩
  · intro x h0 h1
    have hcos : |Real.cos x| < 1 := by
      rw [abs_lt]
      constructor
      · rw [← Real.cos_pi]
        exact Real.cos_lt_cos_of_nonneg_of_le_pi h0.le le_rfl h1
      · rw [← Real.cos_zero]
        exact Real.cos_lt_cos_of_nonneg_of_le_pi le_rfl h1.le h0
    have hin : DalitzInterior (ρ (c + R * Real.cos x)) := by
      rw [(hc _).1, add_sub_cancel_left, abs_mul, abs_of_pos hR]
      nlinarith
    refine ⟨c + R * Real.cos x, ⟨hin, ?_⟩, ?_⟩
    · rw [(hc _).2 hin, add_sub_cancel_left, mul_div_cancel_left₀ _ hR.ne', Real.arccos_cos h0.le h1.le]
    · rintro t ⟨ht, hx⟩
      rw [(hc _).2 ht, Option.some.injEq] at hx
      have hb := ((hc t).1).1 ht
      have hb' : |(t - c) / R| < 1 := by rwa [abs_div, abs_of_pos hR, div_lt_one hR]
      rw [abs_lt] at hb'
      rw [← hx, Real.cos_arccos hb'.1.le hb'.2.le]
      field_simp
      ring
  · intro t t' x x' ht ht' hx hx' hlt
    rw [(hc _).2 ht, Option.some.injEq] at hx
    rw [(hc _).2 ht', Option.some.injEq] at hx'
    have b1 := abs_lt.1 (((hc t).1).1 ht)
    have b2 := abs_lt.1 (((hc t').1).1 ht')
    rw [← hx, ← hx']
    apply Real.arccos_lt_arccos
    · rw [le_div_iff₀ hR]; linarith
    · exact div_lt_div_of_pos_right (by linarith) hR
    · rw [div_le_one hR]; linarith

/-- Example: the line `σ3 = 5` in the Dalitz plot of a particle of mass 4 that decays to three particles of mass 1. -/
noncomputable def coordinateLine (t : ℝ) (s : Sym) : ℝ :=
  if s = ⟨"m0", .nonneg⟩ then 4
  else if s = ⟨"sigma3", .nonneg⟩ then 5
  else if s = ⟨"sigma2", .nonneg⟩ then t
  else if s = ⟨"sigma1", .nonneg⟩ then 14 - t
  else 1

/-- The line starts at a point of the boundary, goes through the interior and leaves the Dalitz plot. -/
example : Slice coordinateLine 2 3 ∧ (∀ t, MassesPositive (coordinateLine t) ∧ SumRule (coordinateLine t) ∧
      AllowedMass (coordinateLine t) 1 2 3) ∧ kibbleFunction (coordinateLine 5) = 0 ∧
    kibbleFunction (coordinateLine 7) < 0 ∧ kibbleFunction (coordinateLine 9) = 0 ∧
    0 < kibbleFunction (coordinateLine 10) := by
  have t0 : toString (0 : ℤ) = "0" := rfl
  have t1 : toString (1 : ℤ) = "1" := rfl
  have t2 : toString (2 : ℤ) = "2" := rfl
  have t3 : toString (3 : ℤ) = "3" := rfl
  refine ⟨⟨?_, ?_, ?_, ?_⟩, ?_, ?_, ?_, ?_, ?_⟩
  · intro t n hn
    simp only [List.mem_cons, List.not_mem_nil, or_false] at hn
    rcases hn with rfl | rfl | rfl | rfl <;> simp [coordinateLine, t0, t1, t2, t3]
  · intro t; simp [coordinateLine, t3]
  · intro t; simp [coordinateLine, t2]
  · intro t; simp [coordinateLine, SumRule]; ring
  · intro t
    refine ⟨?_, ?_, ?_⟩
    · intro n hn
      simp only [List.mem_cons, List.not_mem_nil, or_false] at hn
      rcases hn with rfl | rfl | rfl | rfl <;> simp [coordinateLine, t0, t1, t2, t3]
    · simp [coordinateLine, SumRule]; ring
    · simp [coordinateLine, AllowedMass, BetweenThresholds, t1, t2, t3]; norm_num
  all_goals simp [coordinateLine, kibbleFunction, lam]; norm_num

end Verif.Angles
