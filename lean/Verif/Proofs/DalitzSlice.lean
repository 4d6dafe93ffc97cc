import Verif.Proofs.Dalitz
import Verif.Proofs.Angles3
import Verif.Spec.Decay
import Mathlib.Analysis.SpecialFunctions.Integrals.Basic
import Mathlib.MeasureTheory.Integral.IntervalIntegral.IntegrationByParts

/-! A line `σ_k = const` in the Dalitz plot: the interior is an interval, on which the cosine of the decay angle is an
affine function (used for C98). -/
namespace Verif.Angles
open Verif Verif.Spec RExpr

variable {M mi mj mk s t : ℝ}

/-- Numerator of the cosine of the decay angle. -/
def numer (M mi mj mk s t : ℝ) : ℝ := 2 * s * (t - mk ^ 2 - mi ^ 2) - (s + mi ^ 2 - mj ^ 2) * (M ^ 2 - s - mk ^ 2)

/-- `E E' - p p' ≥ m m'`, without square roots. -/
theorem energy_bound {A B a c s q : ℝ} (hA : 0 < A) (hB : 0 < B) (ha : 0 < a) (hc : 0 < c) (hs : 0 < s) (hq : 0 ≤ q)
    (hx : 0 < B ^ 2 - 4 * s * c ^ 2) (hy : 0 < A ^ 2 - 4 * s * a ^ 2)
    (hqq : q ^ 2 = (B ^ 2 - 4 * s * c ^ 2) * (A ^ 2 - 4 * s * a ^ 2)) : 4 * s * a * c ≤ A * B - q := by
  have h1 : 4 * s * a * c ≤ A * B := by
    apply le_of_sq_le_sq _ (by positivity)
    have := mul_le_mul (show 4 * s * a ^ 2 ≤ A ^ 2 by linarith) (show 4 * s * c ^ 2 ≤ B ^ 2 by linarith) (by positivity)
      (by positivity)
    calc (4 * s * a * c) ^ 2 = 4 * s * a ^ 2 * (4 * s * c ^ 2) := by ring
      _ ≤ _ := this
      _ = (A * B) ^ 2 := by ring
  have h2 : q ≤ A * B - 4 * s * a * c := by
    apply le_of_sq_le_sq _ (by linarith)
    rw [hqq]
    have : 0 ≤ 4 * s * (B * a - A * c) ^ 2 := by positivity
    nlinarith [this]
  linarith

theorem slice_bounds (hM : 0 < M) (hi : 0 < mi) (hj : 0 < mj) (hk : 0 < mk) (hs : BetweenThresholds M mi mj mk s)
    (hn : numer M mi mj mk s t ^ 2 < kallenR (M ^ 2) (mk ^ 2) s * kallenR s (mi ^ 2) (mj ^ 2)) :
    BetweenThresholds M mk mi mj t := by
  obtain ⟨h1, h2, h3⟩ := hs
  have hx := lam_upper_pos hk h2 h3
  have hy := lam_lower_pos hi hj h1
  have hs0 : 0 < s := lt_of_le_of_lt (sq_nonneg _) h1
  have hlt : mi + mj < M - mk := lt_of_pow_lt_pow_left₀ 2 (by linarith) (h1.trans h3)
  set q := √(kallenR (M ^ 2) (mk ^ 2) s * kallenR s (mi ^ 2) (mj ^ 2)) with hq
  have hq0 : 0 ≤ q := Real.sqrt_nonneg _
  have hqq : q ^ 2 = kallenR (M ^ 2) (mk ^ 2) s * kallenR s (mi ^ 2) (mj ^ 2) := Real.sq_sqrt (mul_pos hx hy).le
  rw [← hqq] at hn
  have hab := abs_lt.1 (abs_lt_of_sq_lt_sq hn hq0)
  have hA : 0 < s + mi ^ 2 - mj ^ 2 := by nlinarith
  have hA' : 0 < s + mj ^ 2 - mi ^ 2 := by nlinarith
  have hB : 0 < M ^ 2 - s - mk ^ 2 := by nlinarith
  have hC : 0 < M ^ 2 + s - mk ^ 2 := by nlinarith
  have x1 : kallenR (M ^ 2) (mk ^ 2) s = (M ^ 2 - s - mk ^ 2) ^ 2 - 4 * s * mk ^ 2 := by unfold kallenR; ring
  have x2 : kallenR (M ^ 2) (mk ^ 2) s = (M ^ 2 + s - mk ^ 2) ^ 2 - 4 * s * M ^ 2 := by unfold kallenR; ring
  have y1 : kallenR s (mi ^ 2) (mj ^ 2) = (s + mi ^ 2 - mj ^ 2) ^ 2 - 4 * s * mi ^ 2 := by unfold kallenR; ring
  have y2 : kallenR s (mi ^ 2) (mj ^ 2) = (s + mj ^ 2 - mi ^ 2) ^ 2 - 4 * s * mj ^ 2 := by unfold kallenR; ring
  have e1 := energy_bound hA hB hi hk hs0 hq0 (x1 ▸ hx) (y1 ▸ hy) (by rw [hqq, x1, y1])
  have e2 := energy_bound hA' hC hj hM hs0 hq0 (x2 ▸ hx) (y2 ▸ hy) (by rw [hqq, x2, y2])
  unfold numer at hab
  refine ⟨?_, by linarith, ?_⟩
  · have : 2 * s * (mk + mi) ^ 2 < 2 * s * t := by nlinarith [hab.1]
    exact lt_of_mul_lt_mul_left this (by positivity)
  · have : 2 * s * t < 2 * s * (M - mj) ^ 2 := by nlinarith [hab.2]
    exact lt_of_mul_lt_mul_left this (by positivity)

theorem numer_swap (M mi mj mk s t : ℝ) :
    numer M mj mi mk s (M ^ 2 + mi ^ 2 + mj ^ 2 + mk ^ 2 - s - t) = -numer M mi mj mk s t := by
  unfold numer; ring

theorem kib_numer (M mi mj mk s t : ℝ) :
    -(s * lam (lam (M ^ 2) (mi ^ 2) (M ^ 2 + mi ^ 2 + mj ^ 2 + mk ^ 2 - t - s)) (lam (M ^ 2) (mj ^ 2) t)
      (lam (M ^ 2) (mk ^ 2) s)) =
    4 * M ^ 2 * (kallenR (M ^ 2) (mk ^ 2) s * kallenR s (mi ^ 2) (mj ^ 2) - numer M mi mj mk s t ^ 2) := by
  unfold lam kallenR numer; ring

/-- Interior of the Dalitz plot on a line `σ_k = s`. -/
theorem gen_iff (hM : 0 < M) (hi : 0 < mi) (hj : 0 < mj) (hk : 0 < mk) (hs : BetweenThresholds M mi mj mk s) {si : ℝ}
    (hsum : si + t + s = M ^ 2 + mi ^ 2 + mj ^ 2 + mk ^ 2) :
    Gen M mi mj mk si t s ↔ numer M mi mj mk s t ^ 2 < kallenR (M ^ 2) (mk ^ 2) s * kallenR s (mi ^ 2) (mj ^ 2) := by
  obtain rfl : si = M ^ 2 + mi ^ 2 + mj ^ 2 + mk ^ 2 - t - s := by linarith
  have hs0 : 0 < s := lt_of_le_of_lt (sq_nonneg _) hs.1
  have hkib := kib_numer M mi mj mk s t
  constructor
  · intro g
    have := mul_pos hs0 (neg_pos.2 g.kib)
    rw [mul_neg, hkib] at this
    have := pos_of_mul_pos_right this (by positivity)
    linarith
  · intro h
    refine ⟨hM, hi, hj, hk, hsum, ?_, slice_bounds hM hi hj hk hs h, hs, ?_⟩
    · apply bt_swap
      apply slice_bounds hM hj hi hk (bt_swap hs)
      rw [show M ^ 2 + mi ^ 2 + mj ^ 2 + mk ^ 2 - t - s = M ^ 2 + mi ^ 2 + mj ^ 2 + mk ^ 2 - s - t by ring, numer_swap, neg_sq,
        show kallenR s (mj ^ 2) (mi ^ 2) = kallenR s (mi ^ 2) (mj ^ 2) by unfold kallenR; ring]
      exact h
    · have h1 : 0 < 4 * M ^ 2 * (kallenR (M ^ 2) (mk ^ 2) s * kallenR s (mi ^ 2) (mj ^ 2) - numer M mi mj mk s t ^ 2) :=
        mul_pos (by positivity) (by linarith)
      rw [← hkib, ← mul_neg] at h1
      have := pos_of_mul_pos_right h1 hs0.le
      linarith

theorem dalitz_iff_gen {ρ : Sym → ℝ} {i j k : ℤ} (h : IsPerm123 i j k) :
    DalitzInterior ρ ↔ Gen (vm ρ 0) (vm ρ i) (vm ρ j) (vm ρ k) (vs ρ i) (vs ρ j) (vs ρ k) := by
  refine ⟨fun h' => gen_of_dalitz h' h, fun g => ?_⟩
  have key : Gen (vm ρ 0) (vm ρ 1) (vm ρ 2) (vm ρ 3) (vs ρ 1) (vs ρ 2) (vs ρ 3) := by
    rcases perm_cases h with ⟨rfl, rfl, rfl⟩ | ⟨rfl, rfl, rfl⟩ | ⟨rfl, rfl, rfl⟩ |
      ⟨rfl, rfl, rfl⟩ | ⟨rfl, rfl, rfl⟩ | ⟨rfl, rfl, rfl⟩
    · exact g
    · exact g.swap.rot
    · exact g.swap
    · exact g.rot.rot
    · exact g.rot
    · exact g.swap.rot.rot
  exact ⟨key.p0, key.pi, key.pj, key.pk, key.sum, key.ti, key.tj, key.tk, key.kib⟩

theorem evenPerm_perm {i j k : ℤ} (h : EvenPerm i j k) : IsPerm123 i j k := by
  rcases h with h | h | h <;> cases h <;> unfold IsPerm123 <;> decide

/-- Half of the range of `σ_j` for a given `σ_k`. -/
noncomputable def halfRange (M mi mj mk s : ℝ) : ℝ := √(kallenR (M ^ 2) (mk ^ 2) s) * √(kallenR s (mi ^ 2) (mj ^ 2)) / (2 * s)

/-- On a line through the interior of the Dalitz plot. -/
theorem slice_thresholds {ρ : ℝ → Sym → ℝ} {i j k : ℤ} (h : IsPerm123 i j k) (hρ : Slice ρ j k)
    (hpos : ∀ n ∈ ([0, 1, 2, 3] : List ℤ), 0 < vm (ρ 0) n)
    (hth : BetweenThresholds (vm (ρ 0) 0) (vm (ρ 0) i) (vm (ρ 0) j) (vm (ρ 0) k) (vs (ρ 0) k)) :
    0 < halfRange (vm (ρ 0) 0) (vm (ρ 0) i) (vm (ρ 0) j) (vm (ρ 0) k) (vs (ρ 0) k) ∧
    ∃ c : ℝ, ∀ t, (DalitzInterior (ρ t) ↔
        |t - c| < halfRange (vm (ρ 0) 0) (vm (ρ 0) i) (vm (ρ 0) j) (vm (ρ 0) k) (vs (ρ 0) k)) ∧
      (DalitzInterior (ρ t) → (scatE i j k).eval (ρ t) = some (Real.arccos ((t - c) /
        halfRange (vm (ρ 0) 0) (vm (ρ 0) i) (vm (ρ 0) j) (vm (ρ 0) k) (vs (ρ 0) k)))) := by
  have hi : i ∈ ([0, 1, 2, 3] : List ℤ) := mem0 (perm_mem h).1
  have hj : j ∈ ([0, 1, 2, 3] : List ℤ) := mem0 (perm_mem h).2.1
  have hk : k ∈ ([0, 1, 2, 3] : List ℤ) := mem0 (perm_mem h).2.2
  have p0 := hpos 0 (by simp)
  have pi := hpos i hi
  have pj := hpos j hj
  have pk := hpos k hk
  have m0 : ∀ t, vm (ρ t) 0 = vm (ρ 0) 0 := fun t => hρ.mass t 0 (by simp)
  have mi : ∀ t, vm (ρ t) i = vm (ρ 0) i := fun t => hρ.mass t i hi
  have mj : ∀ t, vm (ρ t) j = vm (ρ 0) j := fun t => hρ.mass t j hj
  have mk : ∀ t, vm (ρ t) k = vm (ρ 0) k := fun t => hρ.mass t k hk
  have sk : ∀ t, vs (ρ t) k = vs (ρ 0) k := fun t => hρ.fixed t
  have sj : ∀ t, vs (ρ t) j = t := fun t => hρ.varied t
  have hsum : ∀ t, vs (ρ t) i + vs (ρ t) j + vs (ρ t) k = vm (ρ t) 0 ^ 2 + vm (ρ t) i ^ 2 + vm (ρ t) j ^ 2 + vm (ρ t) k ^ 2 := by
    intro t
    have g : vs (ρ t) 1 + vs (ρ t) 2 + vs (ρ t) 3 = vm (ρ t) 0 ^ 2 + vm (ρ t) 1 ^ 2 + vm (ρ t) 2 ^ 2 + vm (ρ t) 3 ^ 2 := hρ.sum t
    rcases perm_cases h with ⟨rfl, rfl, rfl⟩ | ⟨rfl, rfl, rfl⟩ | ⟨rfl, rfl, rfl⟩ |
      ⟨rfl, rfl, rfl⟩ | ⟨rfl, rfl, rfl⟩ | ⟨rfl, rfl, rfl⟩ <;> linarith
  have hev : ∀ t, ∃ N x y, scatE i j k = acosRatio N x y ∧
      eval (ρ t) N = some (numer (vm (ρ t) 0) (vm (ρ t) i) (vm (ρ t) j) (vm (ρ t) k) (vs (ρ t) k) (vs (ρ t) j)) ∧
      eval (ρ t) x = some (kallenR (vm (ρ t) 0 ^ 2) (vm (ρ t) k ^ 2) (vs (ρ t) k)) ∧
      eval (ρ t) y = some (kallenR (vs (ρ t) k) (vm (ρ t) i ^ 2) (vm (ρ t) j ^ 2)) := by
    intro t
    have e0 := eval_pow (n := 2) (ρ t) (eval_m' (ρ := ρ t) 0)
    have ei := eval_pow (n := 2) (ρ t) (eval_m' (ρ := ρ t) i)
    have ej := eval_pow (n := 2) (ρ t) (eval_m' (ρ := ρ t) j)
    have ek := eval_pow (n := 2) (ρ t) (eval_m' (ρ := ρ t) k)
    have sk := eval_σ' (ρ := ρ t) k
    have sj := eval_σ' (ρ := ρ t) j
    have hNN := eval_sub (ρ t)
      (eval_mul (ρ t) (eval_mul (ρ t) (eval_num (n := 2) (ρ t)) sk) (eval_sub (ρ t) (eval_sub (ρ t) sj ek) ei))
      (eval_mul (ρ t) (eval_sub (ρ t) (eval_add (ρ t) sk ei) ej) (eval_sub (ρ t) (eval_sub (ρ t) e0 sk) ek))
    push_cast at hNN
    exact ⟨_, _, _, rfl, hNN, eval_kallen (ρ t) e0 ek sk, eval_kallen (ρ t) sk ei ej⟩
  simp only [m0, mi, mj, mk, sk, sj] at hev hsum
  have hgen : ∀ t, DalitzInterior (ρ t) ↔
      Gen (vm (ρ 0) 0) (vm (ρ 0) i) (vm (ρ 0) j) (vm (ρ 0) k) (vs (ρ t) i) t (vs (ρ 0) k) := by
    intro t
    rw [dalitz_iff_gen h, m0, mi, mj, mk, sk, sj]
  generalize vm (ρ 0) 0 = M at *
  generalize vm (ρ 0) i = a at *
  generalize vm (ρ 0) j = b at *
  generalize vm (ρ 0) k = c at *
  generalize vs (ρ 0) k = s at *
  have hx := lam_upper_pos pk hth.2.1 hth.2.2
  have hy := lam_lower_pos pi pj hth.1
  have hs0 : 0 < s := lt_of_le_of_lt (sq_nonneg _) hth.1
  have hq : 0 < √(kallenR (M ^ 2) (c ^ 2) s) * √(kallenR s (a ^ 2) (b ^ 2)) :=
    mul_pos (Real.sqrt_pos.2 hx) (Real.sqrt_pos.2 hy)
  have hqq : (√(kallenR (M ^ 2) (c ^ 2) s) * √(kallenR s (a ^ 2) (b ^ 2))) ^ 2 =
      kallenR (M ^ 2) (c ^ 2) s * kallenR s (a ^ 2) (b ^ 2) := by
    rw [mul_pow, Real.sq_sqrt hx.le, Real.sq_sqrt hy.le]
  set q := √(kallenR (M ^ 2) (c ^ 2) s) * √(kallenR s (a ^ 2) (b ^ 2)) with hqdef
  have hR : halfRange M a b c s = q / (2 * s) := rfl
  have hRpos : 0 < q / (2 * s) := div_pos hq (by positivity)
  set c0 := c ^ 2 + a ^ 2 + (s + a ^ 2 - b ^ 2) * (M ^ 2 - s - c ^ 2) / (2 * s) with hc0
  have hnum : ∀ t, numer M a b c s t = 2 * s * (t - c0) := by
    intro t
    rw [hc0]
    unfold numer
    field_simp
    ring
  have hiff : ∀ t, DalitzInterior (ρ t) ↔ numer M a b c s t ^ 2 < kallenR (M ^ 2) (c ^ 2) s * kallenR s (a ^ 2) (b ^ 2) := by
    intro t
    rw [hgen, gen_iff p0 pi pj pk hth (hsum t)]
  rw [hR]
  refine ⟨hRpos, c0, fun t => ⟨?_, ?_⟩⟩
  · rw [hiff, ← hqq, sq_lt_sq, hnum, abs_of_pos hq, abs_mul, abs_of_pos (show 0 < 2 * s by positivity), lt_div_iff₀ (by positivity),
      mul_comm]
  · intro hD
    obtain ⟨N, x, y, hE, e1, e2, e3⟩ := hev t
    rw [hE, eval_acosRatio _ e1 e2 e3 hx hy ((hiff t).1 hD).le, hnum, ← hqdef]
    congr 2
    field_simp

theorem slice_interval {ρ : ℝ → Sym → ℝ} {i j k : ℤ} (h : EvenPerm i j k) (hρ : Slice ρ j k) {t₀ : ℝ}
    (h0 : DalitzInterior (ρ t₀)) :
    0 < halfRange (vm (ρ 0) 0) (vm (ρ 0) i) (vm (ρ 0) j) (vm (ρ 0) k) (vs (ρ 0) k) ∧
    ∃ c : ℝ, ∀ t, (DalitzInterior (ρ t) ↔
        |t - c| < halfRange (vm (ρ 0) 0) (vm (ρ 0) i) (vm (ρ 0) j) (vm (ρ 0) k) (vs (ρ 0) k)) ∧
      (DalitzInterior (ρ t) → (scatE i j k).eval (ρ t) = some (Real.arccos ((t - c) /
        halfRange (vm (ρ 0) 0) (vm (ρ 0) i) (vm (ρ 0) j) (vm (ρ 0) k) (vs (ρ 0) k)))) := by
  have hp := evenPerm_perm h
  have g := (dalitz_iff_gen hp).1 h0
  have hm : ∀ n ∈ ([0, 1, 2, 3] : List ℤ), vm (ρ t₀) n = vm (ρ 0) n := fun n hn => hρ.mass t₀ n hn
  have h' := (dalitz_iff_gen (i := 1) (j := 2) (k := 3) (by unfold IsPerm123; decide)).1 h0
  apply slice_thresholds hp hρ
  · intro n hn
    rw [← hm n hn]
    simp only [List.mem_cons, List.not_mem_nil, or_false] at hn
    rcases hn with rfl | rfl | rfl | rfl
    exacts [h'.p0, h'.pi, h'.pj, h'.pk]
  · have := g.tk
    rwa [hm 0 (by simp), hm i (mem0 (perm_mem hp).1), hm j (mem0 (perm_mem hp).2.1), hm k (mem0 (perm_mem hp).2.2),
      show vs (ρ t₀) k = vs (ρ 0) k from hρ.fixed t₀] at this

/-- Change of variable from the Mandelstam variable to the decay angle. -/
theorem integral_slice {f : ℝ → ℝ} (hf : Continuous f) (c : ℝ) {R : ℝ} (hR : 0 < R) :
    ∫ t in {t | |t - c| < R}, f (Real.arccos ((t - c) / R)) = R * ∫ x in (0 : ℝ)..Real.pi, f x * Real.sin x := by
  have hset : {t | |t - c| < R} = Set.Ioo (c - R) (c + R) := by
    ext t
    rw [Set.mem_ofPred_eq, abs_lt, Set.mem_Ioo]
    constructor <;> rintro ⟨h1, h2⟩ <;> constructor <;> linarith
  rw [hset, ← MeasureTheory.integral_Ioc_eq_integral_Ioo, ← intervalIntegral.integral_of_le (by linarith)]
  have hd : ∀ x : ℝ, HasDerivAt (fun x => c - R * Real.cos x) (R * Real.sin x) x := by
    intro x
    have := ((Real.hasDerivAt_cos x).const_mul R).const_sub c
    simpa using this
  have key := intervalIntegral.integral_comp_mul_deriv (a := 0) (b := Real.pi) (fun x _ => hd x)
    (Continuous.continuousOn (by fun_prop)) (g := fun t => f (Real.arccos ((t - c) / R)))
    (hf.comp (Real.continuous_arccos.comp (by fun_prop)))
  rw [show c - R * Real.cos 0 = c - R by simp, show c - R * Real.cos Real.pi = c + R by simp] at key
  rw [← key]
  have hrefl : ∫ x in (0 : ℝ)..Real.pi, f x * Real.sin x = ∫ x in (0 : ℝ)..Real.pi, f (Real.pi - x) * Real.sin x := by
    have := intervalIntegral.integral_comp_sub_left (fun x => f x * Real.sin x) (a := 0) (b := Real.pi) Real.pi
    simp only [sub_self, sub_zero, Real.sin_pi_sub] at this
    exact this.symm
  rw [hrefl, ← intervalIntegral.integral_const_mul]
  apply intervalIntegral.integral_congr
  intro x hx
  rw [Set.uIcc_of_le Real.pi_pos.le] at hx
  simp only [Function.comp]
  rw [show (c - R * Real.cos x - c) / R = -Real.cos x by field_simp; ring, Real.arccos_neg, Real.arccos_cos hx.1 hx.2]
  ring

end Verif.Angles
