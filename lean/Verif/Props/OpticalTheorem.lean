import Verif.Props.LineshapeBuilder
import Mathlib.Analysis.SpecialFunctions.Complex.Arg

/-!
Property C99: the lineshapes obey the optical theorem, and their phase runs counterclockwise through
90 degrees at the pole mass.
-/
namespace Verif.ThreeBody
open Verif Verif.Spec
open Lineshape

namespace Optical

theorem inv_normSq (x m W : ℝ) :
    ‖breitWignerValue x m W‖ ^ 2 = 1 / ((m ^ 2 - x) ^ 2 + (m * W) ^ 2) := by
  rw [← Complex.normSq_eq_norm_sq, breitWignerValue, Complex.normSq_div, denom_normSq]
  simp

theorem im_value (x m W : ℝ) :
    (breitWignerValue x m W).im = m * W / ((m ^ 2 - x) ^ 2 + (m * W) ^ 2) := by
  rw [breitWignerValue, Complex.div_im, denom_normSq]
  simp [← Complex.ofReal_pow, Complex.mul_im, Complex.mul_re]
  ring

theorem re_value (x m W : ℝ) :
    (breitWignerValue x m W).re = (m ^ 2 - x) / ((m ^ 2 - x) ^ 2 + (m * W) ^ 2) := by
  rw [breitWignerValue, Complex.div_re, denom_normSq]
  simp [← Complex.ofReal_pow, Complex.mul_im, Complex.mul_re]

theorem value (x m W : ℝ) : (breitWignerValue x m W).im = m * W * ‖breitWignerValue x m W‖ ^ 2 := by
  rw [im_value, inv_normSq]; ring

theorem circle (x m W : ℝ) (h : m * W ≠ 0) :
    ‖((m * W : ℝ) : ℂ) * breitWignerValue x m W - Complex.I / 2‖ = 1 / 2 := by
  have hp : 0 < (m ^ 2 - x) ^ 2 + (m * W) ^ 2 := by positivity
  have hsq : ‖((m * W : ℝ) : ℂ) * breitWignerValue x m W - Complex.I / 2‖ ^ 2 = (1 / 2) ^ 2 := by
    rw [← Complex.normSq_eq_norm_sq, Complex.normSq_apply]
    simp only [Complex.sub_re, Complex.sub_im, Complex.re_ofReal_mul, Complex.im_ofReal_mul, im_value,
      re_value]
    have hI : (Complex.I / 2).re = 0 ∧ (Complex.I / 2).im = 1 / 2 := by constructor <;> simp
    rw [hI.1, hI.2]
    generalize m ^ 2 - x = a at *
    generalize m * W = b at *
    field_simp
    ring
  exact (pow_left_inj₀ (norm_nonneg _) (by norm_num) two_ne_zero).1 hsq

/-- `a/√(a²+b²)` increases with `a`. -/
theorem cos_lt {a a' b : ℝ} (hb : 0 < b) (h : a < a') :
    a / Real.sqrt (a ^ 2 + b ^ 2) < a' / Real.sqrt (a' ^ 2 + b ^ 2) := by
  have hp : 0 < Real.sqrt (a ^ 2 + b ^ 2) := Real.sqrt_pos.2 (by positivity)
  have hp' : 0 < Real.sqrt (a' ^ 2 + b ^ 2) := Real.sqrt_pos.2 (by positivity)
  have hs : Real.sqrt (a ^ 2 + b ^ 2) ^ 2 = a ^ 2 + b ^ 2 := Real.sq_sqrt (by positivity)
  have hs' : Real.sqrt (a' ^ 2 + b ^ 2) ^ 2 = a' ^ 2 + b ^ 2 := Real.sq_sqrt (by positivity)
  rw [div_lt_div_iff₀ hp hp']
  set u := Real.sqrt (a ^ 2 + b ^ 2)
  set v := Real.sqrt (a' ^ 2 + b ^ 2)
  rcases le_or_gt a 0 with ha | ha
  · rcases le_or_gt a' 0 with ha' | ha'
    · -- both negative: compare squares of `-a v` and `-a' u`
      have : (-a' * u) ^ 2 < (-a * v) ^ 2 := by
        have e : (-a * v) ^ 2 - (-a' * u) ^ 2 = b ^ 2 * (a ^ 2 - a' ^ 2) := by
          rw [mul_pow, mul_pow, hs, hs']; ring
        have : 0 < b ^ 2 * (a ^ 2 - a' ^ 2) := by
          apply mul_pos (by positivity); nlinarith
        linarith
      have := lt_of_pow_lt_pow_left₀ 2 (mul_nonneg (by linarith) hp'.le) this
      linarith
    · nlinarith [mul_pos ha' hp]
  · have : (a * v) ^ 2 < (a' * u) ^ 2 := by
      have e : (a' * u) ^ 2 - (a * v) ^ 2 = b ^ 2 * (a' ^ 2 - a ^ 2) := by
        rw [mul_pow, mul_pow, hs, hs']; ring
      have : 0 < b ^ 2 * (a' ^ 2 - a ^ 2) := by
        apply mul_pos (by positivity); nlinarith
      linarith
    exact lt_of_pow_lt_pow_left₀ 2 (mul_nonneg (by linarith) hp.le) this

theorem arg_value (x m W : ℝ) (h : 0 < m * W) : Complex.arg (breitWignerValue x m W) =
    Real.arccos ((m ^ 2 - x) / Real.sqrt ((m ^ 2 - x) ^ 2 + (m * W) ^ 2)) := by
  have hp : 0 < (m ^ 2 - x) ^ 2 + (m * W) ^ 2 := by positivity
  rw [Complex.arg_of_im_pos (by rw [im_value]; positivity)]
  have hn : ‖breitWignerValue x m W‖ = 1 / Real.sqrt ((m ^ 2 - x) ^ 2 + (m * W) ^ 2) := by
    rw [← Real.sqrt_sq (norm_nonneg (breitWignerValue x m W)), inv_normSq, Real.sqrt_div' _ hp.le, Real.sqrt_one]
  rw [hn, re_value]
  congr 1
  have hs : Real.sqrt ((m ^ 2 - x) ^ 2 + (m * W) ^ 2) ^ 2 = _ := Real.sq_sqrt hp.le
  have hq := Real.sqrt_pos.2 hp
  rw [div_div_eq_mul_div, div_one, div_mul_eq_mul_div, div_eq_div_iff hp.ne' hq.ne']
  rw [mul_assoc, ← sq, hs]

theorem cos_mem (a b : ℝ) (hb : 0 < b) : a / Real.sqrt (a ^ 2 + b ^ 2) ∈ Set.Icc (-1 : ℝ) 1 := by
  have hp : 0 < Real.sqrt (a ^ 2 + b ^ 2) := Real.sqrt_pos.2 (by positivity)
  have h : |a| ≤ Real.sqrt (a ^ 2 + b ^ 2) := Real.abs_le_sqrt (by nlinarith [sq_nonneg b])
  rw [abs_le] at h
  exact ⟨by rw [le_div_iff₀ hp]; linarith, by rw [div_le_iff₀ hp]; linarith⟩

end Optical
open Optical

/-- **C99** Optical theorem. For real `s`, `m0` and `Γ`, the imaginary part of `SimpleBreitWigner` is
`m0 Γ |A|²`, and `m0 Γ A` lies on the circle with radius 1/2 about i/2 (the unitarity circle). -/
theorem C99_optical_theorem (ι : Interp) (η : Sym → ℚ) (s m0 g0 : Expr) (x m Γ : ℝ)
    (hs : s.eval ι η = x) (hm : m0.eval ι η = m) (hg : g0.eval ι η = Γ) :
    let A := (simpleBreitWigner s m0 g0).eval ι η
    A.im = m * Γ * ‖A‖ ^ 2 ∧
    (m * Γ ≠ 0 → ‖((m * Γ : ℝ) : ℂ) * A - Complex.I / 2‖ = 1 / 2) := by
  intro A
  have hA : A = breitWignerValue x m Γ := by
    rw [← hs, ← hm, ← hg]; exact (C37_closed_form ι η s m0 g0 0 0 0 0 "").1
  rw [hA]
  exact ⟨value x m Γ, circle x m Γ⟩

/-- **C99** With a constant width and `m0 Γ > 0`, the phase of the amplitude increases with `s`. It
lies strictly between 0 and π and is π/2 at the pole mass and nowhere else. -/
theorem C99_phase (ι : Interp) (s m0 g0 : Expr) (m Γ : ℝ) (hmΓ : 0 < m * Γ) (η η' : Sym → ℚ)
    (ι' : Interp) (x x' : ℝ) (hs : s.eval ι η = x) (hm : m0.eval ι η = m) (hg : g0.eval ι η = Γ)
    (hs' : s.eval ι' η' = x') (hm' : m0.eval ι' η' = m) (hg' : g0.eval ι' η' = Γ) :
    let φ := Complex.arg ((simpleBreitWigner s m0 g0).eval ι η)
    let φ' := Complex.arg ((simpleBreitWigner s m0 g0).eval ι' η')
    (x < x' ↔ φ < φ') ∧ 0 < φ ∧ φ < Real.pi ∧ (φ = Real.pi / 2 ↔ x = m ^ 2) := by
  intro φ φ'
  have hφ : φ = Real.arccos ((m ^ 2 - x) / Real.sqrt ((m ^ 2 - x) ^ 2 + (m * Γ) ^ 2)) := by
    rw [← arg_value x m Γ hmΓ, ← hs, ← hm, ← hg]
    exact congrArg Complex.arg (C37_closed_form ι η s m0 g0 0 0 0 0 "").1
  have hφ' : φ' = Real.arccos ((m ^ 2 - x') / Real.sqrt ((m ^ 2 - x') ^ 2 + (m * Γ) ^ 2)) := by
    rw [← arg_value x' m Γ hmΓ, ← hs', ← hm', ← hg']
    exact congrArg Complex.arg (C37_closed_form ι' η' s m0 g0 0 0 0 0 "").1
  have lt_iff : ∀ {y y' : ℝ}, y < y' →
      Real.arccos ((m ^ 2 - y) / Real.sqrt ((m ^ 2 - y) ^ 2 + (m * Γ) ^ 2)) <
      Real.arccos ((m ^ 2 - y') / Real.sqrt ((m ^ 2 - y') ^ 2 + (m * Γ) ^ 2)) := fun h =>
    Real.strictAntiOn_arccos (cos_mem _ _ hmΓ) (cos_mem _ _ hmΓ) (cos_lt hmΓ (by linarith))
  rw [hφ, hφ']
  refine ⟨⟨fun h => lt_iff h, fun h => ?_⟩, ?_, ?_, ?_⟩
  · by_contra hn
    rcases (not_lt.1 hn).eq_or_lt with rfl | hn
    · exact lt_irrefl _ h
    · exact lt_asymm h (lt_iff hn)
  · exact lt_of_le_of_lt (Real.arccos_nonneg _) (lt_iff (show x - 1 < x by linarith))
  · exact lt_of_lt_of_le (lt_iff (show x < x + 1 by linarith)) (Real.arccos_le_pi _)
  · rw [Real.arccos_eq_pi_div_two, div_eq_zero_iff, or_iff_left (Real.sqrt_pos.2 (by positivity)).ne']
    constructor <;> intro h <;> linarith

/-- **C99** `BreitWigner` with an energy-dependent width `W` that is real at `s`: `Im A = m0 W |A|²`. -/
theorem C99_energy_dependent (ι : Interp) (η : Sym → ℚ) (s m0 g0 m1 m2 d : Expr) (L : ℤ) (ph : String)
    (x m W : ℝ) (hs : s.eval ι η = x) (hm : m0.eval ι η = m)
    (hW : (breitWignerWidth s m0 g0 m1 m2 L d ph).eval ι η = W) :
    let A := (breitWigner s m0 g0 m1 m2 L d ph).eval ι η
    A.im = m * W * ‖A‖ ^ 2 ∧
    (m * W ≠ 0 → ‖((m * W : ℝ) : ℂ) * A - Complex.I / 2‖ = 1 / 2) :=
  C99_optical_theorem ι η s m0 (breitWignerWidth s m0 g0 m1 m2 L d ph) x m W hs hm hW

/-- **C99** `MultichannelBreitWigner`: the imaginary part is the sum over the channels of their rates
`m0 Γ_c(s) |A|²`. If the widths are not negative, neither is the imaginary part, and no
channel has a rate greater than `Im A`. -/
theorem C99_multichannel (ι : Interp) (η : Sym → ℚ) (s m0 : Expr) (cs : List ChannelArguments) (x m : ℝ)
    (w : ChannelArguments → ℝ) (hs : s.eval ι η = x) (hm : m0.eval ι η = m)
    (hw : ∀ c ∈ cs, channelWidth ι η c = w c) :
    let A := (multichannelBreitWigner s m0 cs).eval ι η
    A.im = (cs.map fun c => m * w c * ‖A‖ ^ 2).sum ∧
    (0 ≤ m → (∀ c ∈ cs, 0 ≤ w c) → 0 ≤ A.im ∧ ∀ c ∈ cs, m * w c * ‖A‖ ^ 2 ≤ A.im) := by
  intro A
  have hsum : (cs.map (channelWidth ι η)).sum = (((cs.map w).sum : ℝ) : ℂ) := by
    clear_value A
    induction cs with
    | nil => simp
    | cons c t ih =>
      simp only [List.map_cons, List.sum_cons, Complex.ofReal_add]
      rw [hw c (by simp), ih fun c hc => hw c (by simp [hc])]
  have hA : A = breitWignerValue x m ((cs.map w).sum : ℝ) := by
    rw [← hsum, ← hs, ← hm]; exact C39_sum_of_widths ι η s m0 cs
  have him : A.im = (cs.map fun c => m * w c * ‖A‖ ^ 2).sum := by
    rw [List.sum_map_mul_right, List.sum_map_mul_left]
    rw [hA]; exact value _ _ _
  refine ⟨him, fun h0 hpos => ?_⟩
  have hnn : ∀ y ∈ cs.map (fun c => m * w c * ‖A‖ ^ 2), 0 ≤ y := by
    simp only [List.mem_map]
    rintro _ ⟨c, hc, rfl⟩
    exact mul_nonneg (mul_nonneg h0 (hpos c hc)) (sq_nonneg _)
  rw [him]
  exact ⟨List.sum_nonneg hnn, fun c hc => List.single_le_sum hnn _ (List.mem_map_of_mem hc)⟩

/-- **C99** `FlattéSWave` for `s > 0`. Above both thresholds (all momenta real) the imaginary part is the
sum of the rates of both channels; below the threshold of the second channel (its momentum is
`iκ`) only the first channel contributes. -/
theorem C99_flatte (ι : Interp) (η : Sym → ℚ) (s m0 g1 g2 ma1 mb1 ma2 mb2 : Expr) (x m γ1 γ2 p p0 : ℝ)
    (hx : 0 < x) (hs : s.eval ι η = x) (hm : m0.eval ι η = m) (h1 : g1.eval ι η = γ1)
    (h2 : g2.eval ι η = γ2) (hp : ι.bmom x (ma1.eval ι η) (mb1.eval ι η) = p)
    (hp0 : ι.bmom ((m : ℂ) ^ 2) (ma2.eval ι η) (mb2.eval ι η) = p0) :
    let A := (flatteSWave s m0 g1 g2 ma1 mb1 ma2 mb2).eval ι η
    let rate := fun γ k : ℝ => m * (γ * (k / p0 * m / Real.sqrt x)) * ‖A‖ ^ 2
    (∀ q : ℝ, ι.bmom x (ma2.eval ι η) (mb2.eval ι η) = q → A.im = rate γ1 p + rate γ2 q) ∧
    (∀ κ : ℝ, ι.bmom x (ma2.eval ι η) (mb2.eval ι η) = Complex.I * κ → A.im = rate γ1 p) := by
  intro A rate
  have hroot : (x : ℂ) ^ (1 / 2 : ℂ) = (Real.sqrt x : ℂ) := by
    rw [Real.sqrt_eq_rpow, Complex.ofReal_cpow hx.le]; norm_num
  have hA : A = breitWignerValue x m (γ1 * ((p : ℂ) / p0 * m / Real.sqrt x) +
      γ2 * (ι.bmom x (ma2.eval ι η) (mb2.eval ι η) / p0 * m / Real.sqrt x)) := by
    have := C40_closed_form ι η s m0 g1 g2 ma1 mb1 ma2 mb2
    simp only [hs, hm, h1, h2, hp, hp0, hroot] at this
    exact this
  constructor
  · intro q hq
    rw [hq] at hA
    have hA' : A = breitWignerValue x m ((γ1 * (p / p0 * m / Real.sqrt x) +
        γ2 * (q / p0 * m / Real.sqrt x) : ℝ) : ℂ) := by rw [hA]; push_cast; rfl
    have := value x m (γ1 * (p / p0 * m / Real.sqrt x) + γ2 * (q / p0 * m / Real.sqrt x))
    rw [← hA'] at this
    rw [this]
    simp only [rate]
    ring
  · intro κ hκ
    rw [hκ] at hA
    have hA' : A = breitWignerValue ((x - m * (γ2 * (κ / p0 * m / Real.sqrt x)) : ℝ) : ℂ) m
        ((γ1 * (p / p0 * m / Real.sqrt x) : ℝ) : ℂ) := by
      rw [hA]
      simp only [breitWignerValue]
      congr 1
      push_cast
      linear_combination -(m * (γ2 * (κ / p0 * m / Real.sqrt x)) : ℂ) * Complex.I_sq
    have := value (x - m * (γ2 * (κ / p0 * m / Real.sqrt x))) m (γ1 * (p / p0 * m / Real.sqrt x))
    rw [← hA'] at this
    exact this

/-- **C99** `BuggBreitWigner` for real parameters: `Im A = g²(s) |A|²`, which changes its sign at the
Adler zero. -/
theorem C99_bugg (ι : Interp) (η : Sym → ℚ) (s m0 g0 m1 m2 γ : Expr) (x m Γ a b g : ℝ)
    (hs : s.eval ι η = x) (hm : m0.eval ι η = m) (hg : g0.eval ι η = Γ) (ha : m1.eval ι η = a)
    (hb : m2.eval ι η = b) (hγ : γ.eval ι η = g) :
    let A := (buggBreitWigner s m0 g0 m1 m2 γ).eval ι η
    let sA := a ^ 2 - b ^ 2 / 2
    A.im = (x - sA) / (m ^ 2 - sA) * (m * Γ * Real.exp (-g * x)) * ‖A‖ ^ 2 ∧
    (0 < m * Γ → sA < m ^ 2 → sA < x → 0 < A.im) ∧
    (0 < m * Γ → sA < m ^ 2 → x < sA → A.im < 0) := by
  intro A sA
  set W : ℝ := (x - sA) / (m ^ 2 - sA) * (m * Γ * Real.exp (-g * x)) with hW
  have hval : A = breitWignerValue ((x + 1 - m ^ 2 : ℝ) : ℂ) ((1 : ℝ) : ℂ) (W : ℂ) := by
    show (buggBreitWigner s m0 g0 m1 m2 γ).eval ι η = _
    rw [C68_bugg_closed_form, hs, hm, hg, ha, hb, hγ, hW, breitWignerValue]
    push_cast [sA]
    congr 1
    ring
  have h1 : A.im = W * ‖A‖ ^ 2 := by
    have := value (x + 1 - m ^ 2) 1 W
    rw [← hval] at this
    rw [this, one_mul]
  have hne : W ≠ 0 → 0 < ‖A‖ ^ 2 := by
    intro h
    rw [hval, inv_normSq]
    positivity
  have he := Real.exp_pos (-g * x)
  refine ⟨h1, fun hp hm hx => ?_, fun hp hm hx => ?_⟩
  · have : 0 < W := mul_pos (div_pos (by linarith) (by linarith)) (mul_pos hp he)
    rw [h1]
    exact mul_pos this (hne this.ne')
  · have : W < 0 := mul_neg_of_neg_of_pos (div_neg_of_neg_of_pos (by linarith) (by linarith))
      (mul_pos hp he)
    rw [h1]
    exact mul_neg_of_neg_of_pos this (hne this.ne)

/-- **C99** `BreitWignerMinL` with real form factors, whose ratios have the product `r`, and with a
width `W` that is real at `s`: `r Im A = m0 W |A|²`. -/
theorem C99_min_l (ι : Interp) (η : Sym → ℚ) (s mTop mSpec m0 g0 m1 m2 rD rP : Expr) (lD lP : ℤ)
    (ph : String) (x m W r : ℝ) (hs : s.eval ι η = x) (hm : m0.eval ι η = m)
    (hW : ι.edw ph x m (g0.eval ι η) (m1.eval ι η) (m2.eval ι η) lD (rD.eval ι η) = W)
    (hr : ι.ff (mTop.eval ι η ^ 2) ((x : ℂ) ^ (1 / 2 : ℂ)) (mSpec.eval ι η) lP (rP.eval ι η) /
        ι.ff (mTop.eval ι η ^ 2) m (mSpec.eval ι η) lP (rP.eval ι η) *
      (ι.ff x (m1.eval ι η) (m2.eval ι η) lD (rD.eval ι η) /
        ι.ff ((m : ℂ) ^ 2) (m1.eval ι η) (m2.eval ι η) lD (rD.eval ι η)) = r) :
    let A := (breitWignerMinL s mTop mSpec m0 g0 m1 m2 lD lP rD rP ph).eval ι η
    r * A.im = m * W * ‖A‖ ^ 2 := by
  intro A
  have hA : A = (r : ℂ) * breitWignerValue x m W := by
    show (breitWignerMinL s mTop mSpec m0 g0 m1 m2 lD lP rD rP ph).eval ι η = _
    rw [← hr]
    simp only [breitWignerMinL, eval_mul, eval_div, eval_sub, eval_pow, Expr.eval, hs, hm, hW,
      breitWignerValue]
    ring
  rw [hA, Complex.im_ofReal_mul, value, norm_mul, mul_pow, Complex.norm_real, Real.norm_eq_abs, sq_abs]
  ring

/-! ### Examples -/

/-- `s = 9`, `m0 = 3` and `Γ = 2`. -/
example :
    let A := (simpleBreitWigner (.sym ⟨"s", .real⟩) (.sym ⟨"m", .nonneg⟩) (.sym ⟨"g", .rational⟩)).eval
      constInterp (fun _ => 0)
    A.im = 1 / 6 ∧ A.im = 3 * 2 * ‖A‖ ^ 2 ∧ Complex.arg A = Real.pi / 2 := by
  intro A
  have hs : (Expr.sym ⟨"s", .real⟩).eval constInterp (fun _ => 0) = ((9 : ℝ) : ℂ) := by
    norm_num [Expr.eval, constInterp]
  have hm : (Expr.sym ⟨"m", .nonneg⟩).eval constInterp (fun _ => 0) = ((3 : ℝ) : ℂ) := by
    norm_num [Expr.eval, constInterp]
  have hg : (Expr.sym ⟨"g", .rational⟩).eval constInterp (fun _ => 0) = ((2 : ℝ) : ℂ) := by
    norm_num [Expr.eval, constInterp]
  refine ⟨?_, (C99_optical_theorem _ _ _ _ _ 9 3 2 hs hm hg).1,
    (C99_phase _ _ _ _ 3 2 (by norm_num) _ _ _ 9 9 hs hm hg hs hm hg).2.2.2.2 (by norm_num)⟩
  have : A = breitWignerValue (9 : ℝ) (3 : ℝ) (2 : ℝ) := by
    rw [← hs, ← hm, ← hg]; exact (C37_closed_form _ _ _ _ _ 0 0 0 0 "").1
  rw [this, im_value]
  norm_num

/-- Two channels with widths 50 each at `s = 9`, `m0 = 3`: each has half of the rate. -/
example :
    let cs : List ChannelArguments :=
      [⟨1, .sym ⟨"g", .rational⟩, 1, 0, 0, 0, 1⟩, ⟨1, 1, .sym ⟨"g", .rational⟩, 0, 0, 0, 1⟩]
    let A := (multichannelBreitWigner (.sym ⟨"s", .real⟩) (.sym ⟨"m", .nonneg⟩) cs).eval
      constInterp (fun _ => 0)
    A.im = 3 * 50 * ‖A‖ ^ 2 + 3 * 50 * ‖A‖ ^ 2 := by
  intro cs A
  have := (C99_multichannel constInterp (fun _ => 0) (.sym ⟨"s", .real⟩) (.sym ⟨"m", .nonneg⟩) cs 9 3
    (fun _ => 50) (by norm_num [Expr.eval, constInterp]) (by norm_num [Expr.eval, constInterp]) (by
      intro c hc
      simp only [cs, List.mem_cons, List.not_mem_nil, or_false] at hc
      rcases hc with rfl | rfl <;> norm_num [channelWidth, Expr.eval, constInterp])).1
  simpa [cs] using this

/-- An interpretation with breakup momenta 1 for the first channel, and for the second channel 2 at the
pole mass and `i` at `s = 4`, below its threshold. -/
noncomputable def belowThreshold : Interp :=
  { constInterp with
    sym := fun s => if s.asm = .real then 4 else 3
    bmom := fun s m1 _ => if m1 = 1 then 1 else if s = 9 then 2 else Complex.I }

example :
    let A := (flatteSWave (.sym ⟨"s", .real⟩) (.sym ⟨"m", .nonneg⟩) 1 1 1 1 2 2).eval
      belowThreshold (fun _ => 0)
    A.im = 3 * (1 * (1 / 2 * 3 / Real.sqrt 4)) * ‖A‖ ^ 2 := by
  intro A
  exact (C99_flatte belowThreshold (fun _ => 0) (.sym ⟨"s", .real⟩) (.sym ⟨"m", .nonneg⟩) 1 1 1 1 2 2
    4 3 1 1 1 2 (by norm_num) (by simp [Expr.eval, belowThreshold]) (by simp [Expr.eval, belowThreshold])
    (by norm_num) (by norm_num) (by simp [belowThreshold]) (by norm_num [belowThreshold])).2 1
    (by norm_num [belowThreshold])

/-- `s = 9`, `m0 = 3`, `Γ0 = 2`, `m1 = m2 = 1` and γ = 0: above the Adler zero at 1/2. -/
example : 0 < ((buggBreitWigner (.sym ⟨"s", .real⟩) (.sym ⟨"m", .nonneg⟩) (.sym ⟨"g", .rational⟩) 1 1 0).eval
    constInterp (fun _ => 0)).im :=
  (C99_bugg constInterp (fun _ => 0) (.sym ⟨"s", .real⟩) (.sym ⟨"m", .nonneg⟩) (.sym ⟨"g", .rational⟩)
    1 1 0 9 3 2 1 1 0 (by norm_num [Expr.eval, constInterp]) (by norm_num [Expr.eval, constInterp])
    (by norm_num [Expr.eval, constInterp]) (by norm_num) (by norm_num) (by norm_num)).2.1
    (by norm_num) (by norm_num) (by norm_num)

/-- `BreitWignerMinL` with constant form factors. -/
example :
    let A := (breitWignerMinL (.sym ⟨"s", .real⟩) 1 1 (.sym ⟨"m", .nonneg⟩) (.sym ⟨"g", .rational⟩) 1 1
      2 1 1 1 "").eval constInterp (fun _ => 0)
    1 * A.im = 3 * 2 * ‖A‖ ^ 2 :=
  C99_min_l constInterp (fun _ => 0) (.sym ⟨"s", .real⟩) 1 1 (.sym ⟨"m", .nonneg⟩) (.sym ⟨"g", .rational⟩)
    1 1 1 1 2 1 "" 9 3 2 1 (by norm_num [Expr.eval, constInterp]) (by norm_num [Expr.eval, constInterp])
    (by norm_num [Expr.eval, constInterp]) (by norm_num [constInterp])

end Verif.ThreeBody
