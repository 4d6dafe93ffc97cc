import Verif.Model.Dynamics
import Verif.Spec.Dynamics
import Verif.Props.Amplitude
import Verif.Proofs.Names
import Mathlib.Analysis.SpecialFunctions.Pow.Real

/-! Properties C37-C42: lineshapes and `BreitWignerBuilder`. -/
set_option linter.unusedSimpArgs false

namespace Verif.ThreeBody
open Verif Verif.Spec

namespace Lineshape
variable {ι : Interp} {η : Sym → ℚ}

@[simp] theorem eval_add (a b : Expr) : (a + b).eval ι η = a.eval ι η + b.eval ι η := rfl
@[simp] theorem eval_sub (a b : Expr) : (a - b).eval ι η = a.eval ι η - b.eval ι η := rfl
@[simp] theorem eval_mul (a b : Expr) : (a * b).eval ι η = a.eval ι η * b.eval ι η := rfl
@[simp] theorem eval_div (a b : Expr) : (a / b).eval ι η = a.eval ι η / b.eval ι η := rfl
@[simp] theorem eval_neg (a : Expr) : (-a).eval ι η = -a.eval ι η := rfl
@[simp] theorem eval_pow (a : Expr) (n : ℕ) : (a ^ n).eval ι η = a.eval ι η ^ n := rfl
@[simp] theorem eval_ofNat (n : ℕ) [n.AtLeastTwo] :
    (ofNat(n) : Expr).eval ι η = (ofNat(n) : ℂ) := by
  show (((OfNat.ofNat n : ℕ) : ℚ) : ℂ) = _
  simp
@[simp] theorem eval_one : (1 : Expr).eval ι η = 1 := by
  show ((1 : ℕ) : ℚ) = (1 : ℂ); simp
@[simp] theorem eval_zero : (0 : Expr).eval ι η = 0 := by
  show (((0 : ℕ) : ℚ) : ℂ) = 0; simp

theorem denom_ne {s m Γ : ℝ} (h : m * Γ ≠ 0) :
    ((m : ℂ) ^ 2 - s - Complex.I * m * Γ) ≠ 0 := by
  intro h0
  apply h
  have := congrArg Complex.im h0
  simpa [← Complex.ofReal_pow, Complex.mul_im, Complex.mul_re] using this

theorem denom_normSq (s m Γ : ℝ) :
    Complex.normSq ((m : ℂ) ^ 2 - s - Complex.I * m * Γ) = (m ^ 2 - s) ^ 2 + (m * Γ) ^ 2 := by
  rw [Complex.normSq_apply]
  simp [← Complex.ofReal_pow, Complex.mul_im, Complex.mul_re]
  ring

end Lineshape
open Lineshape

/-! ### C37 -/

/-- **C37** `SimpleBreitWigner` is `1/(m0² - s - i m0 Γ0)` and `BreitWigner` is the same function, with the
constant width iff `L = 0` and both masses are literally 0, and the energy-dependent width
otherwise. -/
theorem C37_closed_form (ι : Interp) (η : Sym → ℚ) (s m0 g0 m1 m2 d : Expr) (L : ℤ) (ph : String) :
    (simpleBreitWigner s m0 g0).eval ι η =
      breitWignerValue (s.eval ι η) (m0.eval ι η) (g0.eval ι η) ∧
    (L = 0 ∧ m1 = .num 0 ∧ m2 = .num 0 → (breitWigner s m0 g0 m1 m2 L d ph).eval ι η =
      breitWignerValue (s.eval ι η) (m0.eval ι η) (g0.eval ι η)) ∧
    (¬ (L = 0 ∧ m1 = .num 0 ∧ m2 = .num 0) → (breitWigner s m0 g0 m1 m2 L d ph).eval ι η =
      breitWignerValue (s.eval ι η) (m0.eval ι η) (ι.edw ph (s.eval ι η) (m0.eval ι η) (g0.eval ι η)
        (m1.eval ι η) (m2.eval ι η) L (d.eval ι η))) := by
  have key : ∀ g : Expr, (simpleBreitWigner s m0 g).eval ι η =
      breitWignerValue (s.eval ι η) (m0.eval ι η) (g.eval ι η) := by
    intro g
    simp only [simpleBreitWigner, breitWignerValue, eval_div, eval_one, eval_sub, eval_pow, eval_mul,
      Expr.eval]
    rw [show ((((1 : ℕ) : ℚ)) : ℂ) = 1 by simp, show Complex.I * m0.eval ι η * g.eval ι η = m0.eval ι η * g.eval ι η * Complex.I by ring]
  have z : (0 : Expr) = .num 0 := by
    show Expr.num ((0 : ℕ) : ℚ) = _; simp
  refine ⟨key g0, fun h => ?_, fun h => ?_⟩
  · simp only [breitWigner, breitWignerWidth, z, if_pos h, key]
  · simp only [breitWigner, breitWignerWidth, z, if_neg h, key]; rfl

/-- **C37** For real arguments with `m0 Γ ≠ 0` the denominator does not vanish on the real axis, and the
modulus is at most `1/|m0 Γ|`, with equality iff `s = m0²`. -/
theorem C37_bounded (s m Γ : ℝ) (h : m * Γ ≠ 0) :
    (m : ℂ) ^ 2 - s - Complex.I * m * Γ ≠ 0 ∧
    ‖breitWignerValue s m Γ‖ ≤ 1 / |m * Γ| ∧
    (‖breitWignerValue s m Γ‖ = 1 / |m * Γ| ↔ s = m ^ 2) := by
  have hd := denom_ne (s := s) h
  have hp : 0 < |m * Γ| := abs_pos.2 h
  have hn := denom_normSq s m Γ
  have hN : 0 < ‖(m : ℂ) ^ 2 - s - Complex.I * m * Γ‖ := norm_pos_iff.2 hd
  have hsq : ‖(m : ℂ) ^ 2 - s - Complex.I * m * Γ‖ ^ 2 = (m ^ 2 - s) ^ 2 + |m * Γ| ^ 2 := by
    rw [← Complex.normSq_eq_norm_sq, hn, sq_abs]
  have hle : |m * Γ| ≤ ‖(m : ℂ) ^ 2 - s - Complex.I * m * Γ‖ := by
    apply le_of_sq_le_sq _ hN.le
    rw [hsq]; nlinarith [sq_nonneg (m ^ 2 - s)]
  have hv : ‖breitWignerValue s m Γ‖ = 1 / ‖(m : ℂ) ^ 2 - s - Complex.I * m * Γ‖ := by
    simp [breitWignerValue]
  refine ⟨hd, ?_, ?_⟩
  · rw [hv]; exact one_div_le_one_div_of_le hp hle
  · rw [hv, one_div, one_div, inv_inj]
    constructor
    · intro he
      rw [he] at hsq
      have : (m ^ 2 - s) ^ 2 = 0 := by linarith
      have := pow_eq_zero_iff (two_ne_zero) |>.1 this
      linarith
    · rintro rfl
      have : ‖(m : ℂ) ^ 2 - ((m ^ 2 : ℝ) : ℂ) - Complex.I * m * Γ‖ ^ 2 = |m * Γ| ^ 2 := by
        rw [hsq]; ring
      exact (pow_left_inj₀ (norm_nonneg _) (abs_nonneg _) two_ne_zero).1 this

example : ((3 : ℝ) * (1 / 10) : ℝ) ≠ 0 ∧ ‖breitWignerValue (9 : ℝ) (3 : ℝ) (1 / 10 : ℝ)‖ = 10 / 3 := by
  refine ⟨by norm_num, ?_⟩
  rw [(C37_bounded 9 3 (1 / 10) (by norm_num)).2.2.2 (by norm_num)]
  norm_num [abs_of_pos]

/-! ### C38 -/

/-- **C38** At the pole mass, `RelativisticBreitWigner` is `i`: only the normalisation of the
energy-dependent width is needed. -/
theorem C38_relativistic_normalised (ι : Interp) (η : Sym → ℚ) (s m0 w0 m1 m2 R : Expr) (L : ℤ)
    (ph : String) (hs : s.eval ι η = m0.eval ι η ^ 2) (hm : m0.eval ι η ≠ 0)
    (hw : w0.eval ι η ≠ 0)
    (hwidth : ι.edw ph (s.eval ι η) (m0.eval ι η) (w0.eval ι η) (m1.eval ι η) (m2.eval ι η) L
      (R.eval ι η) = w0.eval ι η) :
    (relativisticBreitWigner s m0 w0 m1 m2 L R ph).eval ι η = Complex.I := by
  simp only [relativisticBreitWigner, eval_div, eval_mul, eval_sub, eval_pow, Expr.eval, hwidth]
  rw [hs]
  have : m0.eval ι η ^ 2 - m0.eval ι η ^ 2 - w0.eval ι η * m0.eval ι η * Complex.I =
    -(w0.eval ι η * m0.eval ι η * Complex.I) := by ring
  rw [this, div_eq_iff (by simp [hm, hw])]
  linear_combination (m0.eval ι η * w0.eval ι η) * Complex.I_sq

/-- The square root of the square of a non-negative number. -/
theorem sqrt_sq {m : ℝ} (h : 0 ≤ m) : ((m : ℂ) ^ 2) ^ (1 / 2 : ℂ) = m := by
  have := Complex.ofReal_cpow (x := m ^ 2) (sq_nonneg m) (1 / 2 : ℝ)
  rw [← Real.sqrt_eq_rpow, Real.sqrt_sq h] at this
  conv_rhs => rw [this]
  push_cast; rfl

/-- **C38** At the pole mass, `BreitWignerMinL` is `i/(m0 Γ0)`, for every form factor that does not vanish
there. -/
theorem C38_minL_normalised (ι : Interp) (η : Sym → ℚ) (s mTop mSpec m0 g0 m1 m2 rD rP : Expr)
    (lD lP : ℤ) (ph : String) (m : ℝ) (hm0 : m0.eval ι η = m) (hm : 0 < m)
    (hs : s.eval ι η = m0.eval ι η ^ 2) (hg : g0.eval ι η ≠ 0)
    (hwidth : ι.edw ph (s.eval ι η) (m0.eval ι η) (g0.eval ι η) (m1.eval ι η) (m2.eval ι η) lD
      (rD.eval ι η) = g0.eval ι η)
    (hD : ι.ff (s.eval ι η) (m1.eval ι η) (m2.eval ι η) lD (rD.eval ι η) ≠ 0)
    (hP : ι.ff (mTop.eval ι η ^ 2) (m0.eval ι η) (mSpec.eval ι η) lP (rP.eval ι η) ≠ 0) :
    (breitWignerMinL s mTop mSpec m0 g0 m1 m2 lD lP rD rP ph).eval ι η =
      Complex.I / (m0.eval ι η * g0.eval ι η) := by
  have hm' : (m : ℂ) ≠ 0 := by exact_mod_cast hm.ne'
  simp only [breitWignerMinL, eval_mul, eval_div, eval_sub, eval_pow, eval_one, Expr.eval, hwidth]
  rw [hs, hm0] at *
  rw [sqrt_sq hm.le, div_self hP, div_self hD]
  field_simp
  linear_combination g0.eval ι η * Complex.I_sq

/-- **C38** With a real width `W` at `s`, `|A|² W = Γ0 Im A`; so `|A|² = Im A` iff the width there is
`Γ0` or the amplitude is trivial. -/
theorem C38_unitarity (ι : Interp) (η : Sym → ℚ) (s m0 w0 m1 m2 R : Expr) (L : ℤ) (ph : String)
    (x m Γ W : ℝ) (hs : s.eval ι η = x) (hm : m0.eval ι η = m) (hw : w0.eval ι η = Γ)
    (hwidth : ι.edw ph x m Γ (m1.eval ι η) (m2.eval ι η) L (R.eval ι η) = W) :
    let A := (relativisticBreitWigner s m0 w0 m1 m2 L R ph).eval ι η
    ‖A‖ ^ 2 * W = Γ * A.im ∧ (W = Γ → ‖A‖ ^ 2 = A.im) := by
  intro A
  have hA : A = ((m * Γ : ℝ) : ℂ) / ((m : ℂ) ^ 2 - x - Complex.I * m * W) := by
    simp only [A, relativisticBreitWigner, eval_div, eval_mul, eval_sub, eval_pow, Expr.eval, hs, hm,
      hw, hwidth]
    push_cast
    congr 2; ring
  have h1 : ‖A‖ ^ 2 = (m * Γ) ^ 2 / ((m ^ 2 - x) ^ 2 + (m * W) ^ 2) := by
    rw [← Complex.normSq_eq_norm_sq, hA, Complex.normSq_div, denom_normSq, Complex.normSq_ofReal]
    ring
  have h2 : A.im = m * Γ * (m * W) / ((m ^ 2 - x) ^ 2 + (m * W) ^ 2) := by
    rw [hA, Complex.div_im, denom_normSq]
    simp [← Complex.ofReal_pow, Complex.mul_im, Complex.mul_re]
    ring
  constructor
  · rw [h1, h2]; ring
  · rintro rfl; rw [h1, h2]; ring

/-- An interpretation with a constant width and constant form factors. -/
noncomputable def constInterp : Interp where
  sym s := match s.asm with
    | .real => 9
    | .nonneg => 3
    | .rational => 2
    | .none => 1
  idx _ _ _ := 1
  wig _ _ _ _ := 1
  cg _ _ _ _ _ _ := 1
  ff _ _ _ _ _ := 5
  edw _ _ _ g _ _ _ _ := g
  bmom _ _ _ := 1

example : (breitWignerMinL (.sym ⟨"s", .real⟩) 1 1 (.sym ⟨"m", .nonneg⟩) (.sym ⟨"g", .rational⟩) 1 1 2 1 1 1
    "").eval constInterp (fun _ => 0) = Complex.I / 6 := by
  rw [C38_minL_normalised constInterp _ _ _ _ _ _ _ _ _ _ _ _ _ 3]
  · norm_num [Expr.eval, constInterp]
  all_goals norm_num [Expr.eval, constInterp]

example : (relativisticBreitWigner (.sym ⟨"s", .real⟩) (.sym ⟨"m", .nonneg⟩) (.sym ⟨"g", .rational⟩) 1 1 2 1
    "").eval constInterp (fun _ => 0) = Complex.I := by
  apply C38_relativistic_normalised <;> norm_num [Expr.eval, constInterp]

/-! ### C39 -/

/-- Value of the width of a channel: `Γ_k m_k / √s · F_k²`. -/
noncomputable def channelWidth (ι : Interp) (η : Sym → ℚ) (c : ChannelArguments) : ℂ :=
  c.width.eval ι η * c.m0.eval ι η / c.s.eval ι η ^ (1 / 2 : ℂ) *
    ι.ff (c.s.eval ι η) (c.m1.eval ι η) (c.m2.eval ι η) c.L (c.R.eval ι η) ^ 2

theorem multichannelWidth_eval (ι : Interp) (η : Sym → ℚ) (cs : List ChannelArguments) (a : Expr) :
    (cs.foldl (fun acc c => acc + c.evaluate) a).eval ι η =
      a.eval ι η + (cs.map (channelWidth ι η)).sum := by
  induction cs generalizing a with
  | nil => simp
  | cons c t ih =>
    rw [List.foldl_cons, ih]
    simp [ChannelArguments.evaluate, channelWidth, Expr.eval]
    ring

/-- **C39** `MultichannelBreitWigner` is a Breit-Wigner whose width is the sum of the widths of its
channels. -/
theorem C39_sum_of_widths (ι : Interp) (η : Sym → ℚ) (s m0 : Expr) (cs : List ChannelArguments) :
    (multichannelBreitWigner s m0 cs).eval ι η =
      breitWignerValue (s.eval ι η) (m0.eval ι η) ((cs.map (channelWidth ι η)).sum) := by
  unfold multichannelBreitWigner
  rw [(C37_closed_form ι η s m0 _ 0 0 1 0 _).2.1 ⟨rfl, by
    show Expr.num ((0 : ℕ) : ℚ) = _; simp, by show Expr.num ((0 : ℕ) : ℚ) = _; simp⟩]
  unfold multichannelWidth
  rw [multichannelWidth_eval]
  simp

/-- **C39** The order of the channels does not matter. -/
theorem C39_order_irrelevant (ι : Interp) (η : Sym → ℚ) (s m0 : Expr) {cs cs' : List ChannelArguments}
    (h : cs.Perm cs') :
    (multichannelBreitWigner s m0 cs).eval ι η = (multichannelBreitWigner s m0 cs').eval ι η := by
  rw [C39_sum_of_widths, C39_sum_of_widths, (h.map _).sum_eq]

/-- **C39** With non-negative channel widths of which one is positive, and a non-zero mass, the
denominator does not vanish on the real axis. -/
theorem C39_no_real_pole (ι : Interp) (η : Sym → ℚ) (s m0 : Expr) (cs : List ChannelArguments)
    (x m : ℝ) (w : ChannelArguments → ℝ) (hs : s.eval ι η = x) (hm : m0.eval ι η = m) (hm0 : m ≠ 0)
    (hw : ∀ c ∈ cs, channelWidth ι η c = w c) (hpos : ∀ c ∈ cs, 0 ≤ w c) (hex : ∃ c ∈ cs, 0 < w c) :
    (m : ℂ) ^ 2 - x - Complex.I * m * (cs.map (channelWidth ι η)).sum ≠ 0 ∧
    (multichannelBreitWigner s m0 cs).eval ι η ≠ 0 ∧
    ‖(multichannelBreitWigner s m0 cs).eval ι η‖ ≤ 1 / (|m| * (cs.map w).sum) := by
  have hsum : (cs.map (channelWidth ι η)).sum = (((cs.map w).sum : ℝ) : ℂ) := by
    clear hpos hex
    induction cs with
    | nil => simp
    | cons c t ih =>
      simp only [List.map_cons, List.sum_cons, Complex.ofReal_add]
      rw [hw c (by simp), ih fun c hc => hw c (by simp [hc])]
  have hp : 0 < (cs.map w).sum := by
    clear hw hsum
    induction cs with
    | nil => obtain ⟨c, hc, -⟩ := hex; simp at hc
    | cons c t ih =>
      simp only [List.map_cons, List.sum_cons]
      have ht : 0 ≤ (t.map w).sum := List.sum_nonneg (by
        simp only [List.mem_map]; rintro _ ⟨c, hc, rfl⟩; exact hpos c (by simp [hc]))
      obtain ⟨c', hc', h'⟩ := hex
      rcases List.mem_cons.1 hc' with rfl | hc'
      · linarith
      · have := ih (fun c hc => hpos c (by simp [hc])) ⟨c', hc', h'⟩
        linarith [hpos c (by simp)]
  have hne : m * (cs.map w).sum ≠ 0 := mul_ne_zero hm0 hp.ne'
  obtain ⟨h1, h2, -⟩ := C37_bounded x m (cs.map w).sum hne
  rw [C39_sum_of_widths, hsum, hs, hm]
  refine ⟨h1, ?_, ?_⟩
  · exact one_div_ne_zero h1
  · rwa [abs_mul, abs_of_pos hp] at h2

example : ∃ cs : List ChannelArguments, cs.length = 2 ∧
    (∀ c ∈ cs, channelWidth constInterp (fun _ => 0) c = (50 : ℝ)) := by
  refine ⟨[⟨1, .sym ⟨"g", .rational⟩, 1, 0, 0, 0, 1⟩, ⟨1, 1, .sym ⟨"g", .rational⟩, 0, 0, 0, 1⟩], rfl, ?_⟩
  intro c hc
  simp only [List.mem_cons, List.not_mem_nil, or_false] at hc
  rcases hc with rfl | rfl <;> norm_num [channelWidth, Expr.eval, constInterp]

/-! ### C40 -/

/-- **C40** `FlattéSWave` divides both channel momenta by the momentum of the second channel at the pole
mass. -/
theorem C40_closed_form (ι : Interp) (η : Sym → ℚ) (s m0 g1 g2 ma1 mb1 ma2 mb2 : Expr) :
    let x := s.eval ι η
    let m := m0.eval ι η
    let p1 := fun z => ι.bmom z (ma1.eval ι η) (mb1.eval ι η)
    let p2 := fun z => ι.bmom z (ma2.eval ι η) (mb2.eval ι η)
    (flatteSWave s m0 g1 g2 ma1 mb1 ma2 mb2).eval ι η =
      breitWignerValue x m (g1.eval ι η * (p1 x / p2 (m ^ 2) * m / x ^ (1 / 2 : ℂ)) +
        g2.eval ι η * (p2 x / p2 (m ^ 2) * m / x ^ (1 / 2 : ℂ))) := by
  simp only [flatteSWave, breitWignerValue]
  rw [eval_div, eval_one]
  rfl

/-- **C40** At the pole mass the second channel has width `Γ2` and the first `Γ1 p1/p2`. -/
theorem C40_at_pole (ι : Interp) (η : Sym → ℚ) (s m0 g1 g2 ma1 mb1 ma2 mb2 : Expr) (m : ℝ)
    (hm : m0.eval ι η = m) (hpos : 0 < m) (hs : s.eval ι η = m0.eval ι η ^ 2)
    (hp2 : ι.bmom (m ^ 2) (ma2.eval ι η) (mb2.eval ι η) ≠ 0) :
    (flatteSWave s m0 g1 g2 ma1 mb1 ma2 mb2).eval ι η =
      Complex.I / (m * (g1.eval ι η * (ι.bmom (m ^ 2) (ma1.eval ι η) (mb1.eval ι η) /
        ι.bmom (m ^ 2) (ma2.eval ι η) (mb2.eval ι η)) + g2.eval ι η)) := by
  have hm' : (m : ℂ) ≠ 0 := by exact_mod_cast hpos.ne'
  rw [C40_closed_form, hs, hm, sqrt_sq hpos.le, div_self hp2, mul_div_assoc, mul_div_assoc,
    div_self hm', mul_one, mul_one, mul_one]
  generalize g1.eval ι η * _ + _ = G
  simp only [breitWignerValue, sub_self, zero_sub]
  by_cases hG : G = 0
  · subst hG; simp
  · field_simp
    simp [Complex.I_sq]

/-- **C40** So the first width is normalised at the pole (the value there is `i/(m0(Γ1+Γ2))`) iff the
breakup momenta of the two channels coincide. -/
theorem C40_normalised_iff (ι : Interp) (η : Sym → ℚ) (s m0 g1 g2 ma1 mb1 ma2 mb2 : Expr) (m : ℝ)
    (hm : m0.eval ι η = m) (hpos : 0 < m) (hs : s.eval ι η = m0.eval ι η ^ 2)
    (hp2 : ι.bmom (m ^ 2) (ma2.eval ι η) (mb2.eval ι η) ≠ 0) (hg : g1.eval ι η ≠ 0) :
    (flatteSWave s m0 g1 g2 ma1 mb1 ma2 mb2).eval ι η =
      Complex.I / (m * (g1.eval ι η + g2.eval ι η)) ↔
    ι.bmom (m ^ 2) (ma1.eval ι η) (mb1.eval ι η) = ι.bmom (m ^ 2) (ma2.eval ι η) (mb2.eval ι η) := by
  have hm' : (m : ℂ) ≠ 0 := by exact_mod_cast hpos.ne'
  rw [C40_at_pole ι η s m0 g1 g2 ma1 mb1 ma2 mb2 m hm hpos hs hp2]
  rw [div_eq_mul_inv Complex.I, div_eq_mul_inv Complex.I, mul_right_inj' Complex.I_ne_zero, inv_inj,
    mul_right_inj' hm', add_left_inj]
  constructor
  · intro h
    have : ι.bmom (m ^ 2) (ma1.eval ι η) (mb1.eval ι η) /
        ι.bmom (m ^ 2) (ma2.eval ι η) (mb2.eval ι η) = 1 :=
      mul_left_cancel₀ hg (by rw [h, mul_one])
    exact (div_eq_one_iff_eq hp2).1 this
  · intro h; rw [h, div_self hp2, mul_one]

/-- An interpretation in which the two breakup momenta differ: `p(s, 1, 1) ≠ p(s, 2, 2)`. -/
noncomputable def flatteInterp : Interp := { constInterp with bmom := fun s m1 m2 => s - m1 * m2 }

example : (flatteSWave (.sym ⟨"s", .real⟩) (.sym ⟨"m", .nonneg⟩) 1 1 1 1 2 2).eval flatteInterp (fun _ => 0) ≠
    Complex.I / (3 * (1 + 1)) := by
  have := (C40_normalised_iff flatteInterp (fun _ => 0) (.sym ⟨"s", .real⟩) (.sym ⟨"m", .nonneg⟩)
    1 1 1 1 2 2 3 (by norm_num [Expr.eval, flatteInterp, constInterp]) (by norm_num)
    (by norm_num [Expr.eval, flatteInterp, constInterp])
    (by norm_num [flatteInterp, constInterp]) (by norm_num)).not.2
    (by norm_num [flatteInterp, constInterp])
  simpa using this

/-- C39: two channels in both orders. -/
example : (multichannelBreitWigner (.sym ⟨"s", .real⟩) (.sym ⟨"m", .nonneg⟩)
      [⟨1, 1, .sym ⟨"g", .rational⟩, 0, 0, 0, 1⟩, ⟨1, 1, 2, 0, 0, 1, 1⟩]).eval constInterp (fun _ => 0) =
    (multichannelBreitWigner (.sym ⟨"s", .real⟩) (.sym ⟨"m", .nonneg⟩)
      [⟨1, 1, 2, 0, 0, 1, 1⟩, ⟨1, 1, .sym ⟨"g", .rational⟩, 0, 0, 0, 1⟩]).eval constInterp (fun _ => 0) :=
  C39_order_irrelevant _ _ _ _ (.swap _ _ _)

/-- C40: the value at the pole mass. -/
example : (flatteSWave (.sym ⟨"s", .real⟩) (.sym ⟨"m", .nonneg⟩) 1 1 1 1 2 2).eval flatteInterp (fun _ => 0) =
    Complex.I / (3 * (1 * (flatteInterp.bmom (3 ^ 2) 1 1 / flatteInterp.bmom (3 ^ 2) 2 2) + 1)) := by
  have := C40_at_pole flatteInterp (fun _ => 0) (.sym ⟨"s", .real⟩) (.sym ⟨"m", .nonneg⟩) 1 1 1 1 2 2 3
    (by norm_num [Expr.eval, flatteInterp, constInterp]) (by norm_num)
    (by norm_num [Expr.eval, flatteInterp, constInterp]) (by norm_num [Expr.eval, flatteInterp, constInterp])
  rw [this]
  norm_num [Expr.eval]

end Verif.ThreeBody
