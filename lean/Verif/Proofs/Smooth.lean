import Verif.Proofs.Dalitz
import Verif.Proofs.Angles4
import Verif.Proofs.WignerOrtho
import Verif.Spec.Smooth
import Mathlib.Analysis.SpecialFunctions.Sqrt
import Mathlib.Analysis.SpecialFunctions.Trigonometric.InverseDeriv

/-! Helper lemmas for C107. -/
namespace Verif.Angles
open Verif Verif.Spec RExpr
open scoped ContDiff Topology

variable {X : Type*} [NormedAddCommGroup X] [NormedSpace ℝ X] {n : WithTop ℕ∞} {ρ : X → Sym → ℝ} {x₀ : X}

theorem _root_.Verif.Spec.SmoothValue.add {a b : RExpr} (ha : SmoothValue n ρ x₀ a) (hb : SmoothValue n ρ x₀ b) :
    SmoothValue n ρ x₀ (a + b) := by
  obtain ⟨f, hf, hf'⟩ := ha
  obtain ⟨g, hg, hg'⟩ := hb
  exact ⟨_, hf.add hg, (hf'.and hg').mono fun x h => eval_add _ h.1 h.2⟩

theorem _root_.Verif.Spec.SmoothValue.sub {a b : RExpr} (ha : SmoothValue n ρ x₀ a) (hb : SmoothValue n ρ x₀ b) :
    SmoothValue n ρ x₀ (a - b) := by
  obtain ⟨f, hf, hf'⟩ := ha
  obtain ⟨g, hg, hg'⟩ := hb
  exact ⟨_, hf.sub hg, (hf'.and hg').mono fun x h => eval_sub _ h.1 h.2⟩

theorem _root_.Verif.Spec.SmoothValue.mul {a b : RExpr} (ha : SmoothValue n ρ x₀ a) (hb : SmoothValue n ρ x₀ b) :
    SmoothValue n ρ x₀ (a * b) := by
  obtain ⟨f, hf, hf'⟩ := ha
  obtain ⟨g, hg, hg'⟩ := hb
  exact ⟨_, hf.mul hg, (hf'.and hg').mono fun x h => eval_mul _ h.1 h.2⟩

theorem _root_.Verif.Spec.SmoothValue.pow {a : RExpr} (ha : SmoothValue n ρ x₀ a) (k : ℕ) : SmoothValue n ρ x₀ (a ^ k) := by
  obtain ⟨f, hf, hf'⟩ := ha
  exact ⟨_, hf.pow k, hf'.mono fun x h => eval_pow _ h⟩

theorem _root_.Verif.Spec.SmoothValue.neg {a : RExpr} (ha : SmoothValue n ρ x₀ a) : SmoothValue n ρ x₀ (-a) := by
  obtain ⟨f, hf, hf'⟩ := ha
  exact ⟨_, hf.neg, hf'.mono fun x h => eval_neg _ h⟩

theorem _root_.Verif.Spec.SmoothValue.num (k : ℕ) : SmoothValue n ρ x₀ (OfNat.ofNat k : RExpr) :=
  ⟨_, contDiffAt_const, .of_forall fun x => eval_num _⟩

theorem _root_.Verif.Spec.SmoothValue.kallen {a b c : RExpr} (ha : SmoothValue n ρ x₀ a) (hb : SmoothValue n ρ x₀ b)
    (hc : SmoothValue n ρ x₀ c) : SmoothValue n ρ x₀ (RExpr.kallen a b c) := by
  obtain ⟨f, hf, hf'⟩ := ha
  obtain ⟨g, hg, hg'⟩ := hb
  obtain ⟨k, hk, hk'⟩ := hc
  refine ⟨fun x => kallenR (f x) (g x) (k x), ?_, ((hf'.and hg').and hk').mono fun x h => eval_kallen _ h.1.1 h.1.2 h.2⟩
  unfold kallenR
  exact (((((hf.pow 2).add (hg.pow 2)).add (hk.pow 2)).sub ((contDiffAt_const.mul hf).mul hg)).sub
    ((contDiffAt_const.mul hg).mul hk)).sub ((contDiffAt_const.mul hk).mul hf)

/-- An angle is smooth if it is strictly between 0 and π. -/
theorem _root_.Verif.Spec.SmoothValue.acosRatio {N a b : RExpr} (hN : SmoothValue n ρ x₀ N) (ha : SmoothValue n ρ x₀ a)
    (hb : SmoothValue n ρ x₀ b)
    (h : ∃ v, (Angles.acosRatio N a b).eval (ρ x₀) = some v ∧ 0 < v ∧ v < Real.pi) : SmoothValue n ρ x₀ (Angles.acosRatio N a b) := by
  obtain ⟨f, hf, hf'⟩ := hN
  obtain ⟨g, hg, hg'⟩ := ha
  obtain ⟨k, hk, hk'⟩ := hb
  have e1 := hf'.self_of_nhds
  have e2 := hg'.self_of_nhds
  have e3 := hk'.self_of_nhds
  obtain ⟨v, hv, v0, v1⟩ := h
  have key : 0 < g x₀ ∧ 0 < k x₀ ∧ f x₀ ^ 2 < g x₀ * k x₀ := by
    change eval (ρ x₀) (.acos (.div N (.mul (.sqrt a) (.sqrt b)))) = _ at hv
    simp only [eval, e1, e2, e3, Option.bind_eq_bind, Option.bind_some] at hv
    by_cases ga : g x₀ < 0
    · simp [ga] at hv
    by_cases gb : k x₀ < 0
    · simp [ga, gb] at hv
    simp only [ga, gb, if_false, Option.bind_some] at hv
    by_cases g0 : √(g x₀) * √(k x₀) = 0
    · simp [g0] at hv
    simp only [g0, if_false, Option.bind_some] at hv
    by_cases hr : -1 ≤ f x₀ / (√(g x₀) * √(k x₀)) ∧ f x₀ / (√(g x₀) * √(k x₀)) ≤ 1
    · rw [if_pos hr, Option.some.injEq] at hv
      have p1 : 0 < √(g x₀) := lt_of_le_of_ne (Real.sqrt_nonneg _) fun h => g0 (by rw [← h, zero_mul])
      have p2 : 0 < √(k x₀) := lt_of_le_of_ne (Real.sqrt_nonneg _) fun h => g0 (by rw [← h, mul_zero])
      have q1 := Real.sqrt_pos.1 p1
      have q2 := Real.sqrt_pos.1 p2
      refine ⟨q1, q2, ?_⟩
      have r1 : f x₀ / (√(g x₀) * √(k x₀)) < 1 := by
        refine lt_of_le_of_ne hr.2 fun h => ?_
        rw [h, Real.arccos_one] at hv
        linarith
      have r2 : -1 < f x₀ / (√(g x₀) * √(k x₀)) := by
        refine lt_of_le_of_ne hr.1 fun h => ?_
        rw [← h, Real.arccos_neg_one] at hv
        linarith
      have hs := mul_pos p1 p2
      have habs := abs_lt.2 ⟨r2, r1⟩
      rw [abs_div, abs_of_pos hs, div_lt_one hs] at habs
      have : f x₀ ^ 2 < (√(g x₀) * √(k x₀)) ^ 2 := sq_lt_sq.2 (by rwa [abs_of_pos hs])
      rwa [mul_pow, Real.sq_sqrt q1.le, Real.sq_sqrt q2.le] at this
    · rw [if_neg hr] at hv
      cases hv
  obtain ⟨q1, q2, q3⟩ := key
  have c1 := hg.continuousAt.eventually (lt_mem_nhds q1)
  have c2 := hk.continuousAt.eventually (lt_mem_nhds q2)
  have c3 : ∀ᶠ x in 𝓝 x₀, f x ^ 2 < g x * k x :=
    (hf.continuousAt.pow 2).eventually_lt (hg.continuousAt.mul hk.continuousAt) q3
  refine ⟨fun x => Real.arccos (f x / (√(g x) * √(k x))), ?_, ?_⟩
  · have p1 := Real.sqrt_pos.2 q1
    have p2 := Real.sqrt_pos.2 q2
    have hs := mul_pos p1 p2
    have habs : |f x₀ / (√(g x₀) * √(k x₀))| < 1 := by
      rw [abs_div, abs_of_pos hs, div_lt_one hs]
      apply lt_of_pow_lt_pow_left₀ 2 hs.le
      rwa [sq_abs, mul_pow, Real.sq_sqrt q1.le, Real.sq_sqrt q2.le]
    rw [abs_lt] at habs
    exact ContDiffAt.comp (g := Real.arccos) (f := fun x => f x / (√(g x) * √(k x))) x₀
      (Real.contDiffAt_arccos habs.1.ne' habs.2.ne) (hf.div ((hg.sqrt q1.ne').mul (hk.sqrt q2.ne')) hs.ne')
  · filter_upwards [hf', hg', hk', c1, c2, c3] with x h1 h2 h3 h4 h5 h6
    exact eval_acosRatio _ h1 h2 h3 h4 h5 h6.le

theorem _root_.Verif.Spec.SmoothPoint.massValue (h : SmoothPoint n ρ x₀) {i : ℤ} (hi : i ∈ ([0, 1, 2, 3] : List ℤ)) : SmoothValue n ρ x₀ (m i) :=
  ⟨_, h.mass i hi, .of_forall fun _ => rfl⟩

theorem _root_.Verif.Spec.SmoothPoint.sigmaValue (h : SmoothPoint n ρ x₀) {i : ℤ} (hi : i ∈ ([1, 2, 3] : List ℤ)) : SmoothValue n ρ x₀ (σ i) :=
  ⟨_, h.mandelstam i hi, .of_forall fun _ => rfl⟩

variable {i j k : ℤ}

theorem scat_smooth (h : SmoothPoint n ρ x₀) (hd : DalitzInterior (ρ x₀)) (hp : IsPerm123 i j k) :
    SmoothValue n ρ x₀ (scatE i j k) := by
  obtain ⟨hi, hj, hk⟩ := perm_mem hp
  have m0 := (h.massValue (i := 0) (by simp)).pow 2
  have mi := (h.massValue (mem0 hi)).pow 2
  have mj := (h.massValue (mem0 hj)).pow 2
  have mk := (h.massValue (mem0 hk)).pow 2
  have sj := h.sigmaValue hj
  have sk := h.sigmaValue hk
  exact .acosRatio ((((SmoothValue.num 2).mul sk).mul ((sj.sub mk).sub mi)).sub (((sk.add mi).sub mj).mul ((m0.sub sk).sub mk)))
    (m0.kallen mk sk) (sk.kallen mi mj) (scattering_strict hd hp)

theorem hat_smooth (h : SmoothPoint n ρ x₀) (hd : DalitzInterior (ρ x₀)) (hp : IsPerm123 i j k) :
    SmoothValue n ρ x₀ (hatE i j k) := by
  obtain ⟨hi, hj, hk⟩ := perm_mem hp
  have m0 := (h.massValue (i := 0) (by simp)).pow 2
  have mi := (h.massValue (mem0 hi)).pow 2
  have mj := (h.massValue (mem0 hj)).pow 2
  have si := h.sigmaValue hi
  have sj := h.sigmaValue hj
  have sk := h.sigmaValue hk
  exact .acosRatio ((((m0.add mi).sub si).mul ((m0.add mj).sub sj)).sub (((SmoothValue.num 2).mul m0).mul ((sk.sub mi).sub mj)))
    (m0.kallen mj sj) (m0.kallen si mi) (thetaHat_strict hd hp)

theorem zetaA_smooth (h : SmoothPoint n ρ x₀) (hd : DalitzInterior (ρ x₀)) {a b : ℤ} (hp : IsPerm123 i a b) :
    SmoothValue n ρ x₀ (zetaAE i a b) := by
  obtain ⟨hi, ha, hb⟩ := perm_mem hp
  have m0 := (h.massValue (i := 0) (by simp)).pow 2
  have mi := (h.massValue (mem0 hi)).pow 2
  have ma := (h.massValue (mem0 ha)).pow 2
  have si := h.sigmaValue hi
  have sa := h.sigmaValue ha
  have sb := h.sigmaValue hb
  exact .acosRatio ((((SmoothValue.num 2).mul mi).mul ((sa.sub m0).sub ma)).add
    (((m0.add mi).sub si).mul ((sb.sub mi).sub ma))) (m0.kallen mi si) (sb.kallen mi ma) (zetaA_strict hd hp)

theorem zetaB_smooth (h : SmoothPoint n ρ x₀) (hd : DalitzInterior (ρ x₀)) {a b : ℤ} (hp : IsPerm123 i a b) :
    SmoothValue n ρ x₀ (zetaBE i a b) := by
  obtain ⟨hi, ha, hb⟩ := perm_mem hp
  have mi := (h.massValue (mem0 hi)).pow 2
  have ma := (h.massValue (mem0 ha)).pow 2
  have mb := (h.massValue (mem0 hb)).pow 2
  have si := h.sigmaValue hi
  have sa := h.sigmaValue ha
  have sb := h.sigmaValue hb
  exact .acosRatio ((((SmoothValue.num 2).mul mi).mul ((ma.add mb).sub si)).add
    (((sa.sub mi).sub mb).mul ((sb.sub mi).sub ma))) (sa.kallen mb mi) (sb.kallen mi ma) (zetaB_strict hd hp)

end Verif.Angles

namespace Verif.Wigner
open Polynomial Verif.Spec
open scoped ContDiff

variable {n : WithTop ℕ∞}

/-- All coefficients of a family of polynomials are smooth. -/
def PSmooth (n : WithTop ℕ∞) (p : ℝ → ℝ[X]) : Prop := ∀ k, ContDiff ℝ n fun x => (p x).coeff k

theorem PSmooth.mul {p q : ℝ → ℝ[X]} (hp : PSmooth n p) (hq : PSmooth n q) : PSmooth n fun x => p x * q x := by
  intro k
  simp only [coeff_mul]
  exact ContDiff.sum fun i _ => (hp i.1).mul (hq i.2)

theorem PSmooth.pow {p : ℝ → ℝ[X]} (hp : PSmooth n p) (k : ℕ) : PSmooth n fun x => p x ^ k := by
  induction k with
  | zero => intro i; simp only [pow_zero]; exact contDiff_const
  | succ k ih => simp only [pow_succ]; exact ih.mul hp

theorem contDiff_wignerD (j m m' : ℚ) : ContDiff ℝ n (wignerD j m m') := by
  have hc : ContDiff ℝ n fun x : ℝ => Real.cos (x / 2) := Real.contDiff_cos.comp (contDiff_id.div_const 2)
  have hs : ContDiff ℝ n fun x : ℝ => Real.sin (x / 2) := Real.contDiff_sin.comp (contDiff_id.div_const 2)
  have key : ∀ N a b, ContDiff ℝ n (mat N a b) := by
    intro N a b
    have h1 : PSmooth n fun x => C (Real.cos (x / 2)) * Polynomial.X - C (Real.sin (x / 2)) := by
      intro k
      simp only [coeff_sub, coeff_C_mul, coeff_C]
      refine (hc.mul contDiff_const).sub ?_
      split
      · exact hs
      · exact contDiff_const
    have h2 : PSmooth n fun x => C (Real.sin (x / 2)) * Polynomial.X + C (Real.cos (x / 2)) := by
      intro k
      simp only [coeff_add, coeff_C_mul, coeff_C]
      refine (hs.mul contDiff_const).add ?_
      split
      · exact hc
      · exact contDiff_const
    exact ((h1.pow a).mul (h2.pow (N - a))) b
  unfold wignerD dmat
  exact contDiff_const.mul (key _ _ _)

end Verif.Wigner
