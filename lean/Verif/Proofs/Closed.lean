import Verif.Proofs.Region
import Verif.Proofs.Smooth

/-! Helper lemmas for C120. -/
namespace Verif.Angles
open Verif Verif.Spec RExpr

variable {i j k : ℤ}

section
variable {X : Type*} [TopologicalSpace X] {ρ : X → Sym → ℝ} {S : Set X}

theorem _root_.Verif.Spec.ContinuousValue.add {a b : RExpr} (ha : ContinuousValue ρ S a) (hb : ContinuousValue ρ S b) :
    ContinuousValue ρ S (a + b) := by
  obtain ⟨f, hf, hf'⟩ := ha
  obtain ⟨g, hg, hg'⟩ := hb
  exact ⟨_, hf.add hg, fun x h => eval_add _ (hf' x h) (hg' x h)⟩

theorem _root_.Verif.Spec.ContinuousValue.sub {a b : RExpr} (ha : ContinuousValue ρ S a) (hb : ContinuousValue ρ S b) :
    ContinuousValue ρ S (a - b) := by
  obtain ⟨f, hf, hf'⟩ := ha
  obtain ⟨g, hg, hg'⟩ := hb
  exact ⟨_, hf.sub hg, fun x h => eval_sub _ (hf' x h) (hg' x h)⟩

theorem _root_.Verif.Spec.ContinuousValue.mul {a b : RExpr} (ha : ContinuousValue ρ S a) (hb : ContinuousValue ρ S b) :
    ContinuousValue ρ S (a * b) := by
  obtain ⟨f, hf, hf'⟩ := ha
  obtain ⟨g, hg, hg'⟩ := hb
  exact ⟨_, hf.mul hg, fun x h => eval_mul _ (hf' x h) (hg' x h)⟩

theorem _root_.Verif.Spec.ContinuousValue.pow {a : RExpr} (ha : ContinuousValue ρ S a) (k : ℕ) :
    ContinuousValue ρ S (a ^ k) := by
  obtain ⟨f, hf, hf'⟩ := ha
  exact ⟨_, hf.pow k, fun x h => eval_pow _ (hf' x h)⟩

theorem _root_.Verif.Spec.ContinuousValue.neg {a : RExpr} (ha : ContinuousValue ρ S a) : ContinuousValue ρ S (-a) := by
  obtain ⟨f, hf, hf'⟩ := ha
  exact ⟨_, hf.neg, fun x h => eval_neg _ (hf' x h)⟩

theorem _root_.Verif.Spec.ContinuousValue.num (k : ℕ) : ContinuousValue ρ S (OfNat.ofNat k : RExpr) :=
  ⟨_, continuousOn_const, fun _ _ => eval_num _⟩

theorem _root_.Verif.Spec.ContinuousValue.kallen {a b c : RExpr} (ha : ContinuousValue ρ S a) (hb : ContinuousValue ρ S b)
    (hc : ContinuousValue ρ S c) : ContinuousValue ρ S (RExpr.kallen a b c) := by
  obtain ⟨f, hf, hf'⟩ := ha
  obtain ⟨g, hg, hg'⟩ := hb
  obtain ⟨k, hk, hk'⟩ := hc
  refine ⟨fun x => kallenR (f x) (g x) (k x), ?_, fun x h => eval_kallen _ (hf' x h) (hg' x h) (hk' x h)⟩
  unfold kallenR
  exact (((((hf.pow 2).add (hg.pow 2)).add (hk.pow 2)).sub ((continuousOn_const.mul hf).mul hg)).sub
    ((continuousOn_const.mul hg).mul hk)).sub ((continuousOn_const.mul hk).mul hf)

theorem acosRatio_value {ρ : Sym → ℝ} {N a b : RExpr} {f g k v : ℝ} (hN : eval ρ N = some f) (ha : eval ρ a = some g)
    (hb : eval ρ b = some k) (hv : eval ρ (Angles.acosRatio N a b) = some v) :
    √g * √k ≠ 0 ∧ v = Real.arccos (f / (√g * √k)) := by
  change eval ρ (.acos (.div N (.mul (.sqrt a) (.sqrt b)))) = _ at hv
  simp only [eval, hN, ha, hb, Option.bind_eq_bind, Option.bind_some] at hv
  by_cases ga : g < 0
  · simp [ga] at hv
  by_cases gb : k < 0
  · simp [ga, gb] at hv
  simp only [ga, gb, if_false, Option.bind_some] at hv
  by_cases g0 : √g * √k = 0
  · simp [g0] at hv
  simp only [g0, if_false, Option.bind_some] at hv
  refine ⟨g0, ?_⟩
  split at hv
  · injection hv with hv
    exact hv.symm
  · cases hv

theorem _root_.Verif.Spec.ContinuousValue.acosRatio {N a b : RExpr} (hN : ContinuousValue ρ S N) (ha : ContinuousValue ρ S a)
    (hb : ContinuousValue ρ S b) (h : ∀ x ∈ S, Within (ρ x) (Angles.acosRatio N a b)) :
    ContinuousValue ρ S (Angles.acosRatio N a b) := by
  obtain ⟨f, hf, hf'⟩ := hN
  obtain ⟨g, hg, hg'⟩ := ha
  obtain ⟨k, hk, hk'⟩ := hb
  have key : ∀ x ∈ S, √(g x) * √(k x) ≠ 0 ∧
      eval (ρ x) (Angles.acosRatio N a b) = some (Real.arccos (f x / (√(g x) * √(k x)))) := by
    intro x hx
    obtain ⟨v, hv, -⟩ := h x hx
    obtain ⟨h1, h2⟩ := acosRatio_value (hf' x hx) (hg' x hx) (hk' x hx) hv
    exact ⟨h1, by rw [hv, h2]⟩
  refine ⟨fun x => Real.arccos (f x / (√(g x) * √(k x))), ?_, fun x hx => (key x hx).2⟩
  exact Real.continuous_arccos.comp_continuousOn (hf.div (hg.sqrt.mul hk.sqrt) fun x hx => (key x hx).1)

theorem _root_.Verif.Spec.ContinuousPoint.massValue (h : ContinuousPoint ρ S) {i : ℤ} (hi : i ∈ ([0, 1, 2, 3] : List ℤ)) :
    ContinuousValue ρ S (m i) :=
  ⟨_, h.mass i hi, fun _ _ => rfl⟩

theorem _root_.Verif.Spec.ContinuousPoint.sigmaValue (h : ContinuousPoint ρ S) {i : ℤ} (hi : i ∈ ([1, 2, 3] : List ℤ)) :
    ContinuousValue ρ S (σ i) :=
  ⟨_, h.mandelstam i hi, fun _ _ => rfl⟩

theorem scat_continuous (h : ContinuousPoint ρ S) (hd : ∀ x ∈ S, DalitzRegion (ρ x)) (hp : IsPerm123 i j k) :
    ContinuousValue ρ S (scatE i j k) := by
  obtain ⟨hi, hj, hk⟩ := perm_mem hp
  have m0 := (h.massValue (i := 0) (by simp)).pow 2
  have mi := (h.massValue (mem0 hi)).pow 2
  have mj := (h.massValue (mem0 hj)).pow 2
  have mk := (h.massValue (mem0 hk)).pow 2
  have sj := h.sigmaValue hj
  have sk := h.sigmaValue hk
  exact .acosRatio ((((ContinuousValue.num 2).mul sk).mul ((sj.sub mk).sub mi)).sub (((sk.add mi).sub mj).mul ((m0.sub sk).sub mk)))
    (m0.kallen mk sk) (sk.kallen mi mj) fun x hx => scattering_within (hd x hx) hp

theorem hat_continuous (h : ContinuousPoint ρ S) (hd : ∀ x ∈ S, DalitzRegion (ρ x)) (hp : IsPerm123 i j k) :
    ContinuousValue ρ S (hatE i j k) := by
  obtain ⟨hi, hj, hk⟩ := perm_mem hp
  have m0 := (h.massValue (i := 0) (by simp)).pow 2
  have mi := (h.massValue (mem0 hi)).pow 2
  have mj := (h.massValue (mem0 hj)).pow 2
  have si := h.sigmaValue hi
  have sj := h.sigmaValue hj
  have sk := h.sigmaValue hk
  exact .acosRatio ((((m0.add mi).sub si).mul ((m0.add mj).sub sj)).sub
    (((ContinuousValue.num 2).mul m0).mul ((sk.sub mi).sub mj)))
    (m0.kallen mj sj) (m0.kallen si mi) fun x hx => thetaHat_within (hd x hx) hp

theorem zetaA_continuous (h : ContinuousPoint ρ S) (hd : ∀ x ∈ S, DalitzRegion (ρ x)) {a b : ℤ} (hp : IsPerm123 i a b) :
    ContinuousValue ρ S (zetaAE i a b) := by
  obtain ⟨hi, ha, hb⟩ := perm_mem hp
  have m0 := (h.massValue (i := 0) (by simp)).pow 2
  have mi := (h.massValue (mem0 hi)).pow 2
  have ma := (h.massValue (mem0 ha)).pow 2
  have si := h.sigmaValue hi
  have sa := h.sigmaValue ha
  have sb := h.sigmaValue hb
  exact .acosRatio ((((ContinuousValue.num 2).mul mi).mul ((sa.sub m0).sub ma)).add
    (((m0.add mi).sub si).mul ((sb.sub mi).sub ma))) (m0.kallen mi si) (sb.kallen mi ma) fun x hx => zetaA_within (hd x hx) hp

theorem zetaB_continuous (h : ContinuousPoint ρ S) (hd : ∀ x ∈ S, DalitzRegion (ρ x)) {a b : ℤ} (hp : IsPerm123 i a b) :
    ContinuousValue ρ S (zetaBE i a b) := by
  obtain ⟨hi, ha, hb⟩ := perm_mem hp
  have mi := (h.massValue (mem0 hi)).pow 2
  have ma := (h.massValue (mem0 ha)).pow 2
  have mb := (h.massValue (mem0 hb)).pow 2
  have si := h.sigmaValue hi
  have sa := h.sigmaValue ha
  have sb := h.sigmaValue hb
  exact .acosRatio ((((ContinuousValue.num 2).mul mi).mul ((ma.add mb).sub si)).add
    (((sa.sub mi).sub mb).mul ((sb.sub mi).sub ma))) (sa.kallen mb mi) (sb.kallen mi ma) fun x hx => zetaB_within (hd x hx) hp

end

end Verif.Angles
