import Verif.Spec.Closed
import Verif.Proofs.Angles4
import Verif.Props.DalitzCoordinate

/-! The Dalitz plot with its boundary: helper lemmas for C120. -/
namespace Verif.Angles
open Verif Verif.Spec RExpr

/-- Everything about the closed Dalitz region, for any labelling of the particles. -/
structure GenClosed (K M mi mj mk si sj sk : ℝ) : Prop where
  p0 : 0 < M
  pi : 0 < mi
  pj : 0 < mj
  pk : 0 < mk
  sum : si + sj + sk = M ^ 2 + mi ^ 2 + mj ^ 2 + mk ^ 2
  ti : BetweenThresholds M mj mk mi si
  tj : BetweenThresholds M mk mi mj sj
  tk : BetweenThresholds M mi mj mk sk
  kib : K = lam (lam (M ^ 2) (mi ^ 2) si) (lam (M ^ 2) (mj ^ 2) sj) (lam (M ^ 2) (mk ^ 2) sk)
  le : K ≤ 0

variable {ρ : Sym → ℝ} {i j k : ℤ}

theorem region_gen (h : DalitzRegion ρ) (hp : IsPerm123 i j k) :
    GenClosed (kibbleFunction ρ) (vm ρ 0) (vm ρ i) (vm ρ j) (vm ρ k) (vs ρ i) (vs ρ j) (vs ρ k) := by
  have t1 : BetweenThresholds (vm ρ 0) (vm ρ 2) (vm ρ 3) (vm ρ 1) (vs ρ 1) := h.first
  have t2 : BetweenThresholds (vm ρ 0) (vm ρ 3) (vm ρ 1) (vm ρ 2) (vs ρ 2) := h.second
  have t3 : BetweenThresholds (vm ρ 0) (vm ρ 1) (vm ρ 2) (vm ρ 3) (vs ρ 3) := h.third
  obtain ⟨hi, hj, hk⟩ := perm_mem hp
  refine ⟨h.mass 0 (by simp), h.mass i (mem0 hi), h.mass j (mem0 hj), h.mass k (mem0 hk), sum_perm hp h.sum, ?_, ?_, ?_,
    kibble_perm hp, h.kibble⟩
  all_goals
    rcases perm_cases hp with ⟨rfl, rfl, rfl⟩ | ⟨rfl, rfl, rfl⟩ | ⟨rfl, rfl, rfl⟩ |
      ⟨rfl, rfl, rfl⟩ | ⟨rfl, rfl, rfl⟩ | ⟨rfl, rfl, rfl⟩ <;> first | assumption | exact bt_swap (by assumption)

theorem _root_.Verif.Spec.DalitzInterior.region (h : DalitzInterior ρ) : DalitzRegion ρ where
  mass := by
    intro n hn
    simp only [List.mem_cons, List.not_mem_nil, or_false] at hn
    rcases hn with rfl | rfl | rfl | rfl
    · exact h.pos0
    · exact h.pos1
    · exact h.pos2
    · exact h.pos3
  sum := h.sum
  first := h.th1
  second := h.th2
  third := h.th3
  kibble := h.kibble.le

/-- An angle between 0 and π that is 0 or π exactly on the boundary. -/
def Within (ρ : Sym → ℝ) (e : RExpr) : Prop :=
  ∃ v, e.eval ρ = some v ∧ 0 ≤ v ∧ v ≤ Real.pi ∧ (v = 0 ∨ v = Real.pi ↔ kibbleFunction ρ = 0)

theorem within_acosRatio {N k1 k2 : RExpr} {n x y A B : ℝ} (hN : eval ρ N = some n)
    (h1 : eval ρ k1 = some x) (h2 : eval ρ k2 = some y) (hx : 0 < x) (hy : 0 < y) (hA : 0 < A) (hB : 0 < B)
    (hK : kibbleFunction ρ ≤ 0) (h : A * -kibbleFunction ρ = B * (x * y - n ^ 2)) : Within ρ (acosRatio N k1 k2) := by
  generalize hKe : kibbleFunction ρ = K at *
  have hn : n ^ 2 ≤ x * y := by
    have : 0 ≤ B * (x * y - n ^ 2) := by rw [← h]; exact mul_nonneg hA.le (by linarith)
    have := nonneg_of_mul_nonneg_right this hB
    linarith
  have hz : K = 0 ↔ n ^ 2 = x * y := by
    constructor
    · rintro rfl
      rw [neg_zero, mul_zero] at h
      have := (mul_eq_zero.1 h.symm).resolve_left hB.ne'
      linarith
    · intro e
      rw [e, sub_self, mul_zero] at h
      have := (mul_eq_zero.1 h).resolve_left hA.ne'
      linarith
  have hq : 0 < √x * √y := mul_pos (Real.sqrt_pos.2 hx) (Real.sqrt_pos.2 hy)
  have hqq : (√x * √y) ^ 2 = x * y := by rw [mul_pow, Real.sq_sqrt hx.le, Real.sq_sqrt hy.le]
  refine ⟨_, eval_acosRatio ρ hN h1 h2 hx hy hn, Real.arccos_nonneg _, Real.arccos_le_pi _, ?_⟩
  have habs : |n / (√x * √y)| ≤ 1 := by
    rw [abs_div, abs_of_pos hq, div_le_one hq]
    exact abs_le_of_sq_le_sq (by rw [hqq]; exact hn) hq.le
  have hsq : n ^ 2 = x * y ↔ n / (√x * √y) = 1 ∨ n / (√x * √y) = -1 := by
    rw [← hqq, sq_eq_sq_iff_eq_or_eq_neg, div_eq_iff hq.ne', div_eq_iff hq.ne', one_mul, neg_one_mul]
  rw [hKe, hz, hsq, Real.arccos_eq_zero, Real.arccos_eq_pi]
  have := abs_le.1 habs
  constructor
  · rintro (h | h)
    · exact Or.inl (le_antisymm this.2 h)
    · exact Or.inr (le_antisymm h this.1)
  · rintro (h | h)
    · exact Or.inl h.ge
    · exact Or.inr h.le

theorem scattering_within (h : DalitzRegion ρ) (hp : IsPerm123 i j k) : Within ρ (scatE i j k) := by
  have g := region_gen h hp
  have e0 := eval_pow (n := 2) ρ (eval_m' (ρ := ρ) 0)
  have ei := eval_pow (n := 2) ρ (eval_m' (ρ := ρ) i)
  have ej := eval_pow (n := 2) ρ (eval_m' (ρ := ρ) j)
  have ek := eval_pow (n := 2) ρ (eval_m' (ρ := ρ) k)
  have sk := eval_σ' (ρ := ρ) k
  have sj := eval_σ' (ρ := ρ) j
  have h0 := g.p0
  refine within_acosRatio (A := vs ρ k) (B := 4 * vm ρ 0 ^ 2)
    (eval_sub ρ (eval_mul ρ (eval_mul ρ (eval_num ρ) sk) (eval_sub ρ (eval_sub ρ sj ek) ei))
      (eval_mul ρ (eval_sub ρ (eval_add ρ sk ei) ej) (eval_sub ρ (eval_sub ρ e0 sk) ek)))
    (eval_kallen ρ e0 ek sk) (eval_kallen ρ sk ei ej)
    (lam_upper_pos g.pk g.tk.2.1 g.tk.2.2) (lam_lower_pos g.pi g.pj g.tk.1)
    (lt_of_le_of_lt (sq_nonneg _) g.tk.1) (by positivity) g.le ?_
  have hsi : vs ρ i = vm ρ 0 ^ 2 + vm ρ i ^ 2 + vm ρ j ^ 2 + vm ρ k ^ 2 - vs ρ j - vs ρ k := by
    linarith [g.sum]
  rw [g.kib, hsi]
  unfold lam kallenR
  push_cast
  ring

theorem thetaHat_within (h : DalitzRegion ρ) (hp : IsPerm123 i j k) : Within ρ (hatE i j k) := by
  have g := region_gen h hp
  have e0 := eval_pow (n := 2) ρ (eval_m' (ρ := ρ) 0)
  have ei := eval_pow (n := 2) ρ (eval_m' (ρ := ρ) i)
  have ej := eval_pow (n := 2) ρ (eval_m' (ρ := ρ) j)
  have sk := eval_σ' (ρ := ρ) k
  have sj := eval_σ' (ρ := ρ) j
  have si := eval_σ' (ρ := ρ) i
  refine within_acosRatio (A := 1) (B := 4)
    (eval_sub ρ (eval_mul ρ (eval_sub ρ (eval_add ρ e0 ei) si) (eval_sub ρ (eval_add ρ e0 ej) sj))
      (eval_mul ρ (eval_mul ρ (eval_num ρ) e0) (eval_sub ρ (eval_sub ρ sk ei) ej)))
    (eval_kallen ρ e0 ej sj) (eval_kallen ρ e0 si ei)
    (lam_upper_pos g.pj g.tj.2.1 g.tj.2.2) ?_ (by norm_num) (by norm_num) g.le ?_
  · have := lam_upper_pos g.pi g.ti.2.1 g.ti.2.2
    refine lt_of_lt_of_eq this ?_
    unfold kallenR; ring
  have hmk : vm ρ k ^ 2 = vs ρ i + vs ρ j + vs ρ k - vm ρ 0 ^ 2 - vm ρ i ^ 2 - vm ρ j ^ 2 := by
    linarith [g.sum]
  rw [g.kib, hmk]
  unfold lam kallenR
  push_cast
  ring

theorem zetaA_within (h : DalitzRegion ρ) {a b : ℤ} (hp : IsPerm123 i a b) : Within ρ (zetaAE i a b) := by
  have g := region_gen h hp
  have e0 := eval_pow (n := 2) ρ (eval_m' (ρ := ρ) 0)
  have ei := eval_pow (n := 2) ρ (eval_m' (ρ := ρ) i)
  have ea := eval_pow (n := 2) ρ (eval_m' (ρ := ρ) a)
  have sa := eval_σ' (ρ := ρ) a
  have sb := eval_σ' (ρ := ρ) b
  have si := eval_σ' (ρ := ρ) i
  have h0 := g.p0
  refine within_acosRatio (A := vm ρ i ^ 2) (B := 4 * vm ρ 0 ^ 2)
    (eval_add ρ (eval_mul ρ (eval_mul ρ (eval_num ρ) ei) (eval_sub ρ (eval_sub ρ sa e0) ea))
      (eval_mul ρ (eval_sub ρ (eval_add ρ e0 ei) si) (eval_sub ρ (eval_sub ρ sb ei) ea)))
    (eval_kallen ρ e0 ei si) (eval_kallen ρ sb ei ea)
    (lam_upper_pos g.pi g.ti.2.1 g.ti.2.2) (lam_lower_pos g.pi g.pj g.tk.1)
    (pow_pos g.pi 2) (by positivity) g.le ?_
  have hmb : vm ρ b ^ 2 = vs ρ i + vs ρ a + vs ρ b - vm ρ 0 ^ 2 - vm ρ i ^ 2 - vm ρ a ^ 2 := by
    linarith [g.sum]
  rw [g.kib, hmb]
  unfold lam kallenR
  push_cast
  ring

theorem zetaB_within (h : DalitzRegion ρ) {a b : ℤ} (hp : IsPerm123 i a b) : Within ρ (zetaBE i a b) := by
  have g := region_gen h hp
  have ei := eval_pow (n := 2) ρ (eval_m' (ρ := ρ) i)
  have ea := eval_pow (n := 2) ρ (eval_m' (ρ := ρ) a)
  have eb := eval_pow (n := 2) ρ (eval_m' (ρ := ρ) b)
  have sa := eval_σ' (ρ := ρ) a
  have sb := eval_σ' (ρ := ρ) b
  have si := eval_σ' (ρ := ρ) i
  have h0 := g.p0
  refine within_acosRatio (A := vm ρ i ^ 2) (B := 4 * vm ρ 0 ^ 2)
    (eval_add ρ (eval_mul ρ (eval_mul ρ (eval_num ρ) ei) (eval_sub ρ (eval_add ρ ea eb) si))
      (eval_mul ρ (eval_sub ρ (eval_sub ρ sa ei) eb) (eval_sub ρ (eval_sub ρ sb ei) ea)))
    (eval_kallen ρ sa eb ei) (eval_kallen ρ sb ei ea)
    (lam_lower_pos g.pk g.pi g.tj.1) (lam_lower_pos g.pi g.pj g.tk.1)
    (pow_pos g.pi 2) (by positivity) g.le ?_
  have hs : vs ρ i = vm ρ 0 ^ 2 + vm ρ i ^ 2 + vm ρ a ^ 2 + vm ρ b ^ 2 - vs ρ a - vs ρ b := by
    linarith [g.sum]
  rw [g.kib, hs]
  unfold lam kallenR
  push_cast
  ring

end Verif.Angles
