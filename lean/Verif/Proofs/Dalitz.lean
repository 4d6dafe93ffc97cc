import Verif.Proofs.Angles2
import Verif.Spec.Dalitz
import Mathlib.Tactic.Linarith

/-! Algebra of the angle expressions in terms of Mandelstam variables only. -/
namespace Verif.Angles
open Verif Verif.Spec RExpr

/-- Values of the mass and Mandelstam symbols. -/
def vm (ρ : Sym → ℝ) (i : ℤ) : ℝ := ρ ⟨"m" ++ toString i, .nonneg⟩
def vs (ρ : Sym → ℝ) (i : ℤ) : ℝ := ρ ⟨"sigma" ++ toString i, .nonneg⟩

variable {ρ : Sym → ℝ}

theorem eval_m' (i : ℤ) : eval ρ (m i) = some (vm ρ i) := rfl
theorem eval_σ' (i : ℤ) : eval ρ (σ i) = some (vs ρ i) := rfl

/-- Everything about the Dalitz interior, for any labelling of the particles. -/
structure Gen (M mi mj mk si sj sk : ℝ) : Prop where
  p0 : 0 < M
  pi : 0 < mi
  pj : 0 < mj
  pk : 0 < mk
  sum : si + sj + sk = M ^ 2 + mi ^ 2 + mj ^ 2 + mk ^ 2
  ti : BetweenThresholds M mj mk mi si
  tj : BetweenThresholds M mk mi mj sj
  tk : BetweenThresholds M mi mj mk sk
  kib : lam (lam (M ^ 2) (mi ^ 2) si) (lam (M ^ 2) (mj ^ 2) sj) (lam (M ^ 2) (mk ^ 2) sk) < 0

theorem Gen.rot {M mi mj mk si sj sk : ℝ} (g : Gen M mi mj mk si sj sk) :
    Gen M mj mk mi sj sk si :=
  ⟨g.p0, g.pj, g.pk, g.pi, by linarith [g.sum], g.tj, g.tk, g.ti, by
    have := g.kib
    unfold lam at *
    nlinarith [this]⟩

theorem bt_swap {M a b c s : ℝ} (h : BetweenThresholds M a b c s) :
    BetweenThresholds M b a c s := by
  unfold BetweenThresholds at *; rw [add_comm b a]; exact h

theorem Gen.swap {M mi mj mk si sj sk : ℝ} (g : Gen M mi mj mk si sj sk) :
    Gen M mj mi mk sj si sk :=
  ⟨g.p0, g.pj, g.pi, g.pk, by linarith [g.sum], bt_swap g.tj, bt_swap g.ti, bt_swap g.tk, by
    have := g.kib
    unfold lam at *
    nlinarith [this]⟩

theorem gen_of_dalitz (h : DalitzInterior ρ) {i j k : ℤ} (hp : IsPerm123 i j k) :
    Gen (vm ρ 0) (vm ρ i) (vm ρ j) (vm ρ k) (vs ρ i) (vs ρ j) (vs ρ k) := by
  have g : Gen (vm ρ 0) (vm ρ 1) (vm ρ 2) (vm ρ 3) (vs ρ 1) (vs ρ 2) (vs ρ 3) :=
    ⟨h.pos0, h.pos1, h.pos2, h.pos3, h.sum, h.th1, h.th2, h.th3, h.kibble⟩
  rcases perm_cases hp with ⟨rfl, rfl, rfl⟩ | ⟨rfl, rfl, rfl⟩ | ⟨rfl, rfl, rfl⟩ |
    ⟨rfl, rfl, rfl⟩ | ⟨rfl, rfl, rfl⟩ | ⟨rfl, rfl, rfl⟩
  · exact g
  · exact g.swap.rot
  · exact g.swap
  · exact g.rot
  · exact g.rot.rot
  · exact g.rot.swap

theorem lam_upper_pos {M c s : ℝ} (hc : 0 < c) (hcM : c < M) (h : s < (M - c) ^ 2) :
    0 < kallenR (M ^ 2) (c ^ 2) s := by
  have : kallenR (M ^ 2) (c ^ 2) s = ((M - c) ^ 2 - s) * ((M + c) ^ 2 - s) := by
    unfold kallenR; ring
  rw [this]
  apply mul_pos (by linarith)
  nlinarith

theorem lam_lower_pos {a b s : ℝ} (ha : 0 < a) (hb : 0 < b) (h : (a + b) ^ 2 < s) :
    0 < kallenR s (a ^ 2) (b ^ 2) := by
  have : kallenR s (a ^ 2) (b ^ 2) = (s - (a + b) ^ 2) * (s - (a - b) ^ 2) := by
    unfold kallenR; ring
  rw [this]
  apply mul_pos (by linarith)
  nlinarith

/-- Strict bound gives an angle strictly between 0 and π. -/
theorem eval_acosRatio_strict {N k1 k2 : RExpr} {n x y : ℝ} (hN : eval ρ N = some n)
    (h1 : eval ρ k1 = some x) (h2 : eval ρ k2 = some y) (hx : 0 < x) (hy : 0 < y)
    (hlt : n ^ 2 < x * y) :
    ∃ v, eval ρ (acosRatio N k1 k2) = some v ∧ 0 < v ∧ v < Real.pi := by
  refine ⟨_, eval_acosRatio ρ hN h1 h2 hx hy hlt.le, ?_, ?_⟩
  all_goals
    have hs : 0 < √x * √y := mul_pos (Real.sqrt_pos.2 hx) (Real.sqrt_pos.2 hy)
    have hb : |n / (√x * √y)| < 1 := by
      rw [abs_div, abs_of_pos hs, div_lt_one hs]
      apply abs_lt_of_sq_lt_sq _ hs.le
      rw [mul_pow, Real.sq_sqrt hx.le, Real.sq_sqrt hy.le]
      exact hlt
    rw [abs_lt] at hb
  · exact Real.arccos_pos.2 hb.2
  · refine lt_of_le_of_ne (Real.arccos_le_pi _) ?_
    intro h
    rw [Real.arccos_eq_pi] at h
    linarith

section strict
variable {i j k : ℤ}

theorem scattering_strict (h : DalitzInterior ρ) (hp : IsPerm123 i j k) :
    ∃ v, eval ρ (acosRatio
      (2 * σ k * (σ j - m k ^ 2 - m i ^ 2) - (σ k + m i ^ 2 - m j ^ 2) * (m 0 ^ 2 - σ k - m k ^ 2))
      (kallen (m 0 ^ 2) (m k ^ 2) (σ k)) (kallen (σ k) (m i ^ 2) (m j ^ 2))) = some v ∧
      0 < v ∧ v < Real.pi := by
  have g := gen_of_dalitz h hp
  have e0 := eval_pow (n := 2) ρ (eval_m' (ρ := ρ) 0)
  have ei := eval_pow (n := 2) ρ (eval_m' (ρ := ρ) i)
  have ej := eval_pow (n := 2) ρ (eval_m' (ρ := ρ) j)
  have ek := eval_pow (n := 2) ρ (eval_m' (ρ := ρ) k)
  have sk := eval_σ' (ρ := ρ) k
  have sj := eval_σ' (ρ := ρ) j
  refine eval_acosRatio_strict
    (eval_sub ρ (eval_mul ρ (eval_mul ρ (eval_num ρ) sk) (eval_sub ρ (eval_sub ρ sj ek) ei))
      (eval_mul ρ (eval_sub ρ (eval_add ρ sk ei) ej) (eval_sub ρ (eval_sub ρ e0 sk) ek)))
    (eval_kallen ρ e0 ek sk) (eval_kallen ρ sk ei ej)
    (lam_upper_pos g.pk g.tk.2.1 g.tk.2.2) (lam_lower_pos g.pi g.pj g.tk.1) ?_
  have hk := g.kib
  have hsk : 0 < vs ρ k := lt_of_le_of_lt (sq_nonneg _) g.tk.1
  have h0 := g.p0
  have hsi : vs ρ i = vm ρ 0 ^ 2 + vm ρ i ^ 2 + vm ρ j ^ 2 + vm ρ k ^ 2 - vs ρ j - vs ρ k := by
    linarith [g.sum]
  rw [hsi] at hk
  rw [← sub_pos]
  refine pos_of_mul_pos_right (a := 4 * vm ρ 0 ^ 2) ?_ (by positivity)
  have := mul_pos hsk (neg_pos.2 hk)
  refine lt_of_lt_of_eq this ?_
  unfold lam kallenR
  push_cast
  ring

theorem thetaHat_strict (h : DalitzInterior ρ) (hp : IsPerm123 i j k) :
    ∃ v, eval ρ (acosRatio
      ((m 0 ^ 2 + m i ^ 2 - σ i) * (m 0 ^ 2 + m j ^ 2 - σ j)
        - 2 * m 0 ^ 2 * (σ k - m i ^ 2 - m j ^ 2))
      (kallen (m 0 ^ 2) (m j ^ 2) (σ j)) (kallen (m 0 ^ 2) (σ i) (m i ^ 2))) = some v ∧
      0 < v ∧ v < Real.pi := by
  have g := gen_of_dalitz h hp
  have e0 := eval_pow (n := 2) ρ (eval_m' (ρ := ρ) 0)
  have ei := eval_pow (n := 2) ρ (eval_m' (ρ := ρ) i)
  have ej := eval_pow (n := 2) ρ (eval_m' (ρ := ρ) j)
  have sk := eval_σ' (ρ := ρ) k
  have sj := eval_σ' (ρ := ρ) j
  have si := eval_σ' (ρ := ρ) i
  refine eval_acosRatio_strict
    (eval_sub ρ (eval_mul ρ (eval_sub ρ (eval_add ρ e0 ei) si) (eval_sub ρ (eval_add ρ e0 ej) sj))
      (eval_mul ρ (eval_mul ρ (eval_num ρ) e0) (eval_sub ρ (eval_sub ρ sk ei) ej)))
    (eval_kallen ρ e0 ej sj) (eval_kallen ρ e0 si ei)
    (lam_upper_pos g.pj g.tj.2.1 g.tj.2.2) ?_ ?_
  · have := lam_upper_pos g.pi g.ti.2.1 g.ti.2.2
    refine lt_of_lt_of_eq this ?_
    unfold kallenR; ring
  have hk := g.kib
  have hsk : vs ρ k = vm ρ 0 ^ 2 + vm ρ i ^ 2 + vm ρ j ^ 2 + vm ρ k ^ 2 - vs ρ j - vs ρ i := by
    linarith [g.sum]
  have hmk : vm ρ k ^ 2 = vs ρ i + vs ρ j + vs ρ k - vm ρ 0 ^ 2 - vm ρ i ^ 2 - vm ρ j ^ 2 := by
    linarith [g.sum]
  rw [hmk] at hk
  rw [← sub_pos]
  refine pos_of_mul_pos_right (a := 4) ?_ (by positivity)
  refine lt_of_lt_of_eq (neg_pos.2 hk) ?_
  unfold lam kallenR
  push_cast
  ring

theorem zetaA_strict (h : DalitzInterior ρ) {a b : ℤ} (hp : IsPerm123 i a b) :
    ∃ v, eval ρ (acosRatio
      (2 * m i ^ 2 * (σ a - m 0 ^ 2 - m a ^ 2) + (m 0 ^ 2 + m i ^ 2 - σ i) * (σ b - m i ^ 2 - m a ^ 2))
      (kallen (m 0 ^ 2) (m i ^ 2) (σ i)) (kallen (σ b) (m i ^ 2) (m a ^ 2))) = some v ∧
      0 < v ∧ v < Real.pi := by
  have g := gen_of_dalitz h hp
  have e0 := eval_pow (n := 2) ρ (eval_m' (ρ := ρ) 0)
  have ei := eval_pow (n := 2) ρ (eval_m' (ρ := ρ) i)
  have ea := eval_pow (n := 2) ρ (eval_m' (ρ := ρ) a)
  have sa := eval_σ' (ρ := ρ) a
  have sb := eval_σ' (ρ := ρ) b
  have si := eval_σ' (ρ := ρ) i
  refine eval_acosRatio_strict
    (eval_add ρ (eval_mul ρ (eval_mul ρ (eval_num ρ) ei) (eval_sub ρ (eval_sub ρ sa e0) ea))
      (eval_mul ρ (eval_sub ρ (eval_add ρ e0 ei) si) (eval_sub ρ (eval_sub ρ sb ei) ea)))
    (eval_kallen ρ e0 ei si) (eval_kallen ρ sb ei ea)
    (lam_upper_pos g.pi g.ti.2.1 g.ti.2.2) (lam_lower_pos g.pi g.pj g.tk.1) ?_
  have hk := g.kib
  have hpi := g.pi
  have h0 := g.p0
  have hmb : vm ρ b ^ 2 = vs ρ i + vs ρ a + vs ρ b - vm ρ 0 ^ 2 - vm ρ i ^ 2 - vm ρ a ^ 2 := by
    linarith [g.sum]
  rw [hmb] at hk
  rw [← sub_pos]
  refine pos_of_mul_pos_right (a := 4 * vm ρ 0 ^ 2) ?_ (by positivity)
  have := mul_pos (pow_pos hpi 2) (neg_pos.2 hk)
  refine lt_of_lt_of_eq this ?_
  unfold lam kallenR
  push_cast
  ring

theorem zetaB_strict (h : DalitzInterior ρ) {a b : ℤ} (hp : IsPerm123 i a b) :
    ∃ v, eval ρ (acosRatio
      (2 * m i ^ 2 * (m a ^ 2 + m b ^ 2 - σ i) + (σ a - m i ^ 2 - m b ^ 2) * (σ b - m i ^ 2 - m a ^ 2))
      (kallen (σ a) (m b ^ 2) (m i ^ 2)) (kallen (σ b) (m i ^ 2) (m a ^ 2))) = some v ∧
      0 < v ∧ v < Real.pi := by
  have g := gen_of_dalitz h hp
  have ei := eval_pow (n := 2) ρ (eval_m' (ρ := ρ) i)
  have ea := eval_pow (n := 2) ρ (eval_m' (ρ := ρ) a)
  have eb := eval_pow (n := 2) ρ (eval_m' (ρ := ρ) b)
  have sa := eval_σ' (ρ := ρ) a
  have sb := eval_σ' (ρ := ρ) b
  have si := eval_σ' (ρ := ρ) i
  refine eval_acosRatio_strict
    (eval_add ρ (eval_mul ρ (eval_mul ρ (eval_num ρ) ei) (eval_sub ρ (eval_add ρ ea eb) si))
      (eval_mul ρ (eval_sub ρ (eval_sub ρ sa ei) eb) (eval_sub ρ (eval_sub ρ sb ei) ea)))
    (eval_kallen ρ sa eb ei) (eval_kallen ρ sb ei ea)
    (lam_lower_pos g.pk g.pi g.tj.1) (lam_lower_pos g.pi g.pj g.tk.1) ?_
  have hk := g.kib
  have hpi := g.pi
  have h0 := g.p0
  have hs : vs ρ i = vm ρ 0 ^ 2 + vm ρ i ^ 2 + vm ρ a ^ 2 + vm ρ b ^ 2 - vs ρ a - vs ρ b := by
    linarith [g.sum]
  rw [hs] at hk ⊢
  rw [← sub_pos]
  refine pos_of_mul_pos_right (a := 4 * vm ρ 0 ^ 2) ?_ (by positivity)
  have := mul_pos (pow_pos hpi 2) (neg_pos.2 hk)
  refine lt_of_lt_of_eq this ?_
  unfold lam kallenR
  push_cast
  ring

end strict
end Verif.Angles
