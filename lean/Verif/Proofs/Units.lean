import Verif.Spec.Units
import Verif.Proofs.Superposition
import Verif.Props.Angles

/-! Mass dimensions of kinematic expressions. -/
namespace Verif.ThreeBody
open Verif Verif.Spec Verif.Spin Verif.Angles

/-- Dimension of the symbols of the angles. -/
def symDim (s : Sym) : ℤ :=
  if s ∈ ([⟨"sigma1", .nonneg⟩, ⟨"sigma2", .nonneg⟩, ⟨"sigma3", .nonneg⟩] : List Sym) then 2 else 1

/-- Mass dimension of an expression, if it is consistent. -/
def dimR : RExpr → Option ℤ
  | .num _ => some 0
  | .sym s => some (symDim s)
  | .add a b | .sub a b => do
    let x ← dimR a
    let y ← dimR b
    if x = y then some x else none
  | .mul a b => do return (← dimR a) + (← dimR b)
  | .div a b => do return (← dimR a) - (← dimR b)
  | .neg a => dimR a
  | .pow a n => do return n * (← dimR a)
  | .sqrt a => do
    let x ← dimR a
    if x % 2 = 0 then some (x / 2) else none
  | .acos a => do
    let x ← dimR a
    if x = 0 then some 0 else none
  | .kallen a b c => do
    let x ← dimR a
    let y ← dimR b
    let z ← dimR c
    if x = y ∧ y = z then some (2 * x) else none

theorem eval_scaled {ρ ρ' : Sym → ℝ} {t : ℝ} (ht : 0 < t) (e : RExpr) :
    ∀ {d : ℤ}, dimR e = some d → (∀ s ∈ kinematicSymbols e, ρ' s = t ^ symDim s * ρ s) →
      e.eval ρ' = (e.eval ρ).map (t ^ d * ·) := by
  have t0 : t ≠ 0 := ht.ne'
  have tp : ∀ d : ℤ, 0 < t ^ d := fun d => zpow_pos ht d
  induction e with
  | num q =>
    intro d h _
    simp only [dimR, Option.some.injEq] at h
    subst h
    simp [RExpr.eval]
  | sym s =>
    intro d h hs
    simp only [dimR, Option.some.injEq] at h
    subst h
    simp [RExpr.eval, hs s (by simp [kinematicSymbols])]
  | add a b iha ihb | sub a b iha ihb =>
    intro d h hs
    simp only [dimR, bind, Option.bind_eq_some_iff] at h
    obtain ⟨x, hx, y, hy, h⟩ := h
    split_ifs at h with hxy
    subst hxy
    injection h with h
    subst h
    have e1 := iha hx fun s h => hs s (by simp [kinematicSymbols, h])
    have e2 := ihb hy fun s h => hs s (by simp [kinematicSymbols, h])
    simp only [RExpr.eval, e1, e2]
    cases a.eval ρ <;> cases b.eval ρ <;> simp [mul_add, mul_sub]
  | mul a b iha ihb =>
    intro d h hs
    simp only [dimR, bind, Option.bind_eq_some_iff, pure, Option.some.injEq] at h
    obtain ⟨x, hx, y, hy, rfl⟩ := h
    have e1 := iha hx fun s h => hs s (by simp [kinematicSymbols, h])
    have e2 := ihb hy fun s h => hs s (by simp [kinematicSymbols, h])
    simp only [RExpr.eval, e1, e2]
    cases a.eval ρ <;> cases b.eval ρ <;> simp [zpow_add₀ t0]
    ring
  | div a b iha ihb =>
    intro d h hs
    simp only [dimR, bind, Option.bind_eq_some_iff, pure, Option.some.injEq] at h
    obtain ⟨x, hx, y, hy, rfl⟩ := h
    have e1 := iha hx fun s h => hs s (by simp [kinematicSymbols, h])
    have e2 := ihb hy fun s h => hs s (by simp [kinematicSymbols, h])
    simp only [RExpr.eval, e1, e2]
    cases a.eval ρ with
    | none => simp
    | some u =>
      cases b.eval ρ with
      | none => simp
      | some v =>
        simp only [Option.map_some, bind, Option.bind_some, mul_eq_zero, (tp y).ne', false_or]
        split_ifs
        · rfl
        · simp only [Option.map_some, zpow_sub₀ t0]
          rw [mul_div_mul_comm]
  | neg a iha =>
    intro d h hs
    have e1 := iha (by simpa [dimR] using h) fun s h => hs s (by simp [kinematicSymbols, h])
    simp only [RExpr.eval, e1]
    cases a.eval ρ <;> simp
  | pow a n iha =>
    intro d h hs
    simp only [dimR, bind, Option.bind_eq_some_iff, pure, Option.some.injEq] at h
    obtain ⟨x, hx, rfl⟩ := h
    have e1 := iha hx fun s h => hs s (by simp [kinematicSymbols, h])
    simp only [RExpr.eval, e1]
    cases a.eval ρ <;> simp [mul_pow, zpow_mul', zpow_natCast]
  | sqrt a iha =>
    intro d h hs
    simp only [dimR, bind, Option.bind_eq_some_iff] at h
    obtain ⟨x, hx, h⟩ := h
    split_ifs at h with hx2
    injection h with h
    subst h
    have e1 := iha hx fun s h => hs s (by simp [kinematicSymbols, h])
    simp only [RExpr.eval, e1]
    cases a.eval ρ with
    | none => simp
    | some u =>
      have hlt : t ^ x * u < 0 ↔ u < 0 := by
        constructor
        · intro h; by_contra h'; push Not at h'; exact absurd h (not_lt.2 (mul_nonneg (tp x).le h'))
        · exact fun h => mul_neg_of_pos_of_neg (tp x) h
      have hsq : √(t ^ x) = t ^ (x / 2) := by
        have : x = x / 2 + x / 2 := by omega
        conv_lhs => rw [this, zpow_add₀ t0]
        exact Real.sqrt_mul_self (tp _).le
      simp only [Option.map_some, bind, Option.bind_some, hlt]
      split_ifs
      · rfl
      · rw [Real.sqrt_mul (tp x).le, hsq]; rfl
  | acos a iha =>
    intro d h hs
    simp only [dimR, bind, Option.bind_eq_some_iff] at h
    obtain ⟨x, hx, h⟩ := h
    split_ifs at h with hx2
    injection h with h
    subst h hx2
    have e1 := iha hx fun s h => hs s (by simp [kinematicSymbols, h])
    simp only [RExpr.eval, e1]
    cases a.eval ρ <;> simp
  | kallen a b c iha ihb ihc =>
    intro d h hs
    simp only [dimR, bind, Option.bind_eq_some_iff] at h
    obtain ⟨x, hx, y, hy, z, hz, h⟩ := h
    split_ifs at h with hxyz
    obtain ⟨rfl, rfl⟩ := hxyz
    injection h with h
    subst h
    have e1 := iha hx fun s h => hs s (by simp [kinematicSymbols, h])
    have e2 := ihb hy fun s h => hs s (by simp [kinematicSymbols, h])
    have e3 := ihc hz fun s h => hs s (by simp [kinematicSymbols, h])
    simp only [RExpr.eval, e1, e2, e3]
    have : t ^ (2 * x) = t ^ x * t ^ x := by rw [two_mul, zpow_add₀ t0]
    cases a.eval ρ <;> cases b.eval ρ <;> cases c.eval ρ <;> simp [RExpr.kallenR, this]
    ring

theorem eval_dimensionless {ρ ρ' : Sym → ℝ} {t : ℝ} (ht : 0 < t) {e : RExpr} (h : dimR e = some 0)
    (hsym : ∀ s ∈ kinematicSymbols e, s ∈ providedSymbols)
    (hs : ∀ s ∈ providedSymbols, ρ' s = t ^ symDim s * ρ s) : e.eval ρ' = e.eval ρ := by
  rw [eval_scaled ht e h fun s h => hs s (hsym s h)]
  cases e.eval ρ <;> simp

theorem zeta_dim {i k r : ℤ} (hi : i ∈ ([0, 1, 2, 3] : List ℤ)) (hk : k ∈ ([1, 2, 3] : List ℤ))
    (hr : r ∈ ([1, 2, 3] : List ℤ)) : dimR (zetaExpr i k r) = some 0 := by
  simp only [List.mem_cons, List.not_mem_nil, or_false] at hi hk hr
  rcases hi with rfl | rfl | rfl | rfl <;> rcases hk with rfl | rfl | rfl <;> rcases hr with rfl | rfl | rfl <;>
    decide +kernel

theorem theta_dim {k : ℤ} (hk : k ∈ ([1, 2, 3] : List ℤ)) : dimR (thetaExpr k) = some 0 := by
  simp only [List.mem_cons, List.not_mem_nil, or_false] at hk
  rcases hk with rfl | rfl | rfl <;> decide +kernel

end Verif.ThreeBody
