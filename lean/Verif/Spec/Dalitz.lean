import Verif.Model.Sym
import Mathlib.Data.Real.Basic

/-! Specification of the physical region of a three-body decay in terms of Mandelstam variables. -/
namespace Verif.Spec

/-- Källén's triangle function. -/
def lam (x y z : ℝ) : ℝ := x ^ 2 + y ^ 2 + z ^ 2 - 2 * (x * y + y * z + z * x)

/-- The Mandelstam variables satisfy `σ1 + σ2 + σ3 = m0² + m1² + m2² + m3²`. -/
def SumRule (ρ : Sym → ℝ) : Prop :=
  ρ ⟨"sigma1", .nonneg⟩ + ρ ⟨"sigma2", .nonneg⟩ + ρ ⟨"sigma3", .nonneg⟩ =
    ρ ⟨"m0", .nonneg⟩ ^ 2 + ρ ⟨"m1", .nonneg⟩ ^ 2 + ρ ⟨"m2", .nonneg⟩ ^ 2 + ρ ⟨"m3", .nonneg⟩ ^ 2

/-- `s` is strictly between the thresholds `(a + b)²` and `(M - c)²` of the decay `M → (a b) c`. -/
def BetweenThresholds (M a b c s : ℝ) : Prop := (a + b) ^ 2 < s ∧ c < M ∧ s < (M - c) ^ 2

/-- Interior of the Dalitz region: massive particles, thresholds and Kibble's inequality. -/
structure DalitzInterior (ρ : Sym → ℝ) : Prop where
  pos0 : 0 < ρ ⟨"m0", .nonneg⟩
  pos1 : 0 < ρ ⟨"m1", .nonneg⟩
  pos2 : 0 < ρ ⟨"m2", .nonneg⟩
  pos3 : 0 < ρ ⟨"m3", .nonneg⟩
  sum : SumRule ρ
  th1 : BetweenThresholds (ρ ⟨"m0", .nonneg⟩) (ρ ⟨"m2", .nonneg⟩) (ρ ⟨"m3", .nonneg⟩)
    (ρ ⟨"m1", .nonneg⟩) (ρ ⟨"sigma1", .nonneg⟩)
  th2 : BetweenThresholds (ρ ⟨"m0", .nonneg⟩) (ρ ⟨"m3", .nonneg⟩) (ρ ⟨"m1", .nonneg⟩)
    (ρ ⟨"m2", .nonneg⟩) (ρ ⟨"sigma2", .nonneg⟩)
  th3 : BetweenThresholds (ρ ⟨"m0", .nonneg⟩) (ρ ⟨"m1", .nonneg⟩) (ρ ⟨"m2", .nonneg⟩)
    (ρ ⟨"m3", .nonneg⟩) (ρ ⟨"sigma3", .nonneg⟩)
  kibble : lam
      (lam (ρ ⟨"m0", .nonneg⟩ ^ 2) (ρ ⟨"m1", .nonneg⟩ ^ 2) (ρ ⟨"sigma1", .nonneg⟩))
      (lam (ρ ⟨"m0", .nonneg⟩ ^ 2) (ρ ⟨"m2", .nonneg⟩ ^ 2) (ρ ⟨"sigma2", .nonneg⟩))
      (lam (ρ ⟨"m0", .nonneg⟩ ^ 2) (ρ ⟨"m3", .nonneg⟩ ^ 2) (ρ ⟨"sigma3", .nonneg⟩)) < 0

/-- The masses and `σ_k` are fixed, and `σ_j` varies; the third Mandelstam variable follows from the sum rule. -/
structure Slice (ρ : ℝ → Sym → ℝ) (j k : ℤ) : Prop where
  mass : ∀ t, ∀ n ∈ ([0, 1, 2, 3] : List ℤ), ρ t ⟨"m" ++ toString n, .nonneg⟩ = ρ 0 ⟨"m" ++ toString n, .nonneg⟩
  fixed : ∀ t, ρ t ⟨"sigma" ++ toString k, .nonneg⟩ = ρ 0 ⟨"sigma" ++ toString k, .nonneg⟩
  varied : ∀ t, ρ t ⟨"sigma" ++ toString j, .nonneg⟩ = t
  sum : ∀ t, SumRule (ρ t)

end Verif.Spec
