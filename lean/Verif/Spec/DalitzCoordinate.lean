import Verif.Spec.Dalitz

/-! Specification for C106: the boundary of the Dalitz plot. -/
namespace Verif.Spec

/-- Kibble's function of masses and Mandelstam variables: negative inside the Dalitz plot, zero on its boundary. -/
def kibbleFunction (ρ : Sym → ℝ) : ℝ :=
  lam (lam (ρ ⟨"m0", .nonneg⟩ ^ 2) (ρ ⟨"m1", .nonneg⟩ ^ 2) (ρ ⟨"sigma1", .nonneg⟩))
    (lam (ρ ⟨"m0", .nonneg⟩ ^ 2) (ρ ⟨"m2", .nonneg⟩ ^ 2) (ρ ⟨"sigma2", .nonneg⟩))
    (lam (ρ ⟨"m0", .nonneg⟩ ^ 2) (ρ ⟨"m3", .nonneg⟩ ^ 2) (ρ ⟨"sigma3", .nonneg⟩))

/-- All masses are positive. -/
def MassesPositive (ρ : Sym → ℝ) : Prop := ∀ n ∈ ([0, 1, 2, 3] : List ℤ), 0 < ρ ⟨"m" ++ toString n, .nonneg⟩

/-- The Mandelstam variable `σ_k` is strictly between the thresholds of the decay `0 → (i j) k`. -/
def AllowedMass (ρ : Sym → ℝ) (i j k : ℤ) : Prop :=
  BetweenThresholds (ρ ⟨"m0", .nonneg⟩) (ρ ⟨"m" ++ toString i, .nonneg⟩) (ρ ⟨"m" ++ toString j, .nonneg⟩)
    (ρ ⟨"m" ++ toString k, .nonneg⟩) (ρ ⟨"sigma" ++ toString k, .nonneg⟩)

end Verif.Spec
