import Verif.Model.REval
import Verif.Spec.Dalitz
import Mathlib.Analysis.Calculus.ContDiff.Defs

/-! Specification for C107: masses and Mandelstam variables as functions of some parameters, and expressions that
depend smoothly on them. -/
namespace Verif.Spec
open scoped ContDiff Topology

variable {X : Type*} [NormedAddCommGroup X] [NormedSpace ℝ X]

/-- The masses and the Mandelstam variables are `n` times continuously differentiable functions of `x` at `x₀`
(`n = ∞`: smooth, `n = ω`: analytic). -/
structure SmoothPoint (n : WithTop ℕ∞) (ρ : X → Sym → ℝ) (x₀ : X) : Prop where
  mass : ∀ i ∈ ([0, 1, 2, 3] : List ℤ), ContDiffAt ℝ n (fun x => ρ x ⟨"m" ++ toString i, .nonneg⟩) x₀
  mandelstam : ∀ i ∈ ([1, 2, 3] : List ℤ), ContDiffAt ℝ n (fun x => ρ x ⟨"sigma" ++ toString i, .nonneg⟩) x₀

/-- Around `x₀`, the expression has a value and the value is an `n` times continuously differentiable function. -/
def SmoothValue (n : WithTop ℕ∞) (ρ : X → Sym → ℝ) (x₀ : X) (e : RExpr) : Prop :=
  ∃ f : X → ℝ, ContDiffAt ℝ n f x₀ ∧ ∀ᶠ x in 𝓝 x₀, e.eval (ρ x) = some (f x)

end Verif.Spec
