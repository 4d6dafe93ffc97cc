import Verif.Spec.DalitzCoordinate
import Verif.Model.REval
import Mathlib.Topology.ContinuousOn
import Mathlib.Topology.Instances.Real.Lemmas

/-! Specification for C120: the Dalitz plot with its boundary, but without the points where two particles move together or one
particle is at rest. -/
namespace Verif.Spec

/-- The Dalitz plot with its boundary: positive masses, Mandelstam variables strictly between their thresholds, Kibble's function not
positive. -/
structure DalitzRegion (ρ : Sym → ℝ) : Prop where
  mass : MassesPositive ρ
  sum : SumRule ρ
  first : AllowedMass ρ 2 3 1
  second : AllowedMass ρ 3 1 2
  third : AllowedMass ρ 1 2 3
  kibble : kibbleFunction ρ ≤ 0

variable {X : Type*} [TopologicalSpace X]

/-- Masses and Mandelstam variables are continuous functions on `S`. -/
structure ContinuousPoint (ρ : X → Sym → ℝ) (S : Set X) : Prop where
  mass : ∀ i ∈ ([0, 1, 2, 3] : List ℤ), ContinuousOn (fun x => ρ x ⟨"m" ++ toString i, .nonneg⟩) S
  mandelstam : ∀ i ∈ ([1, 2, 3] : List ℤ), ContinuousOn (fun x => ρ x ⟨"sigma" ++ toString i, .nonneg⟩) S

/-- On `S`, the expression has a value and the value is a continuous function. -/
def ContinuousValue (ρ : X → Sym → ℝ) (S : Set X) (e : RExpr) : Prop :=
  ∃ f : X → ℝ, ContinuousOn f S ∧ ∀ x ∈ S, e.eval (ρ x) = some (f x)

end Verif.Spec
