import Verif.Spec.Dalitz
import Mathlib.Analysis.SpecialFunctions.Pow.Real

/-! Specification of the cosine of a decay angle in terms of masses and Mandelstam variables. -/
namespace Verif.Spec

/-- The cosine of the angle between particle `i` and the opposite of the direction of particle `k` in the rest frame of `i` and `j`:
`(2σk (σj - mk² - mi²) - (σk + mi² - mj²)(m0² - σk - mk²)) / (√λ(m0², mk², σk) √λ(σk, mi², mj²))`. -/
noncomputable def decayCosine (ρ : Sym → ℝ) (i j k : ℤ) : ℝ :=
  let m := fun n : ℤ => ρ ⟨"m" ++ toString n, .nonneg⟩
  let σ := fun n : ℤ => ρ ⟨"sigma" ++ toString n, .nonneg⟩
  (2 * σ k * (σ j - m k ^ 2 - m i ^ 2) - (σ k + m i ^ 2 - m j ^ 2) * (m 0 ^ 2 - σ k - m k ^ 2)) /
    (√(lam (m 0 ^ 2) (m k ^ 2) (σ k)) * √(lam (σ k) (m i ^ 2) (m j ^ 2)))

/-- The cosine of the decay angle of subsystem `k`, with the order of the decay products of the paper: (2, 3), (3, 1), (1, 2). -/
noncomputable def subsystemCosine (ρ : Sym → ℝ) (k : ℤ) : ℝ :=
  if k = 1 then decayCosine ρ 2 3 1 else if k = 2 then decayCosine ρ 3 1 2 else decayCosine ρ 1 2 3

end Verif.Spec
