import Verif.Spec.Amplitude
import Mathlib.Analysis.Real.Sqrt
import Mathlib.Data.Nat.Factorial.Basic

/-! The Clebsch-Gordan coefficients, by Racah's formula (as evaluated by SymPy). -/
namespace Verif.Spec
open Verif Verif.ThreeBody

/-- `q!` for a non-negative integer `q`. -/
def fac (q : ℚ) : ℕ := (⌊q⌋.toNat).factorial

open Classical in
/-- `⟨j1 m1 j2 m2 | J M⟩`; 0 if these are not three spins that couple, with projections. -/
noncomputable def clebschGordan (j1 m1 j2 m2 J M : ℚ) : ℝ :=
  if (IsHalfInteger j1 ∧ IsHalfInteger j2 ∧ IsHalfInteger J) ∧ (Projection j1 m1 ∧ Projection j2 m2 ∧ Projection J M) ∧
      m1 + m2 = M ∧ Triangle j1 j2 J then
    √((2 * J + 1 : ℚ) * fac (j1 + j2 - J) * fac (j1 - j2 + J) * fac (-j1 + j2 + J) / fac (j1 + j2 + J + 1)) *
    √((fac (j1 + m1) * fac (j1 - m1)) * (fac (j2 + m2) * fac (j2 - m2)) * (fac (J + M) * fac (J - M))) *
    ∑ k ∈ Finset.range (⌊j1 + j2 - J⌋.toNat + 1),
      if k ≤ j1 - m1 ∧ k ≤ j2 + m2 ∧ 0 ≤ J - j2 + m1 + k ∧ 0 ≤ J - j1 - m2 + k then
        (-1) ^ k / ((fac k * fac (j1 + j2 - J - k) * (fac (j1 - m1 - k) * fac (J - j1 - m2 + k)) *
          (fac (j2 + m2 - k) * fac (J - j2 + m1 + k)) : ℕ) : ℝ)
      else 0
  else 0

/-- The Clebsch-Gordan coefficients of the interpretation are the actual ones. -/
def UsesClebschGordan (ι : Interp) : Prop :=
  ∀ j1 m1 j2 m2 J M, ι.cg j1 m1 j2 m2 J M = (clebschGordan j1 m1 j2 m2 J M : ℂ)

end Verif.Spec
