import Mathlib.Analysis.SpecialFunctions.Trigonometric.Basic
import Mathlib.Algebra.Polynomial.Derivative
import Mathlib.Data.Rat.Floor

/-! Specification of Wigner's formula for the d-functions, and of the Legendre polynomials. -/
namespace Verif.Spec
open Polynomial

/-- Factorial of a rational number that is a natural number. -/
def factorial (r : ℚ) : ℕ := (⌊r⌋.toNat).factorial

/-- Power with an exponent that is a natural number. -/
noncomputable def power (x : ℝ) (r : ℚ) : ℝ := x ^ ⌊r⌋.toNat

/-- Wigner's formula for `d^j_{mm'}(x)`:
`√((j+m)! (j-m)! (j+m')! (j-m')!) Σ_s (-1)^s cos(x/2)^(2j+m-m'-2s) sin(x/2)^(m'-m+2s) / ((j+m-s)! s! (m'-m+s)! (j-m'-s)!)`,
where `s` runs over all natural numbers for which the arguments of the factorials are not negative. -/
noncomputable def wignerFormula (j m m' : ℚ) (x : ℝ) : ℝ :=
  √(factorial (j + m) * factorial (j - m) * factorial (j + m') * factorial (j - m')) *
    ∑ s ∈ (Finset.range (⌊2 * j⌋.toNat + 1)).filter fun s : ℕ => 0 ≤ j + m - s ∧ 0 ≤ m' - m + s ∧ 0 ≤ j - m' - s,
      (-1) ^ s * power (Real.cos (x / 2)) (2 * j + m - m' - 2 * s) * power (Real.sin (x / 2)) (m' - m + 2 * s) /
        (factorial (j + m - s) * s.factorial * factorial (m' - m + s) * factorial (j - m' - s))

/-- Legendre polynomials by the formula of Rodrigues: `P_n = 1/(2^n n!) d^n/dX^n (X² - 1)^n`. -/
noncomputable def legendre (n : ℕ) : ℝ[X] :=
  C (1 / (2 ^ n * n.factorial : ℝ)) * derivative^[n] ((X ^ 2 - 1) ^ n)

end Verif.Spec
