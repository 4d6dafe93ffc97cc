import Verif.Model.Py
import Mathlib.Algebra.Order.Floor.Ring
import Mathlib.Data.Rat.Floor
import Mathlib.Data.List.Lex
import Mathlib.Data.List.Basic
import Mathlib.Data.List.Infix

/-!
Model of `/repo/src/ampform_dpd/spin.py` and `/repo/src/ampform_dpd/_attrs.py`.

Simplification: Python `float`, `Decimal` and `sympy.Rational` are all modelled by exact
rationals. Spins, their sums and the constant 0.5 are dyadic, so the float arithmetic of the
code is exact on them (below 2^52); rounding of other floats is not modelled.
-/
namespace Verif.Spin

/-- `arange` (spin.py:81-85), run for at most `fuel` loop iterations starting from `current`.
Returns the yielded values and whether the loop condition has become false. -/
def arangeFuel (x2 delta : ℚ) : ℕ → ℚ → List ℚ × Bool
  | 0, current => ([], decide (¬ current < x2))
  | fuel + 1, current =>
    if current < x2 then
      let r := arangeFuel x2 delta fuel (current + delta)
      (current :: r.1, r.2)
    else ([], true)

/-- `arange(x_1, x_2)` with the default `delta=1.0` (spin.py:81-85), with enough fuel
(`C03` proves that it is enough). -/
def arange1 (x1 x2 : ℚ) : List ℚ := (arangeFuel x2 1 (⌈x2 - x1⌉.toNat) x1).1

/-- `create_rational_range` (spin.py:69-78). -/
def createRationalRange (a b : ℚ) : List ℚ := arange1 a (b + 1 / 2)

/-- `create_spin_range` (spin.py:60-66). -/
def createSpinRange (spin : ℚ) : List ℚ := createRationalRange (-spin) spin

/-- Comparison of tuples `(L, S)` by Python's `sorted` (spin.py:35): lexicographic. -/
def lsLe (x y : ℤ × ℚ) : Bool := decide (x.1 < y.1 ∨ (x.1 = y.1 ∧ x.2 ≤ y.2))

/-- `generate_ls_couplings` (spin.py:14-35): set comprehension, then `sorted`.
`int(L)` is the floor (the `L` are non-negative). -/
def generateLsCouplings (parent s1 s2 : ℚ) (maxL : ℤ := 3) : List (ℤ × ℚ) :=
  let angularMomenta := createRationalRange 0 maxL
  let coupledSpins := createRationalRange |s1 - s2| (s1 + s2)
  let couplings := angularMomenta.flatMap fun L =>
    (coupledSpins.filter fun S => |L - S| ≤ parent ∧ parent ≤ L + S).map fun S => (⌊L⌋, S)
  couplings.dedup.mergeSort lsLe

/-- `filter_parity_violating_ls` (spin.py:38-57). `(-1)**L` is the parity of the integer `L`. -/
def filterParityViolatingLs (ls : List (ℤ × ℚ)) (eta0 eta1 eta2 : ℤ) : List (ℤ × ℚ) :=
  ls.filter fun x => eta0 = eta1 * eta2 * (if x.1 % 2 = 0 then 1 else -1)

/-- `assert_spin_value` (_attrs.py:17-20) after `to_rational` (_attrs.py:41-42). -/
def assertSpinValue (value : ℚ) : Py Unit :=
  if value.den ∈ [1, 2] then .ok () else .error .valueError

end Verif.Spin
