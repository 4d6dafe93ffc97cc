import Mathlib.Data.Rat.Floor
import Mathlib.Algebra.Order.Ring.Abs

/-!
Specification of angular momentum coupling, independent of the model.
-/
namespace Verif.Spec

/-- `x` is an integer or half-integer. -/
def IsHalfInteger (x : ℚ) : Prop := ∃ n : ℤ, x = n / 2

/-- `x` is an integer. -/
def IsInteger (x : ℚ) : Prop := ∃ n : ℤ, x = n

/-- Angular momenta `j1` and `j2` can couple to `j3` (triangle rule with integer steps). -/
def Triangle (j1 j2 j3 : ℚ) : Prop :=
  |j1 - j2| ≤ j3 ∧ j3 ≤ j1 + j2 ∧ IsInteger (j1 + j2 - j3)

/-- `(L, S)` is an allowed coupling for the decay `J → s1 s2`: the spins couple to `S`, and `L`
and `S` couple to `J`. -/
def AllowedLS (J s1 s2 : ℚ) (L : ℤ) (S : ℚ) : Prop :=
  0 ≤ L ∧ Triangle s1 s2 S ∧ Triangle L S J

end Verif.Spec
