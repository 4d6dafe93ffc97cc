import Verif.Model.Sym
import Mathlib.Analysis.SpecialFunctions.Trigonometric.Inverse

/-!
Real value of an `RExpr`. The result is `none` wherever SymPy's value would not be a real number
(square root of a negative number, division by zero, `acos` outside `[-1, 1]`).
-/
namespace Verif.RExpr
open Classical

/-- Källén function `λ(x, y, z)` as implemented by `ampform` (`Kallen.evaluate`). Used at angles.py:42, 71,
98-150. -/
def kallenR (x y z : ℝ) : ℝ := x^2 + y^2 + z^2 - 2*x*y - 2*y*z - 2*z*x

/-- Value of an expression for given values of the symbols (the mathematical meaning of the expressions of
angles.py:41-150 and __init__.py:529-537). -/
noncomputable def eval (ρ : Sym → ℝ) : RExpr → Option ℝ
  | num q => some q
  | sym s => some (ρ s)
  | add a b => do some ((← eval ρ a) + (← eval ρ b))
  | sub a b => do some ((← eval ρ a) - (← eval ρ b))
  | mul a b => do some ((← eval ρ a) * (← eval ρ b))
  | div a b => do
      let x ← eval ρ a
      let y ← eval ρ b
      if y = 0 then none else some (x / y)
  | neg a => do some (-(← eval ρ a))
  | pow a n => do some ((← eval ρ a) ^ n)
  | sqrt a => do
      let x ← eval ρ a
      if x < 0 then none else some (Real.sqrt x)
  | acos a => do
      let x ← eval ρ a
      if -1 ≤ x ∧ x ≤ 1 then some (Real.arccos x) else none
  | kallen a b c => do some (kallenR (← eval ρ a) (← eval ρ b) (← eval ρ c))

end Verif.RExpr
