import Verif.Model.ExprEval

/-! Specification of expressions that can be evaluated without a division by zero (C81). -/
namespace Verif.Spec
open Verif

/-- No denominator in the expression is zero, for any of the values that the summation indices of a
`PoolSum` take. -/
def NoZeroDivision (ι : Interp) : (Sym → ℚ) → Expr → Prop
  | _, .num _ | _, .I | _, .sym _ | _, .idx _ | _, .phase _ | _, .kron .. | _, .wig .. | _, .cg .. => True
  | η, .add a b | η, .sub a b | η, .mul a b => NoZeroDivision ι η a ∧ NoZeroDivision ι η b
  | η, .div a b => NoZeroDivision ι η a ∧ NoZeroDivision ι η b ∧ b.eval ι η ≠ 0
  | η, .neg a | η, .pow a _ | η, .sqrt a | η, .exp a | η, .abs a => NoZeroDivision ι η a
  | η, .ff s m1 m2 _ R =>
    NoZeroDivision ι η s ∧ NoZeroDivision ι η m1 ∧ NoZeroDivision ι η m2 ∧ NoZeroDivision ι η R
  | η, .edw s m0 g0 m1 m2 _ R _ => NoZeroDivision ι η s ∧ NoZeroDivision ι η m0 ∧ NoZeroDivision ι η g0 ∧
      NoZeroDivision ι η m1 ∧ NoZeroDivision ι η m2 ∧ NoZeroDivision ι η R
  | η, .bmom s m1 m2 => NoZeroDivision ι η s ∧ NoZeroDivision ι η m1 ∧ NoZeroDivision ι η m2
  | η, .psum body ixs => ∀ a ∈ combos ixs, NoZeroDivision ι (override id η a) body

end Verif.Spec
