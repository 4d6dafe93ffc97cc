import Verif.Model.Expr

/-! Specification for C130. -/
namespace Verif.Expr

/-- The angles of the Wigner functions. -/
def wignerAngles : Expr → List Sym
  | .num _ | .I | .idx _ | .phase _ | .kron .. | .cg .. | .sym _ => []
  | .wig _ _ _ θ => [θ]
  | .add a b | .sub a b | .mul a b | .div a b => a.wignerAngles ++ b.wignerAngles
  | .neg a | .pow a _ | .sqrt a | .exp a | .abs a => a.wignerAngles
  | .ff s m1 m2 _ R => s.wignerAngles ++ m1.wignerAngles ++ m2.wignerAngles ++ R.wignerAngles
  | .edw s m0 g0 m1 m2 _ R _ =>
    s.wignerAngles ++ m0.wignerAngles ++ g0.wignerAngles ++ m1.wignerAngles ++ m2.wignerAngles ++ R.wignerAngles
  | .bmom s m1 m2 => s.wignerAngles ++ m1.wignerAngles ++ m2.wignerAngles
  | .psum body _ => body.wignerAngles

end Verif.Expr

namespace Verif.Spec
open Verif

/-- An ordinary lineshape: no Wigner functions, no couplings among its parameters, and no parameters declared real, as the angles
are (masses, widths and radii are declared nonnegative). -/
structure OrdinaryLineshape (e : DefExpr) : Prop where
  wigner : e.expression.wignerAngles = []
  indexed : ∀ x, Key.idx x ∉ PyDict.keys e.parameters
  real : ∀ s, Key.sym s ∈ PyDict.keys e.parameters → s.asm ≠ .real

end Verif.Spec
