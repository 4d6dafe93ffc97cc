import Verif.Model.Builder
import Verif.Model.SubIntensity

/-! The numerical intensity function of the notebooks docs/jpsi2ksp.ipynb and docs/xib2pkk.ipynb: couplings stay parameters of the
function, the other parameters get their default values. -/
namespace Verif

/-- A value of `parameter_defaults` as expression: SymPy converts it to a number (docs/jpsi2ksp.ipynb:387). -/
def Val.toExpr : Val → Expr
  | .real q => .num q
  | .cplx re im => .add (.num re) (.mul (.num im) .I)

/-- `expr.xreplace(parameters)` for parameters with their values (docs/jpsi2ksp.ipynb:387, docs/xib2pkk.ipynb:413). Simplification:
the angle of a Wigner function is not replaced; `C130_value` and `C130_symbols` assume that no parameter has the name of an
angle. -/
def Expr.insertValues (d : PyDict Key Val) : Expr → Expr
  | .sym s => match PyDict.get? d (.sym s) with
    | some v => v.toExpr
    | none => .sym s
  | .idx x => match PyDict.get? d (.idx x) with
    | some v => v.toExpr
    | none => .idx x
  | .num q => .num q
  | .I => .I
  | .phase h => .phase h
  | .kron a b => .kron a b
  | .wig j m mp θ => .wig j m mp θ
  | .cg j1 m1 j2 m2 j3 m3 => .cg j1 m1 j2 m2 j3 m3
  | .add a b => .add (a.insertValues d) (b.insertValues d)
  | .sub a b => .sub (a.insertValues d) (b.insertValues d)
  | .mul a b => .mul (a.insertValues d) (b.insertValues d)
  | .div a b => .div (a.insertValues d) (b.insertValues d)
  | .neg a => .neg (a.insertValues d)
  | .pow a n => .pow (a.insertValues d) n
  | .sqrt a => .sqrt (a.insertValues d)
  | .exp a => .exp (a.insertValues d)
  | .abs a => .abs (a.insertValues d)
  | .ff s m1 m2 L R => .ff (s.insertValues d) (m1.insertValues d) (m2.insertValues d) L (R.insertValues d)
  | .edw s m0 g0 m1 m2 L R ph => .edw (s.insertValues d) (m0.insertValues d) (g0.insertValues d)
      (m1.insertValues d) (m2.insertValues d) L (R.insertValues d) ph
  | .bmom s m1 m2 => .bmom (s.insertValues d) (m1.insertValues d) (m2.insertValues d)
  | .psum body ixs => .psum (body.insertValues d) ixs

end Verif

namespace Verif.ThreeBody
open Verif

/-- `str(k)` for a coupling (docs/jpsi2ksp.ipynb:380, docs/xib2pkk.ipynb:407). The indices of the couplings in
`parameter_defaults` are numbers; helicity symbols are taken as zero. -/
def indexedText (x : Indexed) : String := couplingKey x.base x.res (x.ix.map (Hel.eval fun _ => 0))

/-- The conditions of `free_parameters` (docs/jpsi2ksp.ipynb:379-380, docs/xib2pkk.ipynb:406-407). -/
def isFree : Key → Bool
  | .sym _ => false
  | .idx x => textIn "production" (indexedText x) || textIn "decay" (indexedText x)

/-- `free_parameters` (docs/jpsi2ksp.ipynb:376-381, docs/xib2pkk.ipynb:403-408). -/
def freeParameters (m : AmplitudeModel) : PyDict Key Val := m.parameterDefaults.filter fun x => isFree x.1

/-- `fixed_parameters` (docs/jpsi2ksp.ipynb:382-384, docs/xib2pkk.ipynb:409-411). -/
def fixedParameters (m : AmplitudeModel) : PyDict Key Val :=
  m.parameterDefaults.filter fun x => x.1 ∉ PyDict.keys (freeParameters m)

/-- The expression of `intensity_func` (docs/jpsi2ksp.ipynb:385-387, docs/xib2pkk.ipynb:413). `cached.unfold(model)` of AmpForm is
`model.full_expression`. -/
def intensityExpression (m : AmplitudeModel) : Expr := m.fullExpression.insertValues (fixedParameters m)

end Verif.ThreeBody
