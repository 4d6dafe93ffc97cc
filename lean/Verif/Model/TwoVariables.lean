import Verif.Model.DalitzGrid
import Verif.Model.FreeParameters

/-! The intensity functions of two Mandelstam variables in the notebook docs/serialization.ipynb. -/
namespace Verif

/-- `expr.free_symbols` for the definition of an angle or Mandelstam variable (docs/serialization.ipynb:753, through
`func.argument_order`). -/
def RExpr.freeSymbols : RExpr → List Sym
  | .num _ => []
  | .sym s => [s]
  | .add a b | .sub a b | .mul a b | .div a b => a.freeSymbols ++ b.freeSymbols
  | .neg a | .pow a _ | .sqrt a | .acos a => a.freeSymbols
  | .kallen a b c => a.freeSymbols ++ b.freeSymbols ++ c.freeSymbols

end Verif

namespace Verif.ThreeBody
open Verif

/-- An intensity in which angles and one Mandelstam variable were replaced by expressions. Simplification: they remain symbols in
`expression`, and `definitions` has what they were replaced by (docs/serialization.ipynb:712, 751). -/
structure NumericIntensity where
  expression : Expr
  definitions : PyDict Sym RExpr

/-- `MODEL.parameter_defaults` as replacement of symbols in the definitions of the angles (docs/serialization.ipynb:713). Complex
values are left out, because the definitions of the angles contain masses only. -/
def realValues (d : PyDict Key Val) : PyDict Sym RExpr :=
  d.filterMap fun x => match x with
    | (.sym s, .real q) => some (s, .num q)
    | (.sym s, .cplx _ _) => some (s, .sym s)
    | (.idx _, _) => none

/-- `intensity_expr`: the variables and then the parameters are replaced (docs/serialization.ipynb:712-713). -/
def intensityExpr (a : AmplitudeModel) : NumericIntensity where
  expression := a.fullExpression.insertValues a.parameterDefaults
  definitions := a.angleDefs.map fun x => (x.1, x.2.xreplace (realValues a.parameterDefaults))

/-- The body of the loop over the invariants (docs/serialization.ipynb:750-752), without `doit`. -/
def intensityFunc (a : AmplitudeModel) (third : Sym × RExpr) : NumericIntensity :=
  let masses : PyDict Sym RExpr := a.masses.map fun x => (x.1, .num x.2)
  let value := third.2.xreplace masses
  { expression := (intensityExpr a).expression
    definitions := ((intensityExpr a).definitions.map fun x => (x.1, x.2.xreplace [(third.1, value)])) ++ [(third.1, value)] }

/-- `int(str(s)[-1])` for a symbol whose name ends with a digit (docs/serialization.ipynb:749). -/
def lastDigit (s : Sym) : ℤ := ((s.name.toList.getLast?.map fun c => (c.toNat : ℤ) - 48)).getD 0

/-- `intensity_funcs` (docs/serialization.ipynb:747-754). -/
def intensityFuncs (a : AmplitudeModel) : PyDict ℤ NumericIntensity :=
  PyDict.ofItems (a.invariants.map fun x => (lastDigit x.1, intensityFunc a x))

/-- `func.argument_order` (docs/serialization.ipynb:753), as a list that may have more than the symbols SymPy finds, because angles
that are not used count as well. -/
def NumericIntensity.arguments (f : NumericIntensity) : List Sym :=
  (f.expression.syms.filter fun s => s ∉ PyDict.keys f.definitions) ++ f.definitions.flatMap fun x => x.2.freeSymbols

end Verif.ThreeBody
