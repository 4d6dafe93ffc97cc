import Verif.Model.Builder

/-! The evaluation of a model on a grid over the Dalitz plot in the notebooks docs/jpsi2ksp.ipynb and docs/xib2pkk.ipynb (the
range also in docs/serialization.ipynb). -/
namespace Verif

/-- `expr.xreplace(definitions)` of SymPy for a mapping of symbols, used in `definitions = {symbol:
expr.xreplace(definitions).xreplace(model.masses) ...}` (docs/xib2pkk.ipynb:356-366, docs/jpsi2ksp.ipynb:329-339): all symbols are replaced
at once and what is inserted is not searched again. -/
def RExpr.xreplace (d : PyDict Sym RExpr) : RExpr → RExpr
  | .num q => .num q
  | .sym s => (d.get? s).getD (.sym s)
  | .add a b => .add (a.xreplace d) (b.xreplace d)
  | .sub a b => .sub (a.xreplace d) (b.xreplace d)
  | .mul a b => .mul (a.xreplace d) (b.xreplace d)
  | .div a b => .div (a.xreplace d) (b.xreplace d)
  | .neg a => .neg (a.xreplace d)
  | .pow a n => .pow (a.xreplace d) n
  | .sqrt a => .sqrt (a.xreplace d)
  | .acos a => .acos (a.xreplace d)
  | .kallen a b c => .kallen (a.xreplace d) (b.xreplace d) (c.xreplace d)

end Verif

namespace Verif.ThreeBody
open Verif

/-- `k, *_ = {1, 2, 3} - {i, j}` (docs/xib2pkk.ipynb:300, docs/jpsi2ksp.ipynb:273, docs/serialization.ipynb:843); the set is visited in
ascending order, as in CPython for small integers, and never empty. -/
def remainingId (i j : ℤ) : ℤ := (([1, 2, 3] : List ℤ).filter fun n => n ≠ i ∧ n ≠ j).headD 0

/-- `list(d)[n]` for an index that is not negative: raises `IndexError` (docs/xib2pkk.ipynb: `list(model.invariants.items())[k - 1]`,
`m[i]`). -/
def listItem {α : Type} (l : List α) (n : ℤ) : Py α :=
  match l[n.toNat]? with
  | some x => .ok x
  | none => .error .indexError

/-- `σk, σk_expr = list(model.invariants.items())[k - 1]` and the cell that replaces `definitions` (docs/xib2pkk.ipynb:301,
356-366, docs/jpsi2ksp.ipynb:274, 329-339). The masses are numbers in the model. -/
def dalitzDefinitions (m : AmplitudeModel) (i j : ℤ) : Py (PyDict Sym RExpr) := do
  let third ← listItem m.invariants (remainingId i j - 1)
  let definitions := PyDict.set m.angleDefs third.1 third.2
  let masses : PyDict Sym RExpr := m.masses.map fun x => (x.1, .num x.2)
  return definitions.map fun x => (x.1, (x.2.xreplace definitions).xreplace masses)

/-- Range of the plot in one direction: minimum and maximum. -/
structure PlotRange where
  min : ℚ
  max : ℚ

/-- `x_diff = x_max - x_min; x_min -= 0.05 * x_diff; x_max += 0.05 * x_diff` (docs/xib2pkk.ipynb:323-333,
docs/jpsi2ksp.ipynb:296-306, docs/serialization.ipynb:866-876), with exact numbers instead of floats. -/
def PlotRange.widened (r : PlotRange) : PlotRange := ⟨r.min - 1 / 20 * (r.max - r.min), r.max + 1 / 20 * (r.max - r.min)⟩

/-- `x_min`, `x_max`, `y_min` and `y_max` of the grid (docs/xib2pkk.ipynb:323-333, docs/jpsi2ksp.ipynb:296-306,
docs/serialization.ipynb:866-876), with
`m = sorted(model.masses, key=str)` and exact numbers instead of floats. -/
def dalitzRange (m : AmplitudeModel) (i j : ℤ) : Py (PlotRange × PlotRange) := do
  let k := remainingId i j
  let symbols := m.masses.keys.mergeSort fun a b => decide (a.name ≤ b.name)
  let mass : ℤ → Py ℚ := fun n => do m.masses.get (← listItem symbols n)
  let x : PlotRange := ⟨((← mass j) + (← mass k)) ^ 2, ((← mass 0) - (← mass i)) ^ 2⟩
  let y : PlotRange := ⟨((← mass i) + (← mass k)) ^ 2, ((← mass 0) - (← mass j)) ^ 2⟩
  return (x.widened, y.widened)

end Verif.ThreeBody
