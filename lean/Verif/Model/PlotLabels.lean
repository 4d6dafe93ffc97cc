import Verif.Model.Decay

/-! The labels of the Dalitz plot in the notebook docs/serialization.ipynb. -/
namespace Verif.ThreeBody
open Verif

/-- `get_decay_products` (docs/serialization.ipynb:946-952). The tuple is a list. -/
def getDecayProducts (d : Decay) (subsystemId : ℤ) : Py (List State) :=
  if subsystemId ∉ PyDict.keys (finalStateDict d.states) then .error .valueError
  else .ok (((finalStateDict d.states).map Prod.snd).filter fun s => s.index ≠ subsystemId)

/-- `sigma_labels[i]` (docs/serialization.ipynb:964-967). -/
def sigmaLabel (d : Decay) (i : ℤ) : Py String := do
  let ps ← getDecayProducts d i
  return "$\\sigma_" ++ toString i ++ " = M^2\\left(" ++ " ".intercalate (ps.map (·.latex)) ++ "\\right)$"

/-- `sigma_labels` (docs/serialization.ipynb:964-967): one label for each of `1, 2, 3`. -/
def sigmaLabels (d : Decay) : Py (PyDict ℤ String) := do
  let items ← ([1, 2, 3] : List ℤ).mapM fun i => do return (i, ← sigmaLabel d i)
  return PyDict.ofItems items

end Verif.ThreeBody
