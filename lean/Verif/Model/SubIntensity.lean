import Verif.Model.SerialAmplitude
import Verif.Model.ExprEval

/-!
Model of `compute_sub_intensity` in the documentation (`/repo/docs/jpsi2ksp.ipynb`,
`/repo/docs/xib2pkk.ipynb`), which shows the contribution of one resonance to the intensity.
-/
namespace Verif.ThreeBody
open Verif

/-- `a in b` for texts (docs/jpsi2ksp.ipynb:487-488). -/
def textIn (a b : String) : Bool := decide (a.toList <:+: b.toList)

/-- `", ".join(l)`, as SymPy does in `str(Indexed)` (keys of `func.parameters`, docs/jpsi2ksp.ipynb:486). -/
def joinComma : List String → String
  | [] => ""
  | [a] => a
  | a :: l => a ++ ", " ++ joinComma l

/-- `str(Indexed)`, the key of a coupling in `func.parameters` (docs/jpsi2ksp.ipynb:486; the coupling is created at
__init__.py:340-380). -/
def couplingKey (base : String) (res : Option String) (ix : List ℚ) : String :=
  base ++ "[" ++ joinComma (res.toList ++ ix.map Serialization.ratStr) ++ "]"

/-- `zero_parameters` (docs/jpsi2ksp.ipynb:484-489; docs/xib2pkk.ipynb:509-514). -/
def zeroParameters {W : Type} [Zero W] (p : PyDict String W) (latex : String) : PyDict String W :=
  (p.filter fun x => textIn "\\mathcal{H}" x.1 && !textIn latex x.1).map fun x => (x.1, 0)

/-- `compute_sub_intensity` (docs/jpsi2ksp.ipynb:480-493; docs/xib2pkk.ipynb:505-518): outcome of the call and the
parameters of the function after it. `call` is the numerical function for the given data; `update_parameters` of
TensorWaves is `dict.update` (it raises `KeyError` for other keys, which there are none here). -/
def computeSubIntensity {W A : Type} [Zero W] (call : PyDict String W → Py A) (p : PyDict String W) (latex : String) :
    Py A × PyDict String W :=
  let zeroed := p.update (zeroParameters p latex)
  match call zeroed with
  | .error e => (.error e, zeroed)
  | .ok a => (.ok a, zeroed.update p)

/-- The loop over the resonances (docs/jpsi2ksp.ipynb:512-530; docs/xib2pkk.ipynb:533-539): the sub-intensities and the
parameters of the function after the loop. The plots are left out. -/
def subIntensityLoop {W A : Type} [Zero W] (call : PyDict String W → Py A) (p : PyDict String W) :
    List String → Py (List A) × PyDict String W
  | [] => (.ok [], p)
  | latex :: rest =>
    match computeSubIntensity call p latex with
    | (.error e, p') => (.error e, p')
    | (.ok a, p') =>
      match subIntensityLoop call p' rest with
      | (.error e, p'') => (.error e, p'')
      | (.ok l, p'') => (.ok (a :: l), p'')

end Verif.ThreeBody
