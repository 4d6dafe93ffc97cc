import Verif.Model.SubIntensity

/-!
Model of `compute_sub_intensities` in the comparisons with AmpForm (`/repo/docs/comparison/jpsi2phipipi.ipynb`,
`/repo/docs/comparison/jpsi2pipipi.ipynb`), which shows the contribution of the selected resonances.
-/
namespace Verif.ThreeBody
open Verif

/-- `_get_couplings` (docs/comparison/jpsi2phipipi.ipynb:486-491; jpsi2pipipi.ipynb:485-490). -/
def getCouplings {W : Type} (p : PyDict String W) : PyDict String W :=
  p.filter fun x => decide ("C".toList <+: x.1.toList) || textIn "production" x.1

/-- `couplings_to_zero` (docs/comparison/jpsi2phipipi.ipynb:479-482; jpsi2pipipi.ipynb:478-481). -/
def couplingsToZero {W : Type} [Zero W] (p : PyDict String W) (names : List String) : PyDict String W :=
  (getCouplings p).map fun x => (x.1, if names.any fun r => textIn r x.1 then x.2 else 0)

/-- `compute_sub_intensities` (docs/comparison/jpsi2phipipi.ipynb:466-483; jpsi2pipipi.ipynb:465-482): outcome of the call
and the parameters of the function after it. `names` is the tuple of LaTeX texts that the caller passes (lines 684-687; the
annotation of `resonance_name` as a text is wrong). For `call` and `update_parameters` see `computeSubIntensity`. -/
def computeSubIntensities {W A : Type} [Zero W] (call : PyDict String W → Py A) (p : PyDict String W)
    (names : List String) : Py A × PyDict String W :=
  let zeroed := p.update (couplingsToZero p names)
  match call zeroed with
  | .error e => (.error e, zeroed)
  | .ok a => (.ok a, zeroed.update p)

end Verif.ThreeBody
