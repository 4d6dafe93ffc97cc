import Verif.Spec.Closure
import Verif.Spec.Amplitude
import Verif.Spec.Dynamics

/-! Specification of a change of the unit of mass (C83). -/
namespace Verif.Spec
open Verif Verif.ThreeBody

/-- `ι'` describes the kinematic point and the parameters of `ι` in a unit of mass that is smaller by the
factor `t`: masses and widths are multiplied by `t`, Mandelstam variables by `t²` and meson radii by `1/t`.
Couplings and functions are the same. -/
structure Rescaled (t : ℝ) (ι ι' : Interp) : Prop where
  functions : SameFunctions ι ι'
  couplings : ι'.idx = ι.idx
  symbols : ∀ s d, SymbolDim s d → ι'.sym s = (t : ℂ) ^ d * ι.sym s

end Verif.Spec
