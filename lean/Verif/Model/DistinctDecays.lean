import Verif.Model.Decay

/-! The table of decays without duplicates in the notebook docs/xib2pkk.ipynb. -/
namespace Verif.ThreeBody
open Verif

/-- `get_decay_identifier` (docs/xib2pkk.ipynb:182-183). The tuple is a pair with the list of the names. -/
def getDecayIdentifier (c : Chain) : Obj × List String := (c.resonance, [c.product1.name, c.product2.name])

/-- `chains.values()` with `chains = {get_decay_identifier(c): c for c in DECAY.chains}` (docs/xib2pkk.ipynb:186-187). The rendering by `aslatex` is not part of
this definition. -/
def distinctChains (d : Decay) : List Chain :=
  (PyDict.ofItems (d.chains.map fun c => (getDecayIdentifier c, c))).map Prod.snd

end Verif.ThreeBody
