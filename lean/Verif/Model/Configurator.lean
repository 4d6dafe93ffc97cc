import Verif.Model.Decay

/-!
Model of `DynamicsConfigurator` (/repo/src/ampform_dpd/__init__.py:449-476). `B` is the type of
dynamics builders.
-/
namespace Verif.ThreeBody
open Verif

/-- The object state: the decay and the registered builders (__init__.py:450-452). -/
structure Configurator (B : Type) where
  decay : Decay
  builders : PyDict Chain B

/-- Identifier given to `register_builder`/`get_builder`: a chain, a string or another type (__init__.py:454,
458, 462-472). -/
inductive Ident where
  | chain (c : Chain)
  | name (s : String)
  | other

namespace Configurator
variable {B : Type}

/-- `DynamicsConfigurator.__init__` (__init__.py:450-452). -/
def init (d : Decay) : Configurator B := ⟨d, []⟩

/-- `DynamicsConfigurator.__get_chain` (__init__.py:462-472). -/
def getChain (cfg : Configurator B) : Ident → Py Chain
  | .chain c => if c ∈ cfg.decay.chains then .ok c else .error .valueError
  | .name s => cfg.decay.findChain s
  | .other => .error .notImplementedError

/-- `register_builder` (__init__.py:454-456): outcome of the call and the object state after it. -/
def registerBuilder (cfg : Configurator B) (i : Ident) (b : B) : Py Unit × Configurator B :=
  match cfg.getChain i with
  | .ok c => (.ok (), { cfg with builders := cfg.builders.set c b })
  | .error e => (.error e, cfg)

/-- `get_builder` (__init__.py:458-460); `unit` is `lambda _: DefinedExpression()`. -/
def getBuilder (cfg : Configurator B) (unit : B) (i : Ident) : Py B := do
  let c ← cfg.getChain i
  return (cfg.builders.get? c).getD unit

/-- The object state after a history of `register_builder` calls, whether they raise or not
(__init__.py:454-456, called repeatedly). -/
def run (cfg : Configurator B) (history : List (Ident × B)) : Configurator B :=
  history.foldl (fun cfg x => (cfg.registerBuilder x.1 x.2).2) cfg

end Configurator
end Verif.ThreeBody
