import Verif.Spec.Closure
import Verif.Spec.Amplitude
import Verif.Spec.Dynamics

/-! Specification of a cyclic renumbering of the final states (C82). -/
namespace Verif.Spec
open Verif Verif.ThreeBody

/-- The cyclic renumbering `1 → 2 → 3 → 1` of the final states. -/
def cyc (i : ℤ) : ℤ := if i = 1 then 2 else if i = 2 then 3 else if i = 3 then 1 else i

/-- The state with its new ID. -/
def renumberState (s : State) : State := ⟨s.toParticle, cyc s.index⟩

/-- The object with its new ID. -/
def renumberObj : Obj → Obj
  | .particle p => .particle p
  | .state s => .state (renumberState s)

/-- The decay node with new IDs. -/
def renumberNode : Node → Node
  | .leaf o => .leaf (renumberObj o)
  | .isobar p c1 c2 ls => .isobar (renumberObj p) (renumberNode c1) (renumberNode c2) ls

/-- The chain with new IDs. -/
def renumberChain (c : Chain) : Chain :=
  ⟨renumberNode c.decay, renumberState c.parent, renumberObj c.resonance, renumberState c.product1,
    renumberState c.product2, renumberState c.spectator, c.incomingLs, c.outgoingLs⟩

/-- The decay with new IDs. -/
def renumberDecay (d : Decay) : Decay :=
  ⟨d.states.map fun x => (cyc x.1, renumberState x.2), d.chains.map renumberChain⟩

/-- `ι'` describes the same kinematic point as `ι` with new IDs: masses and Mandelstam variables carry the
new IDs, parameters and functions are the same. -/
structure Renumbered (ι ι' : Interp) : Prop where
  functions : SameFunctions ι ι'
  couplings : ι'.idx = ι.idx
  masses : ∀ i ∈ ([0, 1, 2, 3] : List ℤ),
    ι'.sym ⟨"m" ++ toString (cyc i), .nonneg⟩ = ι.sym ⟨"m" ++ toString i, .nonneg⟩
  mandelstam : ∀ i ∈ ([1, 2, 3] : List ℤ),
    ι'.sym ⟨"sigma" ++ toString (cyc i), .nonneg⟩ = ι.sym ⟨"sigma" ++ toString i, .nonneg⟩

end Verif.Spec
