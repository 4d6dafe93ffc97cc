import Verif.Spec.Relabel

/-! Specification of the renumbering of the final states that exchanges the IDs 1 and 2 (C110). -/
namespace Verif.Spec
open Verif Verif.ThreeBody

/-- The exchange `1 ↔ 2` of two IDs. -/
def swp (i : ℤ) : ℤ := if i = 1 then 2 else if i = 2 then 1 else i

/-- The state with its new ID. -/
def swapState (s : State) : State := ⟨s.toParticle, swp s.index⟩

/-- The object with its new ID. -/
def swapObj : Obj → Obj
  | .particle p => .particle p
  | .state s => .state (swapState s)

/-- The decay node with new IDs. -/
def swapNode : Node → Node
  | .leaf o => .leaf (swapObj o)
  | .isobar p c1 c2 ls => .isobar (swapObj p) (swapNode c1) (swapNode c2) ls

/-- The chain with new IDs. -/
def swapChain (c : Chain) : Chain :=
  ⟨swapNode c.decay, swapState c.parent, swapObj c.resonance, swapState c.product1,
    swapState c.product2, swapState c.spectator, c.incomingLs, c.outgoingLs⟩

/-- The decay with new IDs. -/
def swapDecay (d : Decay) : Decay :=
  ⟨d.states.map fun x => (swp x.1, swapState x.2), d.chains.map swapChain⟩

/-- `ι'` describes the same kinematic point as `ι` with the IDs 1 and 2 exchanged: masses and Mandelstam variables
carry the new IDs. Nothing is said about the couplings. -/
structure SwappedPoint (ι ι' : Interp) : Prop where
  functions : SameFunctions ι ι'
  masses : ∀ i ∈ ([0, 1, 2, 3] : List ℤ),
    ι'.sym ⟨"m" ++ toString (swp i), .nonneg⟩ = ι.sym ⟨"m" ++ toString i, .nonneg⟩
  mandelstam : ∀ i ∈ ([1, 2, 3] : List ℤ),
    ι'.sym ⟨"sigma" ++ toString (swp i), .nonneg⟩ = ι.sym ⟨"sigma" ++ toString i, .nonneg⟩

/-- The Wigner functions of the interpretation have the symmetries of the Wigner d-functions under `x → -x` and
`x → π - x`. (For `|m'| > j` both sides are 0.) -/
structure MirrorsWigner (ι : Interp) : Prop where
  neg : ∀ {j : ℚ}, IsHalfInteger j → ∀ m ∈ projections j, ∀ m' ∈ projections j, ∀ x : ℝ,
    ι.wig j m m' ((-x : ℝ) : ℂ) = minusOnePow (m - m') * ι.wig j m m' (x : ℂ)
  supplement : ∀ {j : ℚ}, IsHalfInteger j → ∀ m ∈ projections j, ∀ m', IsInteger (j - m') → ∀ x : ℝ,
    ι.wig j m (-m') ((Real.pi - x : ℝ) : ℂ) = minusOnePow (j + m) * ι.wig j m m' (x : ℂ)

/-- Sign of a chain under the exchange of the IDs 1 and 2: `(-1)^(J + s₀ + s_k)`, where `J` is the spin of the
resonance, `s₀` that of the decaying particle and `s_k` that of the spectator. -/
noncomputable def swapSign (c : Chain) : ℂ :=
  minusOnePow (c.resonance.toP.spin + c.parent.spin + c.spectator.spin)

end Verif.Spec
