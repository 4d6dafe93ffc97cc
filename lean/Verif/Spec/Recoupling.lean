import Verif.Spec.ClebschGordan
import Verif.Model.Spin

/-! Spins and helicities of a two-body decay, and chains that differ in their LS couplings. -/
namespace Verif.Spec
open Verif Verif.ThreeBody Verif.Spin

/-- Spins of a decay `J → s₁ s₂` that conserves angular momentum: integers and half-integers whose sum is an integer. -/
def DecaySpins (J s1 s2 : ℚ) : Prop :=
  (0 ≤ J ∧ IsHalfInteger J) ∧ (0 ≤ s1 ∧ IsHalfInteger s1) ∧ (0 ≤ s2 ∧ IsHalfInteger s2) ∧ IsInteger (J + s1 + s2)

open Classical in
/-- The pairs of helicities of a decay `J → s₁ s₂`: projections of the spins whose difference is a projection of `J`. -/
noncomputable def vertexHelicities (J s1 s2 : ℚ) : Finset (ℚ × ℚ) :=
  (projections s1 ×ˢ projections s2).filter fun h => Projection J (h.1 - h.2)

/-- The Wigner functions vanish if the second projection is not a projection of the spin. -/
def VanishingWigner (ι : Interp) : Prop := ∀ j m m' x, ¬ Projection j m' → ι.wig j m m' x = 0

/-- Two chains that differ at most in their LS couplings: same particles, in the same order. -/
structure SameParticles (c c' : Chain) : Prop where
  parent : c.parent = c'.parent
  resonance : c.resonance.toP = c'.resonance.toP
  spectator : c.spectator = c'.spectator
  product1 : c.product1 = c'.product1
  product2 : c.product2 = c'.product2
  order : ResonanceFirst c ↔ ResonanceFirst c'

/-- The spins at both vertices of the chain conserve angular momentum. -/
def ChainSpins (c : Chain) : Prop :=
  DecaySpins c.parent.spin c.resonance.toP.spin c.spectator.spin ∧
    DecaySpins c.resonance.toP.spin c.product1.spin c.product2.spin

/-- `maxL` is at least the highest orbital angular momentum of both vertices of the chain. -/
def MaxL (maxL : ℤ) (c : Chain) : Prop :=
  c.parent.spin + c.resonance.toP.spin + c.spectator.spin ≤ maxL ∧
    c.resonance.toP.spin + c.product1.spin + c.product2.spin ≤ maxL

/-- The chains `cs` have all combinations of LS couplings for production and decay of the chain `c`, each once. -/
def AllCouplings (maxL : ℤ) (cs : List Chain) (c : Chain) : Prop :=
  (cs.map fun c => (c.incomingLs, c.outgoingLs)).Perm
    ((generateLsCouplings c.parent.spin c.resonance.toP.spin c.spectator.spin maxL).flatMap fun p =>
      (generateLsCouplings c.resonance.toP.spin c.product1.spin c.product2.spin maxL).map fun q =>
        (some ⟨p.1, p.2⟩, some ⟨q.1, q.2⟩))

end Verif.Spec
