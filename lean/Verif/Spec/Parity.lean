import Verif.Spec.ClebschGordan

/-! Specification of parity conservation. -/
namespace Verif.Spec
open Verif Verif.ThreeBody

/-- The Wigner functions of the interpretation have the symmetry of the Wigner d-functions:
`d^j_{-m,-m'} = (-1)^(m-m') d^j_{m,m'}`. (For `|m'| > j` both sides are 0.) -/
def ReflectsWigner (ι : Interp) : Prop :=
  ∀ {j : ℚ}, IsHalfInteger j → ∀ m ∈ projections j, ∀ m', IsInteger (j - m') → ∀ x,
    ι.wig j (-m) (-m') x = minusOnePow (m - m') * ι.wig j m m' x

/-- Parity is conserved in a decay with angular momentum `L`: `p = p₁ p₂ (-1)^L`. -/
def VertexParity (p p₁ p₂ L : ℤ) : Prop := p = p₁ * p₂ * (if Even L then 1 else -1)

/-- The sign by which a helicity amplitude `j → s₁ s₂` changes if both helicities are reversed, if parity is
conserved: `p p₁ p₂ (-1)^(s₁+s₂-j)`. -/
noncomputable def vertexSign (p p₁ p₂ : ℤ) (j s₁ s₂ : ℚ) : ℂ := (p * p₁ * p₂ : ℤ) * minusOnePow (s₁ + s₂ - j)

/-- All particles of the chain have a parity: `r` for the resonance and `P i` for state `i`. -/
def HasParities (P : ℤ → ℤ) (r : ℤ) (c : Chain) : Prop :=
  (r = 1 ∨ r = -1) ∧ c.resonance.toP.parity = some r ∧
    ∀ s ∈ [c.parent, c.product1, c.product2, c.spectator],
      s.parity = some (P s.index) ∧ (P s.index = 1 ∨ P s.index = -1)

/-- Parity is conserved at both vertices of the chain: by the angular momentum if the vertex has an LS coupling, and by
the symmetry of the values of the helicity couplings if it has these. -/
def ConservesParity (ι : Interp) (b : Builder) (useCoefficients : Bool) (P : ℤ → ℤ) (c : Chain) : Prop :=
  ∃ r, HasParities P r c ∧
    (b.useProdHel = false →
      ∃ a, c.incomingLs = some a ∧ VertexParity (P c.parent.index) r (P c.spectator.index) a.L) ∧
    (b.useDecHel = false →
      ∃ a, c.outgoingLs = some a ∧ VertexParity r (P c.product1.index) (P c.product2.index) a.L) ∧
    (b.useDecHel = true → IsInteger (c.resonance.toP.spin - c.product1.spin - c.product2.spin)) ∧
    ∀ lR lk li lj, couplings ι b c useCoefficients (-lR) (-lk) (-li) (-lj) =
      (if b.useProdHel then vertexSign (P c.parent.index) r (P c.spectator.index)
        c.parent.spin c.resonance.toP.spin c.spectator.spin else 1) *
      (if b.useDecHel then vertexSign r (P c.product1.index) (P c.product2.index)
        c.resonance.toP.spin c.product1.spin c.product2.spin else 1) *
      couplings ι b c useCoefficients lR lk li lj

/-- The sign of an amplitude when all helicities are reversed. -/
noncomputable def paritySign (d : Decay) (P : ℤ → ℤ) (l : Fin 4 → ℚ) : ℂ :=
  (P 0 * P 1 * P 2 * P 3 : ℤ) *
    minusOnePow ((l 0 - d.spin 0) + (d.spin 1 - l 1) + (d.spin 2 - l 2) + (d.spin 3 - l 3))

/-- Intensity for one helicity `M` of the decaying particle, summed over the helicities of the final states. -/
noncomputable def polarised (ι : Interp) (d : Decay) (ref : ℤ) (A : ℤ → (Fin 4 → ℚ) → ℂ) (M : ℚ) : ℝ :=
  ∑ l ∈ helicities d with l 0 = M, ‖aligned ι d ref A l‖ ^ 2

end Verif.Spec
