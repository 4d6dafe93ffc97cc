import Verif.Spec.Amplitude

/-!
Specification of the couplings of a model: which symbols scale which chain.
-/
namespace Verif.Spec
open Verif Verif.ThreeBody

/-- The symbols that scale the chain `c` if the resonance has the helicity `lR` and the final states the
helicities `lk` (spectator), `li` and `lj` (decay products): the production and the decay coupling, labelled by
the LaTeX of the resonance, or one coefficient, whose name contains the LaTeX of the resonance. The indices
are the helicities of the children of the vertex, or `L` and `S`. -/
def couplingSymbols (b : Builder) (c : Chain) (useCoefficients : Bool) (lR lk li lj : ℚ) : List Indexed :=
  let R := c.resonance.toP.latex
  let p := couplingIndices b.useProdHel c.incomingLs lR lk
  let q := couplingIndices b.useDecHel c.outgoingLs li lj
  if useCoefficients then [⟨coefficientName R b.useProdHel b.useDecHel, none, (p ++ q).map .num⟩]
  else [⟨couplingName b.useProdHel "production", some R, p.map .num⟩,
    ⟨couplingName b.useDecHel "decay", some R, q.map .num⟩]

/-- Helicities that contribute to the chain `c`: those of the four states and that of the resonance are
projections of the spins, and the resonance has helicity `λ0 + λk`. -/
structure Contributes (d : Decay) (c : Chain) (l : ℤ → ℚ) : Prop where
  states : ∀ i ∈ ([0, 1, 2, 3] : List ℤ), Projection (d.spin i) (l i)
  resonance : Projection c.resonance.toP.spin (l 0 + l c.spectator.index)

/-- The interpretation in which all couplings and coefficients of resonances with the LaTeX `R` are zero, and
everything else is as in `ι`. -/
noncomputable def withoutResonance (ι : Interp) (b : Builder) (useCoefficients : Bool) (R : String) : Interp :=
  { ι with idx := fun name label ix =>
      if (useCoefficients = true ∧ name = coefficientName R b.useProdHel b.useDecHel ∧ label = none) ∨
        (useCoefficients = false ∧ label = some R) then 0 else ι.idx name label ix }

end Verif.Spec
