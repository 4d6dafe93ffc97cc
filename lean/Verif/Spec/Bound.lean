import Verif.Spec.Projection

/-! Specification for C115: upper bounds on the intensity. -/
namespace Verif.Spec
open Verif Verif.ThreeBody

/-- The angles have real values. -/
structure RealAngles (ι : Interp) : Prop where
  decay : ∀ i j : ℤ, ∃ x : ℝ, ι.sym (decayAngle i j) = x
  alignment : ∀ n k r : ℤ, ∃ x : ℝ, ι.sym (zetaSymbol n k r) = x

open Classical in
/-- Strength of a chain with spectator `k` and decay products `i`, `j`: the squared moduli of its couplings, multiplied with
the Clebsch-Gordan factors in the LS basis, summed over the helicities for which `λ0 + λk` and `λi - λj` are projections of the
spin of the resonance. -/
noncomputable def chainStrength (ι : Interp) (b : Builder) (useCoefficients : Bool) (i j k : ℤ) (c : Chain) : ℝ :=
  ∑ l ∈ helicities b.decay,
    if Projection c.resonance.toP.spin (helicityOf l 0 + helicityOf l k) ∧
        Projection c.resonance.toP.spin (helicityOf l i - helicityOf l j) then
      ‖couplings ι b c useCoefficients (helicityOf l 0 + helicityOf l k) (helicityOf l k) (helicityOf l i) (helicityOf l j) *
        decayFactor ι b c (helicityOf l) * productionFactor ι b c (helicityOf l 0 + helicityOf l k) (helicityOf l k)‖ ^ 2
    else 0

/-- The coupling of a chain in the LS basis: the product of the couplings of production and decay, or one coefficient. -/
noncomputable def lsCoupling (ι : Interp) (c : Chain) (useCoefficients : Bool) (p q : LS) : ℂ :=
  let R := c.resonance.toP.latex
  if useCoefficients then ι.idx ("\\mathcal{H}^\\mathrm{LS," ++ R ++ "}") none [p.L, p.S, q.L, q.S]
  else ι.idx "\\mathcal{H}^\\mathrm{LS,production}" (some R) [p.L, p.S] *
    ι.idx "\\mathcal{H}^\\mathrm{LS,decay}" (some R) [q.L, q.S]

end Verif.Spec
