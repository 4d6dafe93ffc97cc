import Verif.Spec.Amplitude
import Verif.Model.REval
import Mathlib.Analysis.SpecialFunctions.Trigonometric.Basic

/-!
The properties of the Wigner d-function that the choice of reference subsystem depends on: for each
spin the matrices `d^j(x)` are a real one-parameter group, `d^j(-x)` is the transpose of `d^j(x)`,
and a full turn is the sign `(-1)^{2j}`.
-/
namespace Verif.Spec
open Verif Verif.ThreeBody

open Classical in
/-- `d j m m' x` are the Wigner d-matrices. -/
structure IsWignerD (d : ℚ → ℚ → ℚ → ℝ → ℝ) : Prop where
  zero : ∀ {j}, IsHalfInteger j → ∀ m ∈ projections j, ∀ m' ∈ projections j,
    d j m m' 0 = if m = m' then 1 else 0
  add : ∀ {j}, IsHalfInteger j → ∀ m ∈ projections j, ∀ m' ∈ projections j, ∀ x y,
    d j m m' (x + y) = ∑ n ∈ projections j, d j m n x * d j n m' y
  neg : ∀ {j}, IsHalfInteger j → ∀ m ∈ projections j, ∀ m' ∈ projections j, ∀ x,
    d j m m' (-x) = d j m' m x
  turn : ∀ {j}, IsHalfInteger j → ∀ m ∈ projections j, ∀ m' ∈ projections j, ∀ x,
    d j m m' (x + 2 * Real.pi) = (if IsInteger j then 1 else -1) * d j m m' x

/-- The Wigner function of the interpretation is the given one at real angles. -/
def UsesWignerD (ι : Interp) (d : ℚ → ℚ → ℚ → ℝ → ℝ) : Prop :=
  ∀ j m m' (x : ℝ), ι.wig j m m' (x : ℂ) = (d j m m' x : ℂ)

/-- Every angle that the model defines has the value of its definition, at the values `ρ` of masses
and Mandelstam variables. -/
def AnglesAt (ι : Interp) (ρ : Sym → ℝ) (m : AmplitudeModel) : Prop :=
  ∀ s e v, PyDict.get? m.angleDefs s = some e → e.eval ρ = some v → ι.sym s = v

open Classical in
/-- Sign of the amplitudes of subsystem `k` when the reference changes from `r₁` to `r₂`: `-1` for
the third subsystem if the initial spin is half-integer, otherwise `1`. -/
noncomputable def refSign (d : Decay) (r₁ r₂ k : ℤ) : ℝ :=
  if IsInteger (d.spin 0) ∨ k = r₁ ∨ k = r₂ then 1 else -1

end Verif.Spec
