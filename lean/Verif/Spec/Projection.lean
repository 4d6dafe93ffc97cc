import Verif.Spec.Amplitude
import Mathlib.Analysis.SpecialFunctions.Trigonometric.Basic

/-!
Specification of the projection of the intensity of one subsystem on the mass of the resonances: what
remains after integration over the decay angle.
-/
namespace Verif.Spec
open Verif Verif.ThreeBody

/-- The values of `ι`, except for the symbol `s`, which has the value `x`. -/
noncomputable def withSymbol (ι : Interp) (s : Sym) (x : ℝ) : Interp :=
  { ι with sym := fun t => if t = s then (x : ℂ) else ι.sym t }

/-- The decay angle `θ_ij`. -/
def decayAngle (i j : ℤ) : Sym := ⟨"theta_" ++ toString i ++ toString j, .real⟩

/-- Helicity of the state with the given ID. -/
def helicityOf (l : Fin 4 → ℚ) (n : ℤ) : ℚ := if n = 1 then l 1 else if n = 2 then l 2 else if n = 3 then l 3 else l 0

/-- The spins of the resonances. -/
def resonanceSpins (d : Decay) : Finset ℚ := (d.chains.map fun c => c.resonance.toP.spin).toFinset

/-- Lineshape, couplings and Clebsch-Gordan factors of a chain. -/
noncomputable def strength (ι : Interp) (b : Builder) (useCoefficients : Bool) (lineshape : Chain → ℂ) (i j k : ℤ)
    (l : ℤ → ℚ) (c : Chain) : ℂ :=
  lineshape c * couplings ι b c useCoefficients (l 0 + l k) (l k) (l i) (l j) * decayFactor ι b c l *
    productionFactor ι b c (l 0 + l k) (l k)

open Classical in
/-- Contribution of the resonances with spin `J` in subsystem `k` to the intensity, integrated over the cosine
of the decay angle: `2/(2J+1) Σ_λ |Σ_c strength|²`, where `c` are the chains with spin `J` and the sum
runs over helicities for which `λ0 + λk` and `λi - λj` are projections of `J`. -/
noncomputable def spinIntensity (ι : Interp) (b : Builder) (useCoefficients : Bool) (lineshape : Chain → ℂ) (i j k : ℤ)
    (J : ℚ) : ℝ :=
  2 / (2 * (J : ℝ) + 1) * ∑ l ∈ helicities b.decay,
    if Projection J (helicityOf l 0 + helicityOf l k) ∧ Projection J (helicityOf l i - helicityOf l j) then
      ‖((b.decay.chains.filter fun c => c.resonance.toP.spin = J).map
        (strength ι b useCoefficients lineshape i j k (helicityOf l))).sum‖ ^ 2
    else 0

end Verif.Spec
