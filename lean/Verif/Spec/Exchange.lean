import Verif.Spec.Closure
import Verif.Spec.Amplitude
import Verif.Spec.Dynamics
import Verif.Spec.Wigner
import Mathlib.Logic.Equiv.Basic

/-! Specification of the exchange of two identical particles in the final state (C80). -/
namespace Verif.Spec
open Verif Verif.ThreeBody

/-- `ι'` describes the kinematic point of `ι` with the final states `a` and `b` exchanged, which have
the same mass: the Mandelstam variables are exchanged, parameters and functions are the same. -/
structure Exchanged (a b : ℤ) (ι ι' : Interp) : Prop where
  functions : SameFunctions ι ι'
  couplings : ι'.idx = ι.idx
  masses : ∀ i ∈ ([0, 1, 2, 3] : List ℤ), ι'.sym ⟨"m" ++ toString i, .nonneg⟩ = ι.sym ⟨"m" ++ toString i, .nonneg⟩
  equal : ι.sym ⟨"m" ++ toString a, .nonneg⟩ = ι.sym ⟨"m" ++ toString b, .nonneg⟩
  mandelstam : ∀ i ∈ ([1, 2, 3] : List ℤ),
    ι'.sym ⟨"sigma" ++ toString i, .nonneg⟩ = ι.sym ⟨"sigma" ++ toString (Equiv.swap a b i), .nonneg⟩

/-- The chain `c'` is the chain `c` with the final states `a` and `b` exchanged: the same resonance with
the same LS couplings, in the other subsystem. -/
structure Mirrored (a b : ℤ) (c c' : Chain) : Prop where
  resonance : c'.resonance.toP = c.resonance.toP
  spectator : c'.spectator.index = Equiv.swap a b c.spectator.index
  incoming : c'.incomingLs = c.incomingLs
  outgoing : c'.outgoingLs = c.outgoingLs
  order : ResonanceFirst c' ↔ ResonanceFirst c

/-- With each chain, the decay has the chain with `a` and `b` exchanged. -/
def ExchangeClosed (a b : ℤ) (d : Decay) (mirror : Chain → Chain) : Prop :=
  (d.chains.map mirror).Perm d.chains ∧ ∀ c ∈ d.chains, Mirrored a b c (mirror c)

/-- `d^J_{00}(π - x) = (-1)^J d^J_{00}(x)`, as for Legendre polynomials. -/
def Reflects (D : ℚ → ℚ → ℚ → ℝ → ℝ) : Prop :=
  ∀ (J : ℕ) (x : ℝ), D J 0 0 (Real.pi - x) = (-1) ^ J * D J 0 0 x

end Verif.Spec
