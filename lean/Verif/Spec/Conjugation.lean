import Verif.Spec.Bound
import Verif.Spec.Closure
import Verif.Spec.SerialWeights

/-! Specification for C118: complex conjugation of couplings and lineshapes. -/
namespace Verif.Spec
open Verif Verif.ThreeBody

/-- The spins and orbital angular momenta that the builder uses in Clebsch-Gordan factors are not negative. -/
structure NonnegativeNumbers (c : Chain) : Prop where
  parent : 0 ≤ c.parent.spin
  resonance : 0 ≤ c.resonance.toP.spin
  incoming : ∀ ls, c.incomingLs = some ls → 0 ≤ ls.L
  outgoing : ∀ ls, c.outgoingLs = some ls → 0 ≤ ls.L

/-- The Clebsch-Gordan coefficients are real. -/
def RealClebschGordan (ι : Interp) : Prop := ∀ j1 m1 j2 m2 J M, ∃ x : ℝ, ι.cg j1 m1 j2 m2 J M = x

/-- The same values for the angles and the same special functions. -/
structure SameRotations (ι ι' : Interp) : Prop where
  decay : ∀ i j : ℤ, ι'.sym (decayAngle i j) = ι.sym (decayAngle i j)
  alignment : ∀ n k r : ℤ, ι'.sym (zetaSymbol n k r) = ι.sym (zetaSymbol n k r)
  wigner : ι'.wig = ι.wig
  cg : ι'.cg = ι.cg

end Verif.Spec
