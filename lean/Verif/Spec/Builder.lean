import Verif.Model.Builder
import Verif.Spec.Decay
import Verif.Spec.Spin

/-!
Specification vocabulary for the amplitude builder: which decays are considered, what a spin
projection is, which lineshape each chain has.
-/
namespace Verif.Spec
open Verif Verif.ThreeBody

/-- `m` is a spin projection of spin `j`: one of `-j, -j+1, ..., j`. -/
def Projection (j m : ℚ) : Prop := -j ≤ m ∧ m ≤ j ∧ IsInteger (j - m)

/-- A valid decay whose states are stored under their IDs `0, 1, 2, 3` and whose spins have passed
the validators of `Particle`/`State`. -/
structure Standard (d : Decay) : Prop where
  valid : d.Valid
  keys : (PyDict.keys d.states).Perm [0, 1, 2, 3]
  index : ∀ x ∈ d.states, x.2.index = x.1
  spins : ∀ x ∈ d.states, IsHalfInteger x.2.spin
  resonances : ∀ c ∈ d.chains, IsHalfInteger c.resonance.toP.spin

/-- No state has a negative spin (the code accepts negative spins). -/
def NonnegSpins (d : Decay) : Prop := ∀ x ∈ d.states, 0 ≤ x.2.spin

/-- `dyn c` is what the builder found for the resonance name of `c` returns for `c`. -/
def Lineshapes (b : Builder) (dyn : Chain → DefExpr) : Prop :=
  ∀ c ∈ b.decay.chains, ∃ g, b.dynamics.getBuilder unitDynamics (.name c.resonance.toP.name) = .ok g ∧
    g c = .ok (dyn c)

/-- Subsystem `k` is formulated: all three if `all_subsystems`, otherwise those with chains. -/
def Selected (b : Builder) (k : ℤ) : Prop :=
  if b.allSubsystems then k = 1 ∨ k = 2 ∨ k = 3 else ∃ c ∈ b.decay.chains, c.spectator.index = k

/-- The reference subsystem, if given, is 1, 2 or 3. -/
def RefOk (reference : Option ℤ) : Prop := ∀ r, reference = some r → r = 1 ∨ r = 2 ∨ r = 3

/-- The reference subsystem that is used: the given one or the best one. -/
def UsedRef (b : Builder) (reference : Option ℤ) (ref : ℤ) : Prop :=
  match reference with
  | none => b.decay.bestReference = .ok ref
  | some r => r = ref

/-- The angle symbols in the Wigner functions of an expression. -/
def wigAngles : Expr → List Sym
  | .wig _ _ _ θ => [θ]
  | .num _ | .I | .sym _ | .idx _ | .phase _ | .kron .. | .cg .. => []
  | .add a b | .sub a b | .mul a b | .div a b => wigAngles a ++ wigAngles b
  | .neg a | .pow a _ | .sqrt a | .exp a | .abs a => wigAngles a
  | .ff s m1 m2 _ R => wigAngles s ++ wigAngles m1 ++ wigAngles m2 ++ wigAngles R
  | .edw s m0 g0 m1 m2 _ R _ => wigAngles s ++ wigAngles m0 ++ wigAngles g0 ++ wigAngles m1 ++
      wigAngles m2 ++ wigAngles R
  | .bmom s m1 m2 => wigAngles s ++ wigAngles m1 ++ wigAngles m2
  | .psum body _ => wigAngles body

/-- The chain has the LS couplings that the chosen bases need. -/
def HasLS (b : Builder) (c : Chain) : Prop :=
  (b.useProdHel = false → c.incomingLs ≠ none) ∧ (b.useDecHel = false → c.outgoingLs ≠ none)

end Verif.Spec

namespace Verif.ThreeBody

/-- The state stored under ID `i`. -/
def Decay.st (d : Decay) (i : ℤ) : State :=
  (PyDict.get? d.states i).getD ⟨⟨"", "", 0, none, 0, 0⟩, 0⟩

/-- The spin of state `i`. -/
def Decay.spin (d : Decay) (i : ℤ) : ℚ := (d.st i).spin

end Verif.ThreeBody
