import Verif.Spec.Qrules
import Verif.Spec.Spin
import Verif.Model.Dynamics

/-!
From QRules transitions to an amplitude model: what a user does, and what the transitions satisfy.
-/
namespace Verif.Spec
open Verif Verif.ThreeBody Verif.Qrules

/-- Transitions of one three-body decay: the initial state has ID `a`, the final states have the IDs
`f1 < f2 < f3`, the resonance has ID `r`, and these IDs are increasing, as those of QRules. `S k` is
the outer state number `k`, with number 0 for the initial state. `ls 0` and `ls 1` tell whether LS
couplings are defined at the production nodes and the decay nodes. -/
structure OneDecay (ts : List (Transition QObj QNode)) (a f1 f2 f3 r : ℤ) (S : ℤ → State)
    (ls : ℤ → Bool) : Prop where
  nonempty : ts ≠ []
  increasing : a < f1 ∧ f1 < f2 ∧ f2 < f3 ∧ f3 < r
  states : ∀ k, k ∈ ([0, 1, 2, 3] : List ℤ) →
    (S k).index = k ∧ (S k).parity ≠ none ∧ IsHalfInteger (S k).spin
  body : ∀ t ∈ ts, ∃ s i j, ThreeBody t a s r i j ∧
    ∀ k, (k = s ∨ k = i ∨ k = j) ↔ (k = f1 ∨ k = f2 ∨ k = f3)
  nodes : ∀ t ∈ ts, PyDict.keys t.interactions = [0, 1]
  resonance : ∀ t ∈ ts, ∃ o q, PyDict.get? t.states r = some o ∧ o.attrs = some q ∧
    q.parity ≠ none ∧ IsHalfInteger q.spin
  outer : ∀ t ∈ ts, ∀ x, x ∈ [(a, (0 : ℤ)), (f1, 1), (f2, 2), (f3, 3)] →
    ∃ o, PyDict.get? t.states x.1 = some o ∧ SameParticle o (S x.2).toParticle ∧
      ∀ s', o = .dpd (.state s') → s'.index = x.2
  couplings : ∀ t ∈ ts, ∀ n x, PyDict.get? t.interactions n = some x → ∃ y, HasCoupling x y ∧
    y.isSome = ls n ∧ ∀ z, y = some z → IsHalfInteger z.S

/-- The steps of a user: build a decay object, construct the amplitude builder, register the same
lineshape builder for each chain (or none), and formulate. -/
def amplitudeModel (ts : List (Transition QObj QNode)) (minLs : MinLsArg) (helicity : MinLs)
    (allSubsystems : Bool) (lineshape : Option BreitWignerBuilder) (reference : Option ℤ)
    (cl uc : Bool) : Py AmplitudeModel := do
  let d ← toThreeBodyDecay ts minLs
  let b ← Builder.new d helicity allSubsystems
  let registrations := (lineshape.map fun bw => d.chains.map fun c => (Ident.chain c, bw.call)).getD []
  { b with dynamics := b.dynamics.run registrations }.formulate reference cl uc

/-- Helicity couplings at the production and decay nodes. -/
def helicityBases : MinLs → Option (Bool × Bool)
  | .bool b => some (b, b)
  | .pair p d => some (p, d)
  | .other => none

/-- The lineshape builder has the LS couplings that it needs. -/
def LineshapeOk (ls : ℤ → Bool) (bw : BreitWignerBuilder) : Prop :=
  ((bw.energyDependentWidth = true ∨ bw.decayFormFactor = true) → ls 1 = true) ∧
    (bw.productionFormFactor = true → ls 0 = true)

end Verif.Spec
