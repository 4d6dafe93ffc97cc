import Verif.Spec.Builder
import Mathlib.Data.Finset.Powerset
import Mathlib.Data.Complex.BigOperators

/-! Specification for C108: models for parts of the chains of a decay. -/
namespace Verif.Spec
open Verif Verif.ThreeBody

/-- `b'` is a builder for the same decay and with the same conventions as `b`, for the chains with a label in `S`. -/
structure PartOf {κ : Type*} [DecidableEq κ] (b : Builder) (label : Chain → κ) (S : Finset κ) (b' : Builder) : Prop where
  states : b'.decay.states = b.decay.states
  chains : b'.decay.chains = b.decay.chains.filter fun c => label c ∈ S
  production : b'.useProdHel = b.useProdHel
  decay : b'.useDecHel = b.useDecHel

/-- `I` is the sum of the values of single parts and of the interference of pairs of parts, where the interference
of two parts is the value for both minus the two single values. -/
def SumOfPairs {κ : Type*} [DecidableEq κ] (S : Finset κ) (I : ℂ) (part : Finset κ → ℂ) : Prop :=
  I = ∑ x ∈ S, part {x} + ∑ P ∈ S.powersetCard 2, (part P - ∑ x ∈ P, part {x})

end Verif.Spec
