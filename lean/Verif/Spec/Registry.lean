import Verif.Model.Configurator

/-!
Specification of the dynamics registry: which chain an identifier denotes, and which builder a
history of registrations leaves for a chain.
-/
namespace Verif.Spec
open Verif.ThreeBody

/-- The chain of decay `d` that an identifier denotes: a chain of the decay denotes itself, a
string denotes the first chain whose resonance has that name. -/
inductive Denotes (d : Decay) : Ident → Chain → Prop
  | chain (c : Chain) : c ∈ d.chains → Denotes d (.chain c) c
  | name (pre : List Chain) (c : Chain) (post : List Chain) : d.chains = pre ++ c :: post →
      (∀ x ∈ pre, x.resonance.toP.name ≠ c.resonance.toP.name) →
      Denotes d (.name c.resonance.toP.name) c

/-- `b` is the builder of the last call in the history whose identifier denotes `c`. -/
def LastRegistered {B : Type} (d : Decay) (history : List (Ident × B)) (c : Chain) (b : B) : Prop :=
  ∃ before i after, history = before ++ (i, b) :: after ∧ Denotes d i c ∧
    ∀ x ∈ after, ¬ Denotes d x.1 c

end Verif.Spec
