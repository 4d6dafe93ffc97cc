import Verif.Spec.SerialDynamics

/-!
Specification of complete serialized models with the built-in lineshapes. Of the model, only the data
types are used.
-/
namespace Verif.Serialization
open Verif Verif.ThreeBody Verif.Spec

/-- The definition has all these fields. -/
def HasFields (d : PyDict String ℚ) (names : List String) : Prop := ∀ x ∈ names, ∃ v, PyDict.get? d x = some v

/-- The propagator has a Breit-Wigner function with its parameters, or one with at least two channels. -/
def CompleteLineshape (m : ModelDefinition) (p : Propagator) : Prop :=
  ∃ f, FunctionNamed m p.parametrization f ∧
    ((f.type = "BreitWigner" ∧ HasFields f.fields ["mass", "width", "l", "ma", "mb", "d"]) ∨
    (f.type = "MultichannelBreitWigner" ∧ HasFields f.fields ["mass"] ∧ ∃ c1 c2 cs,
      f.channels = some (c1 :: c2 :: cs) ∧ HasFields c1 ["gsq", "l", "ma", "mb", "d"] ∧
      ∀ c ∈ c2 :: cs, HasFields c ["gsq", "l", "ma", "mb"]))

/-- The vertex has no form factor, or a Blatt-Weisskopf function with its parameters. -/
def CompleteFormFactor (m : ModelDefinition) (v : Vertex) : Prop :=
  v.formfactor = none ∨ v.formfactor = some "" ∨ ∃ name f, v.formfactor = some name ∧ FunctionNamed m name f ∧
    f.type = "BlattWeisskopf" ∧ HasFields f.fields ["l", "radius"]

/-- The nodes of vertices and propagators are pairs of final states, or such a pair with the third state. -/
structure StandardNodes (c : ChainDefinition) : Prop where
  vertices : ∀ v ∈ c.vertices, ∃ i j k, [i, j, k].Perm [1, 2, 3] ∧
    (v.node = [.id i, .id j] ∨ ProductionNode v.node (.id i) (.id j) k)
  propagators : ∀ p ∈ c.propagators, ∃ i j k, [i, j, k].Perm [1, 2, 3] ∧ p.node = [.id i, .id j]

/-- A chain definition with everything that an amplitude with the built-in lineshapes needs. -/
structure CompleteDefinition (m : ModelDefinition) (c : ChainDefinition) : Prop where
  vertices : ∀ v ∈ c.vertices, KnownVertex v
  weight : c.weight.isSome
  spin : ∃ s, HasSpin c s ∧ IsHalfInteger s
  topology : ∃ k ∈ ([1, 2, 3] : List ℤ), IsSpectator c.topology k
  lineshapes : ∀ p ∈ c.propagators, CompleteLineshape m p
  formFactors : ∀ v ∈ c.vertices, CompleteFormFactor m v

end Verif.Serialization
