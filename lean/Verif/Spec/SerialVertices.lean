import Verif.Spec.Serialization

/-! How the vertices of a chain definition are read, for any list of vertices (C52). -/
namespace Verif.Serialization
open Verif Verif.ThreeBody

/-- `x` is the first item of the list for which `P x y` holds for some `y`, and `y` is that one. -/
def FirstWith {α β : Type} (P : α → β → Prop) (l : List α) (y : β) : Prop :=
  ∃ pre x post, l = pre ++ x :: post ∧ P x y ∧ ∀ z ∈ pre, ∀ w, ¬ P z w

/-- The vertex has exactly two final-state IDs as children. -/
def DecayVertex (v : Vertex) (ids : ℤ × ℤ) : Prop := v.node = [.id ids.1, .id ids.2]

/-- The tree is the ID `i`. -/
def IsId (t : Tree) (i : ℤ) : Prop := t = .id i

/-- One of the children of the vertex is a subsystem, and `k` is the first child that is an ID. -/
def ProductionVertex (v : Vertex) (k : ℤ) : Prop := (∃ s, .seq s ∈ v.node) ∧ FirstWith IsId v.node k

end Verif.Serialization
