import Verif.Spec.SerialAmplitude
import Verif.Spec.Relabel

/-!
Specification of a cyclic renumbering of the final states of a serialized model (C100). Of the model,
only the data types are used.
-/
namespace Verif.Serialization
open Verif Verif.ThreeBody Verif.Spec

mutual
/-- A node or topology with new IDs. -/
def renumberTree : Tree → Tree
  | .id i => .id (cyc i)
  | .seq l => .seq (renumberTrees l)
/-- Its items with new IDs. -/
def renumberTrees : List Tree → List Tree
  | [] => []
  | t :: l => renumberTree t :: renumberTrees l
end

/-- A state with its new ID. -/
def renumberStateDef (d : StateDefinition) : StateDefinition := { d with index := cyc d.index }

/-- A propagator with new IDs. -/
def renumberPropagator (p : Propagator) : Propagator := { p with node := renumberTrees p.node }

/-- A vertex with new IDs. The order of the items does not change, and neither do the helicities. -/
def renumberVertex (v : Vertex) : Vertex := { v with node := renumberTrees v.node }

/-- A chain definition with new IDs. -/
def renumberChainDef (c : ChainDefinition) : ChainDefinition :=
  { c with propagators := c.propagators.map renumberPropagator, vertices := c.vertices.map renumberVertex,
           topology := renumberTrees c.topology }

/-- A distribution with new IDs. -/
def renumberDistribution (D : Distribution) : Distribution where
  kinematics := ⟨renumberStateDef D.kinematics.initialState, D.kinematics.finalState.map renumberStateDef⟩
  referenceTopology := renumberTrees D.referenceTopology
  chains := D.chains.map renumberChainDef

/-- The model definition with new IDs. -/
def renumberModel (m : ModelDefinition) : ModelDefinition :=
  { m with distributions := m.distributions.map renumberDistribution }

/-- What the vertices of a renumbered chain definition say. -/
def renumberReading (r : Reading) : Reading := { r with i := cyc r.i, j := cyc r.j, k := cyc r.k }

/-- The weights of the renumbered chains have the same values. Their symbols are in general other ones,
because their names contain the helicities of the states in the order of the IDs. -/
def SameWeights (ι ι' : Interp) (toLatex : String → String) (chains : List ChainDefinition)
    (rd : ChainDefinition → Reading) : Prop :=
  ∀ c ∈ chains, ι'.sym (weightSymbol toLatex (renumberChainDef c) (renumberReading (rd c))) =
    ι.sym (weightSymbol toLatex c (rd c))

/-- A node of two of the states 1, 2 and 3. -/
def PairNode (node : List Tree) : Prop := ∃ i j k, node = [.id i, .id j] ∧ [i, j, k].Perm [1, 2, 3]

/-- Every propagator is for two of the final states, and so is the resonance in every vertex. -/
structure PairNodes (c : ChainDefinition) : Prop where
  propagators : ∀ p ∈ c.propagators, PairNode p.node
  vertices : ∀ v ∈ c.vertices, PairNode v.node ∨
    ∃ i j k, ProductionNode v.node (.id i) (.id j) k ∧ [i, j, k].Perm [1, 2, 3]

/-- The parameters of the lineshapes and form factors have the same values. -/
def SameLineshapeParameters (ι ι' : Interp) : Prop :=
  ∀ s : Sym, s.asm = .nonneg → (∀ i ∈ ([0, 1, 2, 3] : List ℤ), s.name ≠ "m" ++ toString i) →
    (∀ i ∈ ([1, 2, 3] : List ℤ), s.name ≠ "sigma" ++ toString i) → ι'.sym s = ι.sym s

end Verif.Serialization
