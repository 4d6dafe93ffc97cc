import Verif.Spec.Serialization
import Verif.Spec.Amplitude
import Verif.Model.SerialAmplitude

/-!
Specification of the amplitudes of a serialized model. Of the model, only the data types are used,
and `ratStr`, `ratLatex` (how SymPy prints a rational number) in the name of a weight.
-/
namespace Verif.Serialization
open Verif Verif.ThreeBody Verif.Spec

/-- What the vertices of a chain definition say: decay products `i`, `j` and spectator `k`, with the
helicities of resonance, spectator and decay products. -/
structure Reading where
  i : ℤ
  j : ℤ
  k : ℤ
  lR : ℚ
  lk : ℚ
  li : ℚ
  lj : ℚ

/-- A production vertex `[[a, b], k]` with helicities `[λR, λk]`, or both the other way around. -/
def ReadsProduction (v : Vertex) (r : Reading) : Prop :=
  ∃ a b, (v.node = [.seq [a, b], .id r.k] ∧ v.helicities = some [some r.lR, some r.lk]) ∨
    (v.node = [.id r.k, .seq [a, b]] ∧ v.helicities = some [some r.lk, some r.lR])

/-- A decay vertex `[i, j]` with helicities `[λi, λj]`. -/
def ReadsDecay (v : Vertex) (r : Reading) : Prop :=
  v.node = [.id r.i, .id r.j] ∧ v.helicities = some [some r.li, some r.lj]

/-- The chain definition has a production and a decay vertex, in either order, with these data. -/
def Reads (c : ChainDefinition) (r : Reading) : Prop :=
  ∃ p q, (c.vertices = [p, q] ∨ c.vertices = [q, p]) ∧ ReadsProduction p r ∧ ReadsDecay q r

open Classical in
/-- The factor of a parity vertex: `+` if there is none. -/
noncomputable def parityValue : Option String → ℤ
  | none => 1
  | some s => if Surrounded s ['-'] then -1 else if Surrounded s ['+'] then 1 else 0

/-- Coupling of a vertex with helicities `a`, `b` between children with helicities `x`, `y`: 1 if they
are those of the vertex, and for a parity vertex, in addition, the parity factor if they are the
opposite ones. -/
noncomputable def recouplingValue (parity : Option ℤ) (a b x y : ℚ) : ℂ :=
  (if x = a ∧ y = b then 1 else 0) +
    (match parity with
      | none => 0
      | some f => f * if x = -a ∧ y = -b then 1 else 0)

/-- The parity factor of a vertex, if it is a parity vertex. -/
noncomputable def vertexParity (v : Vertex) : Option ℤ :=
  if v.type = "parity" then some (parityValue v.parityFactor) else none

/-- Helicity of a child: that of the resonance, or of the final state with the given ID. -/
def childHelicity (lR : ℚ) (l : ℤ → ℚ) : Tree → ℚ
  | .id i => l i
  | .seq _ => lR

/-- Coupling of a vertex, for the helicities `lR` of the resonance and `l` of the final states. -/
noncomputable def vertexValue (v : Vertex) (lR : ℚ) (l : ℤ → ℚ) : ℂ :=
  match v.node, v.helicities with
  | [x, y], some [some a, some b] =>
    recouplingValue (vertexParity v) a b (childHelicity lR l x) (childHelicity lR l y)
  | _, _ => 0

/-- The reading is that of a decay to the states 1, 2 and 3. -/
def Reading.Standard (r : Reading) : Prop := [r.i, r.j, r.k].Perm [1, 2, 3]

/-- Helicity of a final state according to the vertices. -/
def Reading.hel (r : Reading) (x : ℤ) : ℚ := if x = r.i then r.li else if x = r.j then r.lj else r.lk

/-- The symbol of the weight of a chain: `c^{name[λR]}_{λ1, λ2, λ3}`. -/
def weightSymbol (toLatex : String → String) (c : ChainDefinition) (r : Reading) : Sym :=
  ⟨"c^{" ++ toLatex c.name ++ "[" ++ ratStr r.lR ++ "]}_{" ++
    ", ".intercalate [ratLatex (r.hel 1), ratLatex (r.hel 2), ratLatex (r.hel 3)] ++ "}", .none⟩

/-- The spin of the resonance. -/
def chainSpin (c : ChainDefinition) : ℚ :=
  match c.propagators with
  | p :: _ => p.spin.getD 0
  | [] => 0

/-- Contribution of a chain to the amplitude for final state helicities `l`: weight, couplings of the
vertices, Wigner d-function with the helicities *of the vertices*, lineshape and form factors. -/
noncomputable def serialValue (ι : Interp) (toLatex : String → String) (line : ChainDefinition → ℂ)
    (form : Vertex → ℂ) (l : ℤ → ℚ) (c : ChainDefinition) (r : Reading) : ℂ :=
  ι.sym (weightSymbol toLatex c r) * (c.vertices.map fun v => vertexValue v r.lR l).prod *
    ι.wig (chainSpin c) r.lR (r.li - r.lj)
      (ι.sym ⟨"theta_" ++ toString r.i ++ toString r.j, .real⟩) *
    (line c * (c.vertices.map form).prod)

/-- `line` and `form` are the values of the lineshapes and form factors of the chains, and these do
not depend on helicity symbols. -/
structure DynamicsValues (m : ModelDefinition) (chains : List ChainDefinition) (toLatex : String → String)
    (additional : Option (PyDict String PropagatorBuilder)) (ι : Interp) (line : ChainDefinition → ℂ)
    (form : Vertex → ℂ) : Prop where
  line : ∀ c ∈ chains, ∀ d, formulateDynamics c m toLatex additional = .ok d →
    ∀ η, d.expression.eval ι η = line c
  form : ∀ c ∈ chains, ∀ v ∈ c.vertices, ∀ d, formulateFormFactor v m = .ok d →
    ∀ η, d.expression.eval ι η = form v

/-- The helicities `l0, l1, l2, l3` by state ID. -/
def byId (l : Fin 4 → ℚ) : ℤ → ℚ := tup (l 0) (l 1) (l 2) (l 3)

/-- The first distribution of the model is `D`, for a decay of state 0 to the states 1, 2 and 3, and
the vertices of its chains have the readings `rd`. -/
structure ReadsModel (m : ModelDefinition) (D : Distribution) (rd : ChainDefinition → Reading) : Prop where
  head : ∃ rest, m.distributions = D :: rest
  kinematics : WellFormedKinematics D.kinematics
  reads : ∀ c ∈ D.chains, Reads c (rd c) ∧ (rd c).Standard

/-- A vertex of type `helicity`, or of type `parity` with a sign. -/
def KnownVertex (v : Vertex) : Prop := v.type = "helicity" ∨ v.type = "parity" ∧
  ∀ s, v.parityFactor = some s → Surrounded s ['+'] ∨ Surrounded s ['-'] ∨ Surrounded s []

/-- A chain definition with everything that an amplitude needs. -/
structure CompleteChain (m : ModelDefinition) (toLatex : String → String)
    (additional : Option (PyDict String PropagatorBuilder)) (c : ChainDefinition) : Prop where
  vertices : ∀ v ∈ c.vertices, KnownVertex v
  weight : c.weight.isSome
  spin : ∃ s, HasSpin c s ∧ IsHalfInteger s
  topology : ∃ k ∈ ([1, 2, 3] : List ℤ), IsSpectator c.topology k
  lineshape : ∃ d, formulateDynamics c m toLatex additional = .ok d
  formFactors : ∀ v ∈ c.vertices, ∃ d, formulateFormFactor v m = .ok d

/-- No spin is negative. -/
def NonnegativeSpins (D : Distribution) : Prop :=
  ∀ d ∈ D.kinematics.initialState :: D.kinematics.finalState, ∀ s, d.spin = some s → 0 ≤ s

/-- The helicities of the vertex, or the opposite ones for a parity vertex, are `lR` and `l`. -/
def VertexMatches (v : Vertex) (lR : ℚ) (l : ℤ → ℚ) : Prop :=
  ∃ x y a b, v.node = [x, y] ∧ v.helicities = some [some a, some b] ∧
    (childHelicity lR l x = a ∧ childHelicity lR l y = b ∨
      v.type = "parity" ∧ childHelicity lR l x = -a ∧ childHelicity lR l y = -b)

open Classical in
/-- The subsystems according to the topologies of the chain definitions. -/
noncomputable def topologySubsystems (chains : List ChainDefinition) : Finset ℤ :=
  ({1, 2, 3} : Finset ℤ).filter fun k => ∃ c ∈ chains, IsSpectator c.topology k

/-- The custom builders return lineshapes without helicity symbols. -/
def FreeBuilders (add : Option (PyDict String PropagatorBuilder)) (m : ModelDefinition) : Prop :=
  ∀ defs, add = some defs → ∀ x ∈ defs, ∀ p R e, x.2 p R m = .ok e → HelicityFree e.expression

/-- The parameters that the custom builders define are nonnegative symbols, as those of the built-in
lineshapes. Weights are no such symbols. -/
def NonnegativeParameters (add : Option (PyDict String PropagatorBuilder)) (m : ModelDefinition) : Prop :=
  ∀ defs, add = some defs → ∀ x ∈ defs, ∀ p R e, x.2 p R m = .ok e →
    ∀ y ∈ e.parameters, ∃ s : Sym, y.1 = .sym s ∧ s.asm = .nonneg

/-- The model definition with another reference topology. -/
def withReference (m : ModelDefinition) (t : List Tree) : ModelDefinition :=
  { m with distributions := m.distributions.modifyHead fun D => { D with referenceTopology := t } }

/-- The custom builders return the same when the reference topology is replaced by `t`. -/
def IgnoresReference (add : Option (PyDict String PropagatorBuilder)) (m : ModelDefinition) (t : List Tree) : Prop :=
  ∀ defs, add = some defs → ∀ x ∈ defs, ∀ p R, x.2 p R (withReference m t) = x.2 p R m

end Verif.Serialization
