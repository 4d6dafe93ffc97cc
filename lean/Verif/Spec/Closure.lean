import Verif.Model.Builder
import Verif.Model.ExprEval
import Verif.Model.REval

/-!
Specification of closed models (C72): which symbols occur in expressions, and what it means that a
model leaves nothing undefined.
-/
namespace Verif.Spec
open Verif Verif.ThreeBody

/-- The symbols of a helicity expression. -/
def helSymbols : Hel → List Sym
  | .num _ => []
  | .sym s => [s]
  | .add a b | .sub a b => helSymbols a ++ helSymbols b
  | .neg a => helSymbols a

/-- The helicity symbols of an expression that no `PoolSum` around them binds. -/
def freeHelicities : Expr → List Sym
  | .num _ | .I | .sym _ => []
  | .idx x => x.ix.flatMap helSymbols
  | .phase h => helSymbols h
  | .kron a b => helSymbols a ++ helSymbols b
  | .wig _ m mp _ => helSymbols m ++ helSymbols mp
  | .cg j1 m1 j2 m2 j3 m3 => [j1, m1, j2, m2, j3, m3].flatMap helSymbols
  | .add a b | .sub a b | .mul a b | .div a b => freeHelicities a ++ freeHelicities b
  | .neg a | .pow a _ | .sqrt a | .exp a | .abs a => freeHelicities a
  | .ff s m1 m2 _ R => freeHelicities s ++ freeHelicities m1 ++ freeHelicities m2 ++ freeHelicities R
  | .edw s m0 g0 m1 m2 _ R _ => freeHelicities s ++ freeHelicities m0 ++ freeHelicities g0 ++
      freeHelicities m1 ++ freeHelicities m2 ++ freeHelicities R
  | .bmom s m1 m2 => freeHelicities s ++ freeHelicities m1 ++ freeHelicities m2
  | .psum body ixs => (freeHelicities body).filter fun s => s ∉ ixs.map Prod.fst

/-- The symbols of a kinematic expression. -/
def kinematicSymbols : RExpr → List Sym
  | .num _ => []
  | .sym s => [s]
  | .add a b | .sub a b | .mul a b | .div a b => kinematicSymbols a ++ kinematicSymbols b
  | .neg a | .pow a _ | .sqrt a | .acos a => kinematicSymbols a
  | .kallen a b c => kinematicSymbols a ++ kinematicSymbols b ++ kinematicSymbols c

/-- A model that leaves nothing undefined: all that is in `full_expression` is a number, an angle with
a definition, a Mandelstam variable, or a parameter with a default value. The definitions of the
angles and of the Mandelstam variables refer to other Mandelstam variables and to parameters only. -/
structure Closed (m : AmplitudeModel) : Prop where
  helicities : freeHelicities m.fullExpression = []
  indexed : ∀ x ∈ m.fullExpression.indexeds, Key.idx x ∈ PyDict.keys m.parameterDefaults
  symbols : ∀ s ∈ m.fullExpression.syms, s ∈ PyDict.keys m.angleDefs ∨
    s ∈ PyDict.keys m.invariants ∨ Key.sym s ∈ PyDict.keys m.parameterDefaults
  angles : ∀ x ∈ m.angleDefs, ∀ s ∈ kinematicSymbols x.2,
    s ∈ PyDict.keys m.invariants ∨ Key.sym s ∈ PyDict.keys m.parameterDefaults
  invariants : ∀ x ∈ m.invariants, ∀ s ∈ kinematicSymbols x.2, s ≠ x.1 ∧
    (s ∈ PyDict.keys m.invariants ∨ Key.sym s ∈ PyDict.keys m.parameterDefaults)

/-- The symbols that `formulate` provides to every lineshape: `m0`, ..., `m3` and
`sigma1`, `sigma2`, `sigma3`. -/
def providedSymbols : List Sym :=
  [⟨"m0", .nonneg⟩, ⟨"m1", .nonneg⟩, ⟨"m2", .nonneg⟩, ⟨"m3", .nonneg⟩,
    ⟨"sigma1", .nonneg⟩, ⟨"sigma2", .nonneg⟩, ⟨"sigma3", .nonneg⟩]

/-- A lineshape that leaves nothing undefined: its symbols are its parameters and the symbols that
`formulate` provides. -/
def ClosedLineshape (e : DefExpr) : Prop :=
  freeHelicities e.expression = [] ∧ e.expression.indexeds = [] ∧
  ∀ s ∈ e.expression.syms, s ∈ providedSymbols ∨ Key.sym s ∈ PyDict.keys e.parameters

/-- Two interpretations that give the same values to the functions of SymPy and AmpForm. -/
structure SameFunctions (ι ι' : Interp) : Prop where
  wig : ι.wig = ι'.wig
  cg : ι.cg = ι'.cg
  ff : ι.ff = ι'.ff
  edw : ι.edw = ι'.edw
  bmom : ι.bmom = ι'.bmom

/-- Two interpretations that give the same values to the parameters of a model. -/
def SameParameters (m : AmplitudeModel) (ι ι' : Interp) : Prop :=
  (∀ s, Key.sym s ∈ PyDict.keys m.parameterDefaults → ι.sym s = ι'.sym s) ∧
  ∀ x, Key.idx x ∈ PyDict.keys m.parameterDefaults → ∀ η,
    (Expr.idx x).eval ι η = (Expr.idx x).eval ι' η

/-- The value of an angle or of a Mandelstam variable is that of its definition. -/
def Computes (ι : Interp) (x : Sym × RExpr) : Prop :=
  ∃ v : ℝ, x.2.eval (fun s => (ι.sym s).re) = some v ∧ ι.sym x.1 = v

end Verif.Spec
