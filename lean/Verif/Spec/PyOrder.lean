import Verif.Model.Qrules

/-!
Python's `<` on numbers, strings, `None`, tuples and instances of attrs classes with `order=True`, and the decay chains
and transitions as such values.
-/
namespace Verif.Spec
open Verif Verif.ThreeBody

/-- A Python value. A tuple is `nil` or `cons first rest`; an instance of an attrs class is the name of the class with the
tuple of its fields. -/
inductive PyVal where
  | none
  | num (x : ℚ)
  | str (s : String)
  | nil
  | cons (head tail : PyVal)
  | obj (cls : String) (fields : PyVal)
  deriving DecidableEq

/-- `a < b` in Python; `Option.none` if it raises `TypeError`. Tuples are compared by the first elements that differ,
attrs instances as the tuples of their fields if they have the same class. -/
def pyLt : PyVal → PyVal → Option Bool
  | .num a, .num b => some (decide (a < b))
  | .str a, .str b => some (decide (a < b))
  | .nil, .nil => some false
  | .nil, .cons _ _ => some true
  | .cons _ _, .nil => some false
  | .cons a x, .cons b y => if a = b then pyLt x y else pyLt a b
  | .obj c x, .obj d y => if c = d then pyLt x y else none
  | _, _ => none

/-- A tuple. -/
def PyVal.tuple : List PyVal → PyVal
  | [] => .nil
  | x :: xs => .cons x (.tuple xs)

/-- A number or `None`. -/
def pyOptional : Option ℤ → PyVal
  | none => .none
  | some x => .num x

/-- The fields of a `Particle` (decay.py:28-35). -/
def particleFields (p : Particle) : List PyVal :=
  [.str p.name, .str p.latex, .num p.spin, pyOptional p.parity, .num p.mass, .num p.width]

/-- A `Particle` or `State` (decay.py:28-42). -/
def pyObj : Obj → PyVal
  | .particle p => .obj "Particle" (.tuple (particleFields p))
  | .state s => .obj "State" (.tuple (particleFields s.toParticle ++ [.num s.index]))

/-- An `LSCoupling` (decay.py:225-228) or `None`. -/
def pyLs : Option LS → PyVal
  | none => .none
  | some x => .obj "LSCoupling" (.tuple [.num x.L, .num x.S])

/-- An `IsobarNode` (decay.py:53-58) or one of its children. -/
def pyNode : Node → PyVal
  | .leaf o => pyObj o
  | .isobar p c1 c2 x => .obj "IsobarNode" (.tuple [pyObj p, pyNode c1, pyNode c2, pyLs x])

/-- A `ThreeBodyDecayChain` (decay.py:152-154). -/
def pyChain (c : Chain) : PyVal := .obj "ThreeBodyDecayChain" (.tuple [pyNode c.decay])

/-- The first child of the production node is the decay node, as in the chains that the package sorts. -/
def decayOf (c : Chain) : Node :=
  .isobar (.state c.parent) (.isobar c.resonance (.leaf (.state c.product1)) (.leaf (.state c.product2)) c.outgoingLs)
    (.leaf (.state c.spectator)) c.incomingLs

/-- A QRules `FrozenDict`: compared by its sorted items. -/
def pyFrozenDict {α : Type} (value : α → PyVal) (d : PyDict ℤ α) : PyVal :=
  .obj "FrozenDict" (.tuple ((Qrules.dictItems d).map fun x => .tuple [.num x.1, value x.2]))

/-- A QRules `Topology`. -/
def pyTopology (t : Qrules.Topology) : PyVal :=
  .obj "Topology" (.tuple [.tuple (t.nodes.map fun n : ℤ => .num n),
    pyFrozenDict (fun e => .obj "Edge" (.tuple [pyOptional e.orig, pyOptional e.dest])) t.edges])

/-- A QRules `FrozenTransition` with the states and couplings of this package. -/
def pyTransition (t : Qrules.Transition Obj (Option LS)) : PyVal :=
  .obj "FrozenTransition" (.tuple [pyTopology t.topology, pyFrozenDict pyObj t.states, pyFrozenDict pyLs t.interactions])

end Verif.Spec
