import Verif.Model.Decay
import Mathlib.Data.Prod.Lex
import Mathlib.Data.String.Basic
import Mathlib.Order.WithBot

/-!
Python's `<` on the objects that the code sorts, and `sorted`.

attrs classes with `order=True` are compared as the tuples of their fields, provided that the
classes are the same; otherwise `<` raises `TypeError`. Python compares tuples by comparing the
first pair of elements that are not `==`. Both are expressed here by lexicographic keys (`key`),
together with a test (`comparable`) that the deciding pair of elements does not consist of
`None` and a value or of instances of different classes, which would raise `TypeError`.
-/
namespace Verif
open Verif.ThreeBody

/-- Python's `sorted`, for elements that are compared by a key.
Simplification: `sorted` raises as soon as `<` raises for one of the pairs that its algorithm
compares; here it raises if there is any such pair in the list. For the orders in this file
these are the same, because elements that are neighbours in the result are always compared. Used at
adapter/qrules.py:75, 93-95, 116, 252, 312, 383, 400, decay.py:93, 176, __init__.py:127, 509, spin.py:35,
io/serialization/decay.py:40. -/
def pySorted {α β : Type} [LinearOrder β] (key : α → β) (comparable : α → α → Bool) (l : List α) :
    Py (List α) :=
  if l.all fun a => l.all fun b => comparable a b then
    .ok (l.mergeSort fun a b => decide (key a ≤ key b))
  else .error .typeError

/-- `{f(x) for ...}` for elements whose `==` is equality of `key`: of several equal elements the
first one stays in the set. The (arbitrary) iteration order is modelled as order of insertion. Used at
adapter/qrules.py:115, 379-382 and io/serialization/decay.py:40. -/
def pySet {α β : Type} [DecidableEq β] (key : α → β) (l : List α) : List α :=
  l.foldl (fun acc x => if acc.any fun y => key y = key x then acc else acc ++ [x]) []

/-- Can two values that may be `None` be compared with `<`, if they are not equal? (the fields `parity` and
`interaction`, decay.py:33, 57; sorted at adapter/qrules.py:75, 116, 383). -/
def optComparable {α : Type} (a b : Option α) : Bool := a.isSome == b.isSome

/-- Comparison of two tuples, for a comparability test of the elements. Used for adapter/qrules.py:116, 383. -/
def listComparable {α : Type} [DecidableEq α] (c : α → α → Bool) : List α → List α → Bool
  | a :: s, b :: t => if a = b then listComparable c s t else c a b
  | _, _ => true

/-- Comparison of two pairs `(ID, value)`. Used for adapter/qrules.py:116, 383. -/
def itemComparable {α : Type} (c : α → α → Bool) (a b : ℤ × α) : Bool :=
  if a.1 = b.1 then c a.2 b.2 else true

/-- The tuple that `<` compares for a `Particle` (decay.py:28-35). -/
abbrev ParticleKey := String ×ₗ String ×ₗ ℚ ×ₗ WithBot ℤ ×ₗ ℚ ×ₗ ℚ

/-- The fields of `Particle` (decay.py:28-35) as tuple. -/
def pkey (p : Particle) : ParticleKey :=
  toLex (p.name, toLex (p.latex, toLex (p.spin, toLex (p.parity, toLex (p.mass, p.width)))))

/-- Comparability of two `Particle`s (decay.py:28-35): the only field that can be `None` is
`parity`. -/
def particleComparable (a b : Particle) : Bool :=
  decide ((a.name, a.latex, a.spin) ≠ (b.name, b.latex, b.spin)) || optComparable a.parity b.parity

/-- The tuple that `<` compares for a `Particle` or `State` (decay.py:28-42). -/
abbrev ObjKey := Bool ×ₗ ParticleKey ×ₗ ℤ

/-- The fields of a `Particle` or `State` (decay.py:28-42) as tuple, with a tag for the class. -/
def objKey : Obj → ObjKey
  | .particle p => toLex (false, toLex (pkey p, 0))
  | .state s => toLex (true, toLex (pkey s.toParticle, s.index))

/-- Comparability of two `Particle`/`State` objects (decay.py:28-42). -/
def objComparable : Obj → Obj → Bool
  | .particle a, .particle b => particleComparable a b
  | .state a, .state b => particleComparable a.toParticle b.toParticle
  | _, _ => false

/-- The tuple that `<` compares for an `LSCoupling` (decay.py:225-228). -/
abbrev LSKey := ℤ ×ₗ ℚ

/-- `LSCoupling` (decay.py:225-228) as tuple. -/
def lsKey (x : LS) : LSKey := toLex (x.L, x.S)

/-- `LSCoupling | None` (decay.py:57). -/
def optLsKey (x : Option LS) : WithBot LSKey := x.map lsKey

/-- The tuple that `<` compares for a `ThreeBodyDecayChain` (decay.py:53-57, 152-154). -/
abbrev ChainKey :=
  ObjKey ×ₗ (ObjKey ×ₗ ObjKey ×ₗ ObjKey ×ₗ WithBot LSKey) ×ₗ ObjKey ×ₗ WithBot LSKey

/-- A `ThreeBodyDecayChain` (decay.py:152-154) with its only field, an `IsobarNode`
(decay.py:53-58), as tuple, if `child1` is the decay node. -/
def chainKey (c : Chain) : ChainKey :=
  toLex (objKey (.state c.parent),
    toLex (toLex (objKey c.resonance, toLex (objKey (.state c.product1),
      toLex (objKey (.state c.product2), optLsKey c.outgoingLs))),
    toLex (objKey (.state c.spectator), optLsKey c.incomingLs)))

/-- Comparability of two such chains: compares the fields until the first difference (decay.py:53-57,
152-154; sorted at adapter/qrules.py:75 and io/serialization/decay.py:40). -/
def chainComparable (a b : Chain) : Bool :=
  if a.parent ≠ b.parent then objComparable (.state a.parent) (.state b.parent)
  else if a.resonance ≠ b.resonance then objComparable a.resonance b.resonance
  else if a.product1 ≠ b.product1 then objComparable (.state a.product1) (.state b.product1)
  else if a.product2 ≠ b.product2 then objComparable (.state a.product2) (.state b.product2)
  else if a.outgoingLs ≠ b.outgoingLs then optComparable a.outgoingLs b.outgoingLs
  else if a.spectator ≠ b.spectator then objComparable (.state a.spectator) (.state b.spectator)
  else optComparable a.incomingLs b.incomingLs

end Verif
