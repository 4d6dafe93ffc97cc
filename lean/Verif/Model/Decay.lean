import Verif.Model.Spin

/-!
Model of `/repo/src/ampform_dpd/decay.py` and of the converters in
`/repo/src/ampform_dpd/_attrs.py`.

Simplifications:
* `float` masses and widths are exact rationals, `spin` is a rational.
* The objects that can occur as `parent` or child of an `IsobarNode` are `Particle`, `State` and
  `IsobarNode` instances; a parent is a `Particle` or a `State`. Other Python objects are not
  modelled.
* `functools.cache` on the accessors of a frozen object is modelled as no caching.
-/
namespace Verif.ThreeBody
open Verif Verif.Spin

/-- `Particle` (decay.py:28-35). -/
structure Particle where
  name : String
  latex : String
  spin : ℚ
  parity : Option ℤ
  mass : ℚ
  width : ℚ
  deriving DecidableEq, Repr

/-- `State` (decay.py:38-42). -/
structure State extends Particle where
  index : ℤ
  deriving DecidableEq, Repr

/-- An instance of `Particle` that is, or is not, a `State`. attrs' `__eq__` compares the classes
first, so instances of different classes are never equal (decay.py:28-42). -/
inductive Obj where
  | particle (p : Particle)
  | state (s : State)
  deriving DecidableEq, Repr

/-- The `Particle` attributes of an object (decay.py:28-35). -/
def Obj.toP : Obj → Particle
  | .particle p => p
  | .state s => s.toParticle

/-- `LSCoupling` (decay.py:225-228). -/
structure LS where
  L : ℤ
  S : ℚ
  deriving DecidableEq, Repr

/-- `IsobarNode` (decay.py:53-62), with `Particle`/`State` objects as leaves. -/
inductive Node where
  | leaf (o : Obj)
  | isobar (parent : Obj) (child1 child2 : Node) (interaction : Option LS)
  deriving DecidableEq, Repr

/-- `Particle.__init__` (decay.py:28-35): converter `to_rational`, validator
`assert_spin_value`. -/
def Particle.new (name latex : String) (spin : ℚ) (parity : Option ℤ) (mass width : ℚ) :
    Py Particle := do
  assertSpinValue spin
  return ⟨name, latex, spin, parity, mass, width⟩

/-- `State.__init__` (decay.py:38-42). -/
def State.new (name latex : String) (spin : ℚ) (parity : Option ℤ) (mass width : ℚ) (index : ℤ) :
    Py State := do
  assertSpinValue spin
  return ⟨⟨name, latex, spin, parity, mass, width⟩, index⟩

/-- `LSCoupling.__init__` (decay.py:225-228). -/
def LS.new (L : ℤ) (S : ℚ) : Py LS := do
  assertSpinValue S
  return ⟨L, S⟩

/-- Objects given as `interaction` of an `IsobarNode`: `None`, an `LSCoupling`, a tuple of two
elements, a tuple of another length, or something else (_attrs.py:23-34). -/
inductive LSArg where
  | none
  | ls (x : LS)
  | pair (L : ℤ) (S : ℚ)
  | otherTuple
  | other

/-- `to_ls` (_attrs.py:23-34). Unpacking a tuple whose length is not 2 raises `ValueError`.
Elements are assumed to be an integer and a rational. -/
def toLs : LSArg → Py (Option LS)
  | .none => .ok Option.none
  | .ls x => .ok (some x)
  | .pair L S => do return some (← LS.new L S)
  | .otherTuple => .error .valueError
  | .other => .error .typeError

/-- `IsobarNode.__init__` (decay.py:53-58). -/
def Node.new (parent : Obj) (child1 child2 : Node) (interaction : LSArg) : Py Node := do
  return .isobar parent child1 child2 (← toLs interaction)

/-- `to_particle` (decay.py:231-240). -/
def Node.toParticle : Node → Obj
  | .leaf o => o
  | .isobar p _ _ _ => p

/-- `isinstance(child, IsobarNode)` (decay.py:208). -/
def Node.isIsobar : Node → Bool
  | .leaf _ => false
  | .isobar .. => true

/-- `isinstance(child, State)` (decay.py:208). -/
def Node.isState : Node → Bool
  | .leaf (.state _) => true
  | _ => false

/-- `IsobarNode.children` (decay.py:60-62). -/
def Node.children : Node → List Node
  | .leaf _ => []
  | .isobar _ c1 c2 _ => [c1, c2]

/-- `ThreeBodyDecayChain._get_child_of_type` (decay.py:205-211). -/
def Node.getChild (n : Node) (typ : Node → Bool) : Py Node :=
  match n.children.find? typ with
  | some c => .ok c
  | none => .error .valueError

/-- `ThreeBodyDecayChain.decay_node` (decay.py:190-192). -/
def Node.decayNode (n : Node) : Py Node := n.getChild Node.isIsobar

/-- `ThreeBodyDecayChain.decay_products` (decay.py:194-199). -/
def Node.decayProducts (n : Node) : Py (Obj × Obj) := do
  match ← n.decayNode with
  | .isobar _ c1 c2 _ => return (c1.toParticle, c2.toParticle)
  | .leaf _ => .error .attributeError

/-- `ThreeBodyDecayChain.spectator` (decay.py:201-203). -/
def Node.spectator (n : Node) : Py State := do
  match ← n.getChild Node.isState with
  | .leaf (.state s) => return s
  | _ => .error .attributeError

/-- `ThreeBodyDecayChain.resonance` (decay.py:182-184). -/
def Node.resonance (n : Node) : Py Obj := do return (← n.decayNode).toParticle

/-- `interaction` attribute of a node (decay.py:57). -/
def Node.interaction : Node → Option LS
  | .leaf _ => none
  | .isobar _ _ _ i => i

/-- Attribute access `x.index`: only `State` objects have it (decay.py:38-42; used at decay.py:83, 93, 176). -/
def Obj.asState : Obj → Py State
  | .state s => .ok s
  | .particle _ => .error .attributeError

/-- `sorted(final_state, key=lambda x: x.index)` (decay.py:176). -/
def sortByIndex (l : List State) : List State :=
  l.mergeSort (fun a b => decide (a.index ≤ b.index))

/-- `ThreeBodyDecayChain.final_state` (decay.py:172-176). -/
def Node.finalState (n : Node) : Py (List State) := do
  let ps ← n.decayProducts
  let s ← n.spectator
  return sortByIndex [← ps.1.asState, ← ps.2.asState, s]

/-- `ThreeBodyDecayChain` (decay.py:152-219): the field `decay`, together with the values of its
properties, which never change because the object is frozen. -/
structure Chain where
  decay : Node
  parent : State
  resonance : Obj
  product1 : State
  product2 : State
  spectator : State
  incomingLs : Option LS
  outgoingLs : Option LS
  deriving DecidableEq, Repr

/-- `ThreeBodyDecayChain.__init__` (decay.py:154) with its validator `instance_of(IsobarNode)` and
`__attrs_post_init__` (decay.py:156-166). -/
def Chain.new (n : Node) : Py Chain := do
  match n with
  | .leaf _ => .error .typeError
  | .isobar parent _ _ ls =>
    let fs ← n.finalState
    match parent with
    | .particle _ => .error .typeError
    | .state p0 =>
      if ([p0, ] ++ fs).map (·.index) |>.dedup |>.length |> (· ≠ 4) then .error .valueError
      else
        let d ← n.decayNode
        let ps ← n.decayProducts
        return { decay := n, parent := p0, resonance := d.toParticle,
                 product1 := ← ps.1.asState, product2 := ← ps.2.asState,
                 spectator := ← n.spectator, incomingLs := ls, outgoingLs := d.interaction }

/-- `ThreeBodyDecayChain.final_state` of a constructed chain (decay.py:172-176). -/
def Chain.finalState (c : Chain) : List State := sortByIndex [c.product1, c.product2, c.spectator]

/-- `ThreeBodyDecay` (decay.py:71-74). -/
structure Decay where
  states : PyDict ℤ State
  chains : List Chain
  deriving DecidableEq

/-- `ThreeBodyDecay.initial_state` (decay.py:104-106). -/
def initialState (states : PyDict ℤ State) : Py State := PyDict.get states 0

/-- `ThreeBodyDecay.final_state` (decay.py:108-110). -/
def finalStateDict (states : PyDict ℤ State) : PyDict ℤ State :=
  PyDict.ofItems (((states.map Prod.snd).filter (·.index ≠ 0)).map fun s => (s.index, s))

/-- Equality of the Python sets with the given elements. Used at decay.py:88-90 and adapter/qrules.py:47-49,
195. -/
def setEq {α : Type} [DecidableEq α] (a b : List α) : Bool :=
  (a.all fun x => decide (x ∈ b)) && (b.all fun x => decide (x ∈ a))

/-- The loop of `ThreeBodyDecay.__attrs_post_init__` (decay.py:79-102). -/
def checkChains (s0 : State) (final : List State) : List Chain → Py Unit
  | [] => .ok ()
  | c :: cs =>
    if c.parent ≠ s0 then .error .valueError
    else if ¬ setEq [c.spectator, c.product1, c.product2] final then .error .valueError
    else checkChains s0 final cs

/-- `ThreeBodyDecay.__init__` (decay.py:71-102). -/
def Decay.new (states : PyDict ℤ State) (chains : List Chain) : Py Decay := do
  let s0 ← initialState states
  checkChains s0 ((finalStateDict states).map Prod.snd) chains
  return ⟨states, chains⟩

/-- `ThreeBodyDecay.find_chain` (decay.py:112-117). -/
def Decay.findChain (d : Decay) (name : String) : Py Chain :=
  match d.chains.find? (fun c => c.resonance.toP.name = name) with
  | some c => .ok c
  | none => .error .keyError

/-- `ThreeBodyDecay.get_subsystem` (decay.py:119-126); the boolean says whether a warning is
emitted. -/
def Decay.getSubsystem (d : Decay) (k : ℤ) : Py (Decay × Bool) := do
  let filtered := d.chains.filter (fun c => c.spectator.index = k)
  let r ← Decay.new d.states filtered
  return (r, filtered.isEmpty)

/-- `_get_subsystem_ids` (decay.py:135-136). The iteration order of the set is modelled as
ascending, which is what CPython does for small non-negative integers. -/
def Decay.subsystemIds (d : Decay) : List ℤ := sortedSet (d.chains.map (·.spectator.index))

/-- `get_decay_product_ids` (decay.py:139-149). -/
def getDecayProductIds (k : ℤ) : Py (ℤ × ℤ) :=
  if k = 1 then .ok (2, 3)
  else if k = 2 then .ok (3, 1)
  else if k = 3 then .ok (1, 2)
  else .error .valueError

/-- `max(items, key=itemgetter(1))`: the first item with a maximal key. -/
def maxBySnd : List (ℤ × ℕ) → Option (ℤ × ℕ)
  | [] => none
  | x :: xs => some (xs.foldl (fun best y => if best.2 < y.2 then y else best) x)

/-- `_get_best_reference_subsystems` (__init__.py:293-301), for an iteration order `ids` of the
set of subsystem IDs. -/
def bestReferenceFrom (d : Decay) (ids : List ℤ) : Py ℤ := do
  if ids.isEmpty then .error .valueError
  else
    let counts ← ids.mapM fun k => do
      let r ← d.getSubsystem k
      return (k, r.1.chains.length)
    match maxBySnd counts with
    | some r => return r.1
    | none => .error .valueError

/-- `_get_best_reference_subsystems` (__init__.py:293-301). -/
def Decay.bestReference (d : Decay) : Py ℤ := bestReferenceFrom d d.subsystemIds

end Verif.ThreeBody
