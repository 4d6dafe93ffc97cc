import Verif.Model.SerialDynamics

/-!
Model of `/repo/src/ampform_dpd/io/serialization/amplitude.py`.

Simplifications:
* As in `Verif.Model.Dynamics`, an instance of an `@unevaluated` class (`HelicityRecoupling`, ...) is
  represented by the expression that its method `evaluate` returns.
* `formulate_chain_amplitude` returns one dictionary with the amplitude first and the angle last;
  `formulate` takes it apart again (line 78). Here the parts are returned as a record. This is the same
  unless a custom dynamics builder uses the amplitude symbol or the angle as one of its
  parameters.
* If a text is no number *and* there are too many of them, the exception may be a `ValueError` in the
  code and a `TypeError` here.
-/
namespace Verif.Serialization
open Verif Verif.ThreeBody Verif.Spin Verif.Angles

/-- `str.isspace` for one character, as used by `str.strip()` (amplitude.py:300). -/
def pyIsSpace (c : Char) : Bool :=
  let n := c.toNat
  (9 ≤ n && n ≤ 13) || (28 ≤ n && n ≤ 32) || n == 0x85 || n == 0xa0 || n == 0x1680 ||
    (0x2000 ≤ n && n ≤ 0x200a) || n == 0x2028 || n == 0x2029 || n == 0x202f || n == 0x205f ||
    n == 0x3000

/-- `text.strip()`, on the characters of the text (amplitude.py:300). -/
def pyStrip (l : List Char) : List Char :=
  ((l.dropWhile pyIsSpace).reverse.dropWhile pyIsSpace).reverse

/-- `_sign_to_value` (amplitude.py:299-308). -/
def signToValue (sign : String) : Py ℤ :=
  let stripped := pyStrip sign.toList
  if stripped = ['-'] then .ok (-1)
  else if stripped = [] then .ok 0
  else if stripped = ['+'] then .ok 1
  else .error .notImplementedError

/-- `HelicityRecoupling.evaluate` (amplitude.py:367-369). -/
def helicityRecoupling (a b a0 b0 : Hel) : Expr := .mul (.kron a a0) (.kron b b0)

/-- `ParityRecoupling.evaluate` (amplitude.py:383-385). -/
def parityRecoupling (a b a0 b0 : Hel) (f : ℤ) : Expr :=
  .add (.mul (.kron a a0) (.kron b b0))
    (.mul (.mul (.num f) (.kron a (.neg a0))) (.kron b (.neg b0)))

/-- `LSRecoupling.evaluate` (amplitude.py:401-407). -/
def lsRecoupling (a b : Hel) (l : ℤ) (s ja jb j : ℚ) : Expr :=
  .mul (.mul (.sqrt (.num ((2 * l + 1) / (2 * j + 1))))
    (.cg (.num ja) a (.num jb) (.neg b) (.num s) (.sub a b)))
    (.cg (.num l) (.num 0) (.num s) (.sub a b) (.num j) (.sub a b))

/-- `_get_helicity_symbol` (amplitude.py:346-349). -/
def getHelicitySymbol : Tree → Sym
  | .id i => lambdaSym i
  | .seq _ => lambdaR

/-- `__get_propagator_spin` (amplitude.py:338-343). -/
def getPropagatorSpin (c : ChainDefinition) : Py ℚ :=
  match c.propagators with
  | [p] => toRational p.spin
  | _ => .error .valueError

/-- `chain_definition["vertices"][vertex_idx]` and `get_decay_chains(model)[chain_idx]`
(amplitude.py:125, 268, 276, 314, 315, 325, 326): negative indices count from the end. -/
def item {α : Type} (l : List α) (i : ℤ) : Py α :=
  let j := if i < 0 then i + l.length else i
  if j < 0 then .error .indexError
  else match l[j.toNat]? with
    | some x => .ok x
    | none => .error .indexError

/-- `_get_parent_spin` (amplitude.py:311-319). -/
def getParentSpin (m : ModelDefinition) (chainIdx vertexIdx : ℤ) : Py ℚ := do
  let c ← item (← getDecayChains m) chainIdx
  let v ← item c.vertices vertexIdx
  if allInt v.node then getPropagatorSpin c
  else return (← getInitialState m identityFunction).spin

/-- `_get_child_spins` (amplitude.py:322-335). `sp.Rational` of a `State` object raises `TypeError`
(line 332). -/
def getChildSpins (m : ModelDefinition) (chainIdx vertexIdx : ℤ) : Py (List ℚ) := do
  let c ← item (← getDecayChains m) chainIdx
  let v ← item c.vertices vertexIdx
  let final ← getFinalState m identityFunction
  v.node.mapM fun
    | .id i => do
      let _ ← PyDict.get final i
      .error .typeError
    | .seq _ => getPropagatorSpin c

/-- `formulate_recoupling` (amplitude.py:265-296). -/
def formulateRecoupling (m : ModelDefinition) (chainIdx vertexIdx : ℤ) : Py Expr := do
  let c ← item (← getDecayChains m) chainIdx
  if c.vertices.length ≠ 2 then .error .valueError
  else if vertexIdx ∉ [0, 1] then .error .valueError
  else do
    let v ← item c.vertices vertexIdx
    let (a, b) ← unpack2 (v.node.map getHelicitySymbol)
    if v.type ∈ ["helicity", "parity"] then do
      let hs ← match v.helicities with
        | none => .error .keyError
        | some l => l.mapM toRational
      let (a0, b0) ← unpack2 hs
      if v.type = "parity" then do
        let f ← signToValue (v.parityFactor.getD "+")
        return parityRecoupling (.sym a) (.sym b) (.num a0) (.num b0) f
      else return helicityRecoupling (.sym a) (.sym b) (.num a0) (.num b0)
    else if v.type = "ls" then do
      let l ← match v.l with
        | none => .error .keyError
        | some l => .ok l
      let s ← match v.s with
        | none => .error .keyError
        | some s => toRational s
      let (ja, jb) ← unpack2 (← getChildSpins m chainIdx vertexIdx)
      let j ← getParentSpin m chainIdx vertexIdx
      return lsRecoupling (.sym a) (.sym b) l s ja jb j
    else .error .notImplementedError

/-- The inner loop of `_get_resonance_helicity` (amplitude.py:240-242): `none` if the loop ends without
`return`. `zip(..., strict=True)` raises `ValueError` at the end of the shorter list. -/
def resonanceInVertex : List (Option ℚ) → List Tree → Py (Option (List Tree × ℚ))
  | [], [] => .ok none
  | h :: hs, n :: ns =>
    match n with
    | .seq [x, y] => do return some ([x, y], ← toRational h)
    | _ => resonanceInVertex hs ns
  | _, _ => .error .valueError

/-- `_get_resonance_helicity` (amplitude.py:227-244). -/
def getResonanceHelicity : List Vertex → Py (List Tree × ℚ)
  | [] => .error .valueError
  | v :: t =>
    if allInt v.node then getResonanceHelicity t
    else match v.helicities with
      | none => .error .valueError
      | some hs => do
        match ← resonanceInVertex hs v.node with
        | some r => .ok r
        | none => getResonanceHelicity t

/-- The inner loop of `_get_final_state_helicities` (amplitude.py:258-261). -/
def collectInVertex : List (Option ℚ) → List Tree → PyDict ℤ ℚ → Py (PyDict ℤ ℚ)
  | [], [], acc => .ok acc
  | h :: hs, n :: ns, acc =>
    match n with
    | .id i => do collectInVertex hs ns (PyDict.set acc i (← toRational h))
    | .seq _ => collectInVertex hs ns acc
  | _, _, _ => .error .valueError

/-- The outer loop of `_get_final_state_helicities` (amplitude.py:252-261). -/
def collectHelicities : List Vertex → PyDict ℤ ℚ → Py (PyDict ℤ ℚ)
  | [], acc => .ok acc
  | v :: t, acc =>
    match v.helicities with
    | none => .error .valueError
    | some hs => do collectHelicities t (← collectInVertex hs v.node acc)

/-- `_get_final_state_helicities` (amplitude.py:247-262). -/
def getFinalStateHelicities (c : ChainDefinition) : Py (PyDict ℤ ℚ) := do
  let collected ← collectHelicities c.vertices []
  (sortedSet (PyDict.keys collected)).mapM fun i => do return (i, ← PyDict.get collected i)

/-- `tuple((i, sp.Rational(λ)) for i, λ in zip(node, helicities, strict=True))` for a node of integers
(amplitude.py:173-176). -/
def zipHelicities : List Tree → List (Option ℚ) → Py (List (ℤ × ℚ))
  | [], [] => .ok []
  | .id i :: ns, h :: hs => do
    let q ← toRational h
    return (i, q) :: (← zipHelicities ns hs)
  | _, _ => .error .valueError

/-- `_get_decay_product_helicities` (amplitude.py:162-178), with the unpacking of the result into
two pairs (amplitude.py:135). -/
def getDecayProductHelicities : List Vertex → Py ((ℤ × ℚ) × (ℤ × ℚ))
  | [] => .error .valueError
  | v :: t =>
    if allInt v.node then
      match v.helicities with
      | none => .error .valueError
      | some hs => do unpack2 (← zipHelicities v.node hs)
    else getDecayProductHelicities t

/-- `str(sp.Rational)` (in the name of the weight, io/serialization/amplitude.py:223). -/
def ratStr (q : ℚ) : String :=
  if q.den = 1 then toString q.num else toString q.num ++ "/" ++ toString q.den

/-- `sp.latex(sp.Rational)`: `n`, `\frac{n}{d}` or `- \frac{n}{d}` (io/serialization/amplitude.py:222). -/
def ratLatex (q : ℚ) : String :=
  if q.den = 1 then toString q.num
  else (if q.num < 0 then "- " else "") ++ "\\frac{" ++ toString q.num.natAbs ++ "}{" ++
    toString q.den ++ "}"

/-- `_get_weight` (amplitude.py:212-224). -/
def getWeight (c : ChainDefinition) (toLatex : String → String) : Py (Sym × Val) := do
  let value ← match c.weight with
    | none => .error .valueError
    | some (re, im) => .ok (if im = 0 then Val.real re else Val.cplx re im)
  let r ← getResonanceHelicity c.vertices
  let hs ← getFinalStateHelicities c
  let subscript := ", ".intercalate (hs.map fun x => ratLatex x.2)
  return (⟨"c^{" ++ toLatex c.name ++ "[" ++ ratStr r.2 ++ "]}_{" ++ subscript ++ "}", .none⟩, value)

/-- What `formulate_chain_amplitude` returns: amplitude symbol and expression, the parameters and
the angle with its definition (io/serialization/amplitude.py:112-158). -/
structure ChainAmplitude where
  symbol : Indexed
  expression : Expr
  parameters : PyDict Key Val
  angle : Sym × RExpr

/-- `_generate_amplitude_index_bases()[k]` (__init__.py:422-424): the bases `A^1`, `A^2`, `A^3`. -/
def amplitudeBase (k : ℤ) : Py Unit := if k ∈ [1, 2, 3] then .ok () else .error .keyError

/-- `formulate_form_factor` of all vertices (amplitude.py:130-131). -/
def formFactorLoop (m : ModelDefinition) : List Vertex → DefExpr → Py DefExpr
  | [], d => .ok d
  | v :: t, d => do formFactorLoop m t (d.mul (.defined (← formulateFormFactor v m)))

/-- `formulate_chain_amplitude` (amplitude.py:114-159). -/
def formulateChainAmplitude (l0 l1 l2 l3 : ℚ) (m : ModelDefinition) (chainIdx : ℤ)
    (toLatex : String → String) (additional : Option (PyDict String PropagatorBuilder)) :
    Py ChainAmplitude := do
  let c ← item (← getDecayChains m) chainIdx
  let dyn ← formulateDynamics c m toLatex additional
  let dyn ← formFactorLoop m c.vertices dyn
  let weight ← getWeight c toLatex
  let ((i, li), (j, lj)) ← getDecayProductHelicities c.vertices
  let θ ← formulateScatteringAngle i j
  let jR ← resonanceSpin c
  let r ← getResonanceHelicity c.vertices
  let lR := getHelicitySymbol (.seq r.1)
  let k ← getSpectatorId c.topology
  let hprod ← formulateRecoupling m chainIdx 0
  let hdec ← formulateRecoupling m chainIdx 1
  amplitudeBase k
  let e := Expr.mul (.mul (.mul (.mul (.sym weight.1) hprod) hdec)
    (.wig jR (.sym lR) (.num (li - lj)) θ.1)) dyn.expression
  return { symbol := ampSym k (.num l0) (.num l1) (.num l2) (.num l3),
           expression := e.substHel (override some (fun _ => none) [(lR, r.2)]),
           parameters := PyDict.update [(.sym weight.1, weight.2)] dyn.parameters,
           angle := θ }

/-- `get_existing_subsystem_ids` (amplitude.py:352-356). -/
def getExistingSubsystemIds (m : ModelDefinition) : Py (List ℤ) := do
  let d ← getDistributionDef m
  return sortedSet (← d.1.chains.mapM fun c => getSpectatorId c.topology)

/-- `(states[i].spin for i in sorted(states))`, unpacked to four values (amplitude.py:193). -/
def fourSpins (states : PyDict ℤ State) : Py (ℤ → ℚ) := do
  let l ← (sortedSet states.keys).mapM fun i => states.get i
  match l.map (·.spin) with
  | [j0, j1, j2, j3] => .ok (tup j0 j1 j2 j3)
  | _ => .error .valueError

/-- `formulate_aligned_amplitude` (amplitude.py:181-209). The summands (lines 197-201) are the
expressions of __init__.py:272-276. -/
def formulateAlignedAmplitude (m : ModelDefinition) (h : ℤ → Hel) : Py (Expr × PyDict Sym RExpr) := do
  let topology ← getReferenceTopology m
  let ref ← getSpectatorId topology
  let states ← getStates m identityFunction
  let j ← fourSpins states
  let ids ← getExistingSubsystemIds m
  let _ ← ids.mapM amplitudeBase
  let r ← alignedSum ref j h ids []
  return (.psum (Expr.addAll r.2)
    ([0, 1, 2, 3].map fun i => (lambdaPrime i, createSpinRange (j i))), r.1)

/-- The double loop of `formulate` (amplitude.py:73-89), over the pairs in iteration order. -/
def chainLoop (m : ModelDefinition) (toLatex : String → String)
    (additional : Option (PyDict String PropagatorBuilder)) :
    List ((ℚ × ℚ × ℚ × ℚ) × ℕ) → Acc → Py Acc
  | [], acc => .ok acc
  | (l, n) :: t, acc => do
    let a ← formulateChainAmplitude l.1 l.2.1 l.2.2.1 l.2.2.2 m n toLatex additional
    let existing := (PyDict.get? acc.amplitudes a.symbol).getD (.num 0)
    let e := a.expression.substHel (override some (fun _ => none)
      [(lambdaSym 0, l.1), (lambdaSym 1, l.2.1), (lambdaSym 2, l.2.2.1), (lambdaSym 3, l.2.2.2)])
    chainLoop m toLatex additional t
      ⟨PyDict.set acc.amplitudes a.symbol (existing + e), PyDict.set acc.angleDefs a.angle.1 a.angle.2,
        PyDict.update acc.parameters a.parameters⟩

/-- `formulate` (amplitude.py:56-111). -/
def formulate (m : ModelDefinition) (cleanup : Bool) (toLatex : String → String)
    (additional : Option (PyDict String PropagatorBuilder)) : Py AmplitudeModel := do
  let states ← getStates m identityFunction
  let s0 ← PyDict.get states 0
  let s1 ← PyDict.get states 1
  let s2 ← PyDict.get states 2
  let s3 ← PyDict.get states 3
  let spin := tup s0.spin s1.spin s2.spin s3.spin
  let allowed := [0, 1, 2, 3].map fun i => (lambdaSym i, createSpinRange (spin i))
  let n := (← getDecayChains m).length
  let acc ← chainLoop m toLatex additional ((helicityTuples spin).product (List.range n)) {}
  let aligned ← formulateAlignedAmplitude m fun i => .sym (lambdaSym i)
  let angleDefs := acc.angleDefs.update aligned.2
  let decay ← toDecay m identityFunction
  let masses ← createMassSymbolMapping decay
  let parameters := acc.parameters.update (massParams masses)
  let amp := if cleanup then aligned.1.cleanup else aligned.1
  let intensity := Expr.psum (.pow (.abs amp) 2) allowed
  let intensity := if cleanup then intensity.cleanup else intensity
  let invariants ← formulateInvariants decay
  return { decay := decay, intensity := intensity, amplitudes := acc.amplitudes,
           angleDefs := angleDefs, parameterDefaults := parameters, masses := masses,
           invariants := invariants }

end Verif.Serialization
