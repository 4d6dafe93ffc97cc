import Verif.Model.Angles
import Verif.Model.Expr
import Verif.Model.Configurator

/-!
Model of `DalitzPlotDecompositionBuilder` and its helpers
(/repo/src/ampform_dpd/__init__.py:42-446, 506-537).

Simplification: warnings (`_check_reference_subsystems`, `get_subsystem`) are not part of the
result; they are modelled in Model/Warnings.lean. The two `sp.cache`d/`functools.cache`d helpers are pure and modelled without cache.
-/
namespace Verif.ThreeBody
open Verif Verif.Spin Verif.Angles

/-- `DynamicsBuilder` (__init__.py:479-480). -/
abbrev DynBuilder := Chain → Py DefExpr

/-- `lambda _: DefinedExpression()` (__init__.py:460). -/
def unitDynamics : DynBuilder := fun _ => .ok {}

/-- The builder object (__init__.py:58-91). -/
structure Builder where
  decay : Decay
  dynamics : Configurator DynBuilder
  useProdHel : Bool
  useDecHel : Bool
  allSubsystems : Bool

/-- The argument `min_ls`: a `bool`, a tuple of length 2, anything else. -/
inductive MinLs where
  | bool (b : Bool)
  | pair (prod dec : Bool)
  | other

/-- `DalitzPlotDecompositionBuilder.__init__` (__init__.py:59-91). -/
def Builder.new (d : Decay) (minLs : MinLs) (allSubsystems : Bool) : Py Builder :=
  match minLs with
  | .bool b => .ok ⟨d, Configurator.init d, b, b, allSubsystems⟩
  | .pair p q => .ok ⟨d, Configurator.init d, p, q, allSubsystems⟩
  | .other => .error .notImplementedError

/-- `AmplitudeModel` (__init__.py:42-50); `angleDefs` is the field `variables` (a reserved word
in Lean). -/
structure AmplitudeModel where
  decay : Decay
  intensity : Expr := .num 1
  amplitudes : PyDict Indexed Expr := []
  angleDefs : PyDict Sym RExpr := []
  parameterDefaults : PyDict Key Val := []
  masses : PyDict Sym ℚ := []
  invariants : PyDict Sym RExpr := []

/-- `AmplitudeModel.full_expression` (__init__.py:52-55). -/
def AmplitudeModel.fullExpression (m : AmplitudeModel) : Expr :=
  (m.intensity.doit fun _ => none).xreplace
    (m.amplitudes.map fun kv => (kv.1, kv.2.doit fun _ => none))

/-- Tuple of four, indexed from 0 (`λ`, `spin`; __init__.py:176-182). -/
def tup {α : Type} (x0 x1 x2 x3 : α) : ℤ → α := fun i =>
  if i = 1 then x1 else if i = 2 then x2 else if i = 3 then x3 else x0

/-- `sp.symbols("lambda:4", rational=True)` (__init__.py:113-115). -/
def lambdaSym (i : ℤ) : Sym := ⟨"lambda" ++ toString i, .rational⟩

/-- `sp.Symbol(R"\lambda_R", rational=True)` (__init__.py:183). -/
def lambdaR : Sym := ⟨"\\lambda_R", .rational⟩

/-- `sp.symbols(R"\lambda_(0:4)^{\prime}", rational=True)` (__init__.py:267). -/
def lambdaPrime (i : ℤ) : Sym := ⟨"\\lambda_" ++ toString i ++ "^{\\prime}", .rational⟩

/-- `_generate_amplitude_index_bases()[k][λ0, λ1, λ2, λ3]` (__init__.py:422-424). -/
def ampSym (k : ℤ) (h0 h1 h2 h3 : Hel) : Indexed :=
  ⟨"A^" ++ toString k, none, [h0, h1, h2, h3]⟩

/-- `_get_coupling_base` (__init__.py:380-386). -/
def couplingBase (hel : Bool) (typ : String) : String :=
  if hel then "\\mathcal{H}^\\mathrm{" ++ typ ++ "}"
  else "\\mathcal{H}^\\mathrm{LS," ++ typ ++ "}"

/-- `_create_coupling_symbol` (__init__.py:348-362). -/
def createCouplingSymbol (hel : Bool) (res : String) (h1 h2 : Hel) (ls : Option LS)
    (typ : String) : Py Indexed :=
  if hel then .ok ⟨couplingBase hel typ, some res, [h1, h2]⟩
  else match ls with
    | none => .error .valueError
    | some x => .ok ⟨couplingBase hel typ, some res, [.num x.L, .num x.S]⟩

/-- `_get_coefficient_base` (__init__.py:365-377). -/
def coefficientBase (res : String) (prodHel decHel : Bool) : String :=
  if prodHel && decHel then "\\mathcal{H}^\\mathrm{" ++ res ++ "}"
  else if prodHel then "\\mathcal{H}^\\mathrm{LS,\\lambda," ++ res ++ "}"
  else if decHel then "\\mathcal{H}^\\mathrm{\\lambda,LS," ++ res ++ "}"
  else "\\mathcal{H}^\\mathrm{LS," ++ res ++ "}"

/-- Result of `_create_scaling_factors`: two couplings or one coefficient (__init__.py:318-345). -/
inductive Scaling where
  | two (hprod hdec : Indexed)
  | one (h : Indexed)

/-- `_create_scaling_factors` (__init__.py:318-345). -/
def createScalingFactors (c : Chain) (prodHel : Bool) (lR lk : Hel) (decHel : Bool) (li lj : Hel)
    (oneScalar : Bool) : Py Scaling := do
  let R := c.resonance.toP.latex
  let hprod ← createCouplingSymbol prodHel R lR lk c.incomingLs "production"
  let hdec ← createCouplingSymbol decHel R li lj c.outgoingLs "decay"
  if oneScalar then
    return .one ⟨coefficientBase R prodHel decHel, none, hprod.ix ++ hdec.ix⟩
  else
    return .two hprod hdec

/-- `_product(scaling_factors)` (__init__.py:287-290). -/
def Scaling.product : Scaling → Expr
  | .two p d => .mul (.idx p) (.idx d)
  | .one h => .idx h

/-- The defaults set for one value of `λR` (__init__.py:201-206). -/
def Scaling.defaults : Scaling → List (Key × Val)
  | .two p d => [(.idx p, .cplx 1 0), (.idx d, .real 1)]
  | .one h => [(.idx h, .cplx 1 0)]

/-- `_formulate_clebsch_gordan_factors` (__init__.py:389-419). -/
def clebschGordanFactors (isobar : Node) (helicities : PyDict Obj Hel) : Py Expr :=
  match isobar with
  | .leaf _ => .error .attributeError
  | .isobar parent c1 c2 interaction =>
    match interaction with
    | none => .error .valueError
    | some ls => do
      let child1 := c1.toParticle
      let child2 := c2.toParticle
      let h1 ← helicities.get child1
      let h2 ← helicities.get child2
      let cgSS := Expr.cg (.num child1.toP.spin) h1 (.num child2.toP.spin) (.neg h2)
        (.num ls.S) (.sub h1 h2)
      let cgLL := Expr.cg (.num ls.L) (.num 0) (.num ls.S) (.sub h1 h2)
        (.num parent.toP.spin) (.sub h1 h2)
      return .mul (.mul (.sqrt (.num ((2 * ls.L + 1) / (2 * parent.toP.spin + 1)))) cgLL) cgSS

/-- The inner loop over `λR` that fills `parameter_defaults` (__init__.py:192-206). -/
def lambdaRLoop (b : Builder) (c : Chain) (lam : ℤ → ℚ) (i j k : ℤ) (useCoefficients : Bool) :
    List ℚ → PyDict Key Val → Py (PyDict Key Val)
  | [], acc => .ok acc
  | lR :: t, acc =>
    if lam 0 ≠ lR - lam k then lambdaRLoop b c lam i j k useCoefficients t acc
    else do
      let s ← createScalingFactors c b.useProdHel (.num lR) (.num (lam k)) b.useDecHel
        (.num (lam i)) (.num (lam j)) useCoefficients
      lambdaRLoop b c lam i j k useCoefficients t (acc.update s.defaults)

/-- `KroneckerDelta * phase * dynamics * Wigner.d * couplings * phase` (__init__.py:213-220). -/
def subAmpExpr (lam spin : ℤ → ℚ) (i j k : ℤ) (jR : ℚ) (dyn : Expr) (θ : Sym) (s : Scaling) : Expr :=
  .mul (.mul (.mul (.mul (.mul
    (.kron (.num (lam 0)) (.sub (.sym lambdaR) (.num (lam k))))
    (.phase (.num (spin k - lam k))))
    dyn)
    (.wig jR (.sym lambdaR) (.num (lam i - lam j)) θ))
    s.product)
    (.phase (.num (spin j - lam j)))

/-- The body of the loop over the chains (__init__.py:187-242): new defaults and the term. -/
def chainTerm (b : Builder) (final : PyDict ℤ State) (lam spin : ℤ → ℚ) (i j k : ℤ) (θ : Sym)
    (useCoefficients : Bool) (c : Chain) (params : PyDict Key Val) :
    Py (PyDict Key Val × Expr) := do
  let dynBuilder ← b.dynamics.getBuilder unitDynamics (.name c.resonance.toP.name)
  let dyn ← dynBuilder c
  let params := params.update dyn.parameters
  let jR := c.resonance.toP.spin
  let helicities := createSpinRange jR
  let params ← lambdaRLoop b c lam i j k useCoefficients helicities params
  let s ← createScalingFactors c b.useProdHel (.sym lambdaR) (.num (lam k)) b.useDecHel
    (.num (lam i)) (.num (lam j)) useCoefficients
  let e := subAmpExpr lam spin i j k jR dyn.expression θ s
  let e ← if b.useDecHel then pure e else do
    let node ← c.decay.decayNode
    let fi ← final.get i
    let fj ← final.get j
    let f ← clebschGordanFactors node
      (PyDict.ofItems [(.state fi, .num (lam i)), (.state fj, .num (lam j))])
    pure (e * f)
  let e ← if b.useProdHel then pure e else do
    let fk ← final.get k
    let f ← clebschGordanFactors c.decay
      (PyDict.ofItems [(c.resonance, .sym lambdaR), (.state fk, .num (lam k))])
    pure (e * f)
  return (params, .psum e [(lambdaR, helicities)])

/-- The loop over the chains (__init__.py:186-242). -/
def chainLoop (b : Builder) (final : PyDict ℤ State) (lam spin : ℤ → ℚ) (i j k : ℤ) (θ : Sym)
    (useCoefficients : Bool) : List Chain → PyDict Key Val → Py (PyDict Key Val × List Expr)
  | [], params => .ok (params, [])
  | c :: t, params => do
    let r ← chainTerm b final lam spin i j k θ useCoefficients c params
    let r' ← chainLoop b final lam spin i j k θ useCoefficients t r.1
    return (r'.1, r.2 :: r'.2)

/-- `formulate_subsystem_amplitude` (__init__.py:163-252). -/
def Builder.subsystemAmplitude (b : Builder) (l0 l1 l2 l3 : ℚ) (k : ℤ) (useCoefficients : Bool) :
    Py AmplitudeModel := do
  let ij ← getDecayProductIds k
  let i := ij.1
  let j := ij.2
  let θ ← formulateScatteringAngle i j
  let lam := tup l0 l1 l2 l3
  let final := finalStateDict b.decay.states
  let s0 ← initialState b.decay.states
  let s1 ← final.get 1
  let s2 ← final.get 2
  let s3 ← final.get 3
  let spin := tup s0.spin s1.spin s2.spin s3.spin
  let sub ← b.decay.getSubsystem k
  let r ← chainLoop b final lam spin i j k θ.1 useCoefficients sub.1.chains []
  let amp := ampSym k (.num l0) (.num l1) (.num l2) (.num l3)
  return { decay := b.decay, intensity := .pow (.abs (.idx amp)) 2,
           amplitudes := [(amp, Expr.addAll r.2)], angleDefs := [θ], parameterDefaults := r.1 }

/-- `_AlignmentWignerGenerator.__call__` (__init__.py:432-446): factor and new
`angle_definitions`. -/
def alignmentWigner (ref : ℤ) (defs : PyDict Sym RExpr) (j : ℚ) (m mp : Hel)
    (rotated aligned : ℤ) : Py (PyDict Sym RExpr × Expr) :=
  if j = 0 then .ok (defs, .num 1)
  else do
    let z ← formulateZetaAngle rotated aligned ref
    return (defs.set z.1 z.2, .wig j m mp z.1)

/-- One term of the sum over subsystems (__init__.py:272-276). -/
def alignedTerm (ref : ℤ) (defs : PyDict Sym RExpr) (j : ℤ → ℚ) (h : ℤ → Hel) (k : ℤ) :
    Py (PyDict Sym RExpr × Expr) := do
  let p := fun i => Hel.sym (lambdaPrime i)
  let w0 ← alignmentWigner ref defs (j 0) (h 0) (p 0) 0 k
  let w1 ← alignmentWigner ref w0.1 (j 1) (p 1) (h 1) 1 k
  let w2 ← alignmentWigner ref w1.1 (j 2) (p 2) (h 2) 2 k
  let w3 ← alignmentWigner ref w2.1 (j 3) (p 3) (h 3) 3 k
  return (w3.1, .mul (.mul (.mul (.mul (.idx (ampSym k (p 0) (p 1) (p 2) (p 3))) w0.2) w1.2) w2.2)
    w3.2)

/-- `sum(... for k in _get_subsystem_ids(decay))` (__init__.py:271-278); the set is
iterated in ascending order here (the sum does not depend on it). -/
def alignedSum (ref : ℤ) (j : ℤ → ℚ) (h : ℤ → Hel) :
    List ℤ → PyDict Sym RExpr → Py (PyDict Sym RExpr × List Expr)
  | [], defs => .ok (defs, [])
  | k :: t, defs => do
    let r ← alignedTerm ref defs j h k
    let r' ← alignedSum ref j h t r.1
    return (r'.1, r.2 :: r'.2)

/-- `(decay.states[i].spin for i in sorted(decay.states))`, unpacked to four values
(__init__.py:268). -/
def fourSpins (d : Decay) : Py (ℤ → ℚ) := do
  let states ← (sortedSet d.states.keys).mapM fun i => d.states.get i
  match states.map (·.spin) with
  | [j0, j1, j2, j3] => .ok (tup j0 j1 j2 j3)
  | _ => .error .valueError

/-- `formulate_aligned_amplitude` (__init__.py:254-284), with the reference subsystem given. -/
def Builder.alignedAmplitude (b : Builder) (h : ℤ → Hel) (ref : ℤ) :
    Py (Expr × PyDict Sym RExpr) := do
  let j ← fourSpins b.decay
  let r ← alignedSum ref j h b.decay.subsystemIds []
  return (.psum (Expr.addAll r.2)
    ([0, 1, 2, 3].map fun i => (lambdaPrime i, createSpinRange (j i))), r.1)

/-- `create_mass_symbol` (__init__.py:513-517). -/
def createMassSymbol (o : Obj) : Sym :=
  match o with
  | .state s => ⟨"m" ++ toString s.index, .nonneg⟩
  | .particle p => ⟨"m_{" ++ p.latex ++ "}", .nonneg⟩

/-- `create_mass_symbol_mapping` (__init__.py:506-510). -/
def createMassSymbolMapping (d : Decay) : Py (PyDict Sym ℚ) := do
  let items ← (sortedSet d.states.keys).mapM fun i => do
    let s ← d.states.get i
    return (createMassSymbol (.state s), s.mass)
  return PyDict.ofItems items

/-- `formulate_third_mandelstam` (__init__.py:529-537); `compute_third_mandelstam` of AmpForm is
`m0**2 + m1**2 + m2**2 + m3**2 - sigma1 - sigma2`. -/
def formulateThirdMandelstam (d : Decay) (x y : ℤ) : Py RExpr := do
  let masses ← createMassSymbolMapping d
  match masses.keys with
  | [m0, m1, m2, m3] =>
    .ok (RExpr.sym m0 ^ 2 + RExpr.sym m1 ^ 2 + RExpr.sym m2 ^ 2 + RExpr.sym m3 ^ 2 - σ x - σ y)
  | _ => .error .valueError

/-- `formulate_invariants` (__init__.py:520-526). -/
def formulateInvariants (d : Decay) : Py (PyDict Sym RExpr) := do
  let e1 ← formulateThirdMandelstam d 2 3
  let e2 ← formulateThirdMandelstam d 3 1
  let e3 ← formulateThirdMandelstam d 1 2
  return PyDict.ofItems [(⟨"sigma1", .nonneg⟩, e1), (⟨"sigma2", .nonneg⟩, e2),
    (⟨"sigma3", .nonneg⟩, e3)]

/-- `product(*allowed_helicities.values())` (__init__.py:128). -/
def helicityTuples (s : ℤ → ℚ) : List (ℚ × ℚ × ℚ × ℚ) :=
  (createSpinRange (s 0)).flatMap fun l0 => (createSpinRange (s 1)).flatMap fun l1 =>
    (createSpinRange (s 2)).flatMap fun l2 => (createSpinRange (s 3)).map fun l3 => (l0, l1, l2, l3)

/-- Accumulated dictionaries of `formulate` (__init__.py:120-122). -/
structure Acc where
  amplitudes : PyDict Indexed Expr := []
  angleDefs : PyDict Sym RExpr := []
  parameters : PyDict Key Val := []

/-- The double loop (__init__.py:128-135), over the pairs in iteration order. -/
def subsystemLoop (b : Builder) (useCoefficients : Bool) :
    List ((ℚ × ℚ × ℚ × ℚ) × ℤ) → Acc → Py Acc
  | [], acc => .ok acc
  | (l, k) :: t, acc => do
    let m ← b.subsystemAmplitude l.1 l.2.1 l.2.2.1 l.2.2.2 k useCoefficients
    subsystemLoop b useCoefficients t
      ⟨acc.amplitudes.update m.amplitudes, acc.angleDefs.update m.angleDefs,
        acc.parameters.update m.parameterDefaults⟩

/-- `subsystem_ids` (__init__.py:124-127). -/
def Builder.subsystems (b : Builder) : List ℤ :=
  if b.allSubsystems then [1, 2, 3] else b.decay.subsystemIds

/-- Symbol dictionary as parameter dictionary (`parameter_defaults.update(masses)`,
__init__.py:141). -/
def massParams (masses : PyDict Sym ℚ) : PyDict Key Val :=
  masses.map fun x => (.sym x.1, .real x.2)

/-- `formulate` (__init__.py:92-161). -/
def Builder.formulate (b : Builder) (reference : Option ℤ) (cleanup useCoefficients : Bool) :
    Py AmplitudeModel := do
  let ref ← match reference with
    | none => b.decay.bestReference
    | some r => .ok r
  let s0 ← b.decay.states.get 0
  let s1 ← b.decay.states.get 1
  let s2 ← b.decay.states.get 2
  let s3 ← b.decay.states.get 3
  let spin := tup s0.spin s1.spin s2.spin s3.spin
  let allowed := [0, 1, 2, 3].map fun i => (lambdaSym i, createSpinRange (spin i))
  let acc ← subsystemLoop b useCoefficients ((helicityTuples spin).product b.subsystems) {}
  let aligned ← b.alignedAmplitude (fun i => .sym (lambdaSym i)) ref
  let angleDefs := acc.angleDefs.update aligned.2
  let masses ← createMassSymbolMapping b.decay
  let parameters := acc.parameters.update (massParams masses)
  let amp := if cleanup then aligned.1.cleanup else aligned.1
  -- lines 144-155: the cleaned-up `intensity` is computed and then not used
  let _intensity := if cleanup then (Expr.psum (.pow (.abs amp) 2) allowed).cleanup
    else .psum (.pow (.abs amp) 2) allowed
  let invariants ← formulateInvariants b.decay
  return { decay := b.decay, intensity := .psum (.pow (.abs amp) 2) allowed,
           amplitudes := acc.amplitudes, angleDefs := angleDefs, parameterDefaults := parameters,
           masses := masses, invariants := invariants }

end Verif.ThreeBody
