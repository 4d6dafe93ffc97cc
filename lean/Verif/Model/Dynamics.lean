import Verif.Model.Builder

/-!
Model of `/repo/src/ampform_dpd/dynamics/__init__.py` (lineshapes) and
`/repo/src/ampform_dpd/dynamics/builder.py`.

Simplifications:
* An instance of an `@unevaluated` class is represented by the expression that its method `evaluate`
  returns, i.e. by the expression after `doit()`. `BreitWigner.evaluate` may return an unevaluated
  `SimpleBreitWigner`; this is represented in the same way.
* Angular momenta are integers; SymPy also accepts symbols.
* `phsp_factor` is given by its name; it is only passed on to `EnergyDependentWidth`.
-/
namespace Verif.ThreeBody
open Verif

/-- `RelativisticBreitWigner.evaluate` (dynamics/__init__.py:38-51). -/
def relativisticBreitWigner (s m0 w0 m1 m2 : Expr) (L : ℤ) (R : Expr) (phsp : String) : Expr :=
  (m0 * w0) / (m0 ^ 2 - s - Expr.edw s m0 w0 m1 m2 L R phsp * m0 * Expr.I)

/-- `BreitWignerMinL.evaluate` (dynamics/__init__.py:72-84). The parameters are named as the local
variables of `evaluate`; the constructor calls `m1` `child2_mass` and `m2` `child1_mass`. -/
def breitWignerMinL (s mTop mSpec m0 g0 m1 m2 : Expr) (lDec lProd : ℤ) (rDec rProd : Expr)
    (phsp : String) : Expr :=
  let ffProd := Expr.ff (mTop ^ 2) (.sqrt s) mSpec lProd rProd
  let ff0Prod := Expr.ff (mTop ^ 2) m0 mSpec lProd rProd
  let ffDec := Expr.ff s m1 m2 lDec rDec
  let ff0Dec := Expr.ff (m0 ^ 2) m1 m2 lDec rDec
  let width := Expr.edw s m0 g0 m1 m2 lDec rDec phsp
  (ffProd / ff0Prod) * (1 / (m0 ^ 2 - s - Expr.I * m0 * width)) * (ffDec / ff0Dec)

/-- `BuggBreitWigner.evaluate` (dynamics/__init__.py:97-105). -/
def buggBreitWigner (s m0 g0 m1 m2 γ : Expr) : Expr :=
  let sA := m1 ^ 2 - m2 ^ 2 / 2
  let gSquared := ((s - sA) / (m0 ^ 2 - sA)) * (m0 * g0 * Expr.exp (-γ * s))
  1 / (m0 ^ 2 - s - Expr.I * gSquared)

/-- `FlattéSWave.evaluate` (dynamics/__init__.py:118-127). -/
def flatteSWave (s m0 g1 g2 ma1 mb1 ma2 mb2 : Expr) : Expr :=
  let p := Expr.bmom s ma1 mb1
  let p0 := Expr.bmom (m0 ^ 2) ma2 mb2
  let q := Expr.bmom s ma2 mb2
  let q0 := Expr.bmom (m0 ^ 2) ma2 mb2
  let g1 := g1 * (p / p0 * m0 / Expr.sqrt s)
  let g2 := g2 * (q / q0 * m0 / Expr.sqrt s)
  1 / (m0 ^ 2 - s - Expr.I * m0 * (g1 + g2))

/-- `ChannelArguments` (dynamics/__init__.py:150-158). -/
structure ChannelArguments where
  s : Expr
  m0 : Expr
  width : Expr
  m1 : Expr := 0
  m2 : Expr := 0
  L : ℤ := 0
  R : Expr := 1

/-- `ChannelArguments.evaluate` (dynamics/__init__.py:161-164). -/
def ChannelArguments.evaluate (c : ChannelArguments) : Expr :=
  c.width * c.m0 / Expr.sqrt c.s * (Expr.ff c.s c.m1 c.m2 c.L c.R) ^ 2

/-- `SimpleBreitWigner.evaluate` (dynamics/__init__.py:212-214). -/
def simpleBreitWigner (s m0 g0 : Expr) : Expr := 1 / (m0 ^ 2 - s - m0 * g0 * Expr.I)

/-- `BreitWigner.energy_dependent_width` (dynamics/__init__.py:187-191). -/
def breitWignerWidth (s m0 g0 m1 m2 : Expr) (L : ℤ) (d : Expr) (phsp : String) : Expr :=
  if L = 0 ∧ m1 = 0 ∧ m2 = 0 then g0 else .edw s m0 g0 m1 m2 L d phsp

/-- `BreitWigner.evaluate` (dynamics/__init__.py:180-185); see the simplification above for line
183. -/
def breitWigner (s m0 g0 : Expr) (m1 m2 : Expr := 0) (L : ℤ := 0) (d : Expr := 1)
    (phsp : String := "PhaseSpaceFactor") : Expr :=
  simpleBreitWigner s m0 (breitWignerWidth s m0 g0 m1 m2 L d phsp)

/-- `sum(channel.evaluate() for channel in self.channels)` (dynamics/__init__.py:139): Python's `sum`
starts with 0 and adds from the left. -/
def multichannelWidth (channels : List ChannelArguments) : Expr :=
  channels.foldl (fun acc c => acc + c.evaluate) 0

/-- `MultichannelBreitWigner.evaluate` (dynamics/__init__.py:136-140). -/
def multichannelBreitWigner (s m0 : Expr) (channels : List ChannelArguments) : Expr :=
  breitWigner s m0 (multichannelWidth channels)

/-! ### builder.py -/

/-- `get_mandelstam_s` (builder.py:125-127). The children must have an attribute `index`. The set
difference is iterated in ascending order. -/
def getMandelstamS (n : Node) : Py Sym := do
  let ids ← n.children.mapM fun
    | .leaf (.state s) => .ok s.index
    | _ => (.error .attributeError : Py ℤ)
  match [1, 2, 3].filter fun (k : ℤ) => k ∉ ids with
  | k :: _ => .ok ⟨"sigma" ++ toString k, .nonneg⟩
  | [] => .error .valueError

/-- `_get_angular_momentum` (builder.py:112-116). -/
def getAngularMomentum (n : Node) : Py ℤ :=
  match n.interaction with
  | none => .error .valueError
  | some ls => .ok ls.L

/-- `_create_meson_radius_symbol` (builder.py:119-122). -/
def createMesonRadiusSymbol (parent : Obj) : Sym :=
  match parent with
  | .state s => ⟨"R_{" ++ s.latex ++ "}", .nonneg⟩
  | .particle _ => ⟨"R_\\mathrm{res}", .nonneg⟩

/-- `sp.Symbol(Rf"\Gamma_{{{isobar.parent.latex}}}", nonnegative=True)` (builder.py:78, 100). -/
def createWidthSymbol (parent : Obj) : Sym := ⟨"\\Gamma_{" ++ parent.toP.latex ++ "}", .nonneg⟩

/-- `_create_form_factor` (builder.py:46-68); its argument `s` is not used. -/
def createFormFactor (n : Node) : Py DefExpr :=
  match n with
  | .leaf _ => .error .attributeError
  | .isobar parent c1 c2 _ => do
    let inv ← match parent with
      | .state _ => .ok (⟨"m0", .nonneg⟩ : Sym)
      | .particle _ => getMandelstamS n
    let m1 := createMassSymbol c1.toParticle
    let m2 := createMassSymbol c2.toParticle
    let R := createMesonRadiusSymbol parent
    let L ← getAngularMomentum n
    let ff := Expr.ff ((Expr.sym inv) ^ 2) (.sym m1) (.sym m2) L (.sym R)
    let params := PyDict.ofItems [(Key.sym R, Val.real 1),
      (.sym m1, .real c1.toParticle.toP.mass), (.sym m2, .real c2.toParticle.toP.mass)]
    let params := if inv.name.toList.head? = some 's' then params
      else params.set (.sym inv) (.real parent.toP.mass)
    return ⟨ff, params⟩

/-- `_create_breit_wigner` (builder.py:71-95). -/
def createBreitWigner (s : Sym) (n : Node) (phsp : String) : Py DefExpr :=
  match n with
  | .leaf _ => .error .attributeError
  | .isobar parent c1 c2 _ => do
    let m1 := createMassSymbol c1.toParticle
    let m2 := createMassSymbol c2.toParticle
    let L ← getAngularMomentum n
    let mR := createMassSymbol parent
    let gR := createWidthSymbol parent
    let R := createMesonRadiusSymbol parent
    return ⟨relativisticBreitWigner (.sym s) (.sym mR) (.sym gR) (.sym m1) (.sym m2) L (.sym R) phsp,
      PyDict.ofItems [(.sym mR, .real parent.toP.mass), (.sym gR, .real parent.toP.width),
        (.sym R, .real 1)]⟩

/-- `_create_simple_breit_wigner` (builder.py:98-109). -/
def createSimpleBreitWigner (s : Sym) (n : Node) : Py DefExpr :=
  match n with
  | .leaf _ => .error .attributeError
  | .isobar parent _ _ _ =>
    let mR := createMassSymbol parent
    let gR := createWidthSymbol parent
    let R := createMesonRadiusSymbol parent
    .ok ⟨simpleBreitWigner (.sym s) (.sym mR) (.sym gR),
      PyDict.ofItems [(.sym mR, .real parent.toP.mass), (.sym gR, .real parent.toP.width),
        (.sym R, .real 1)]⟩

/-- `BreitWignerBuilder` (builder.py:21-26). -/
structure BreitWignerBuilder where
  energyDependentWidth : Bool := true
  decayFormFactor : Bool := true
  productionFormFactor : Bool := true
  phsp : String := "PhaseSpaceFactor"

/-- `BreitWignerBuilder.__call__` (builder.py:28-40). `decay_chain.production_node` is
`decay_chain.decay` (decay.py:186-188). -/
def BreitWignerBuilder.call (b : BreitWignerBuilder) : DynBuilder := fun c => do
  let node ← c.decay.decayNode
  let s ← getMandelstamS node
  let e ← if b.energyDependentWidth then createBreitWigner s node b.phsp
    else createSimpleBreitWigner s node
  let e ← if b.decayFormFactor then do
      let f ← createFormFactor node
      pure (e.mul (.defined f))
    else pure e
  if b.productionFormFactor then do
    let f ← createFormFactor c.decay
    return e.mul (.defined f)
  else return e

end Verif.ThreeBody
