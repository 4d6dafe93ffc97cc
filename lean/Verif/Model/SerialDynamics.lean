import Verif.Model.Serialization
import Verif.Model.Dynamics

/-!
Model of `/repo/src/ampform_dpd/io/serialization/dynamics.py`.

Simplification: `int(x)` of a number cuts off the fraction.
-/
namespace Verif.Serialization
open Verif Verif.ThreeBody

/-- `PropagatorDynamicsBuilder` (dynamics.py:35-41). -/
abbrev PropagatorBuilder := Propagator → String → ModelDefinition → Py DefExpr

/-- `int(x)` for a number (io/serialization/dynamics.py:89, 112, 142, 158). -/
def pyInt (q : ℚ) : ℤ := if q < 0 then ⌈q⌉ else ⌊q⌋

/-- `to_mass_symbol` (dynamics.py:184-202). Sets of small integers are iterated in ascending
order. -/
def toMassSymbol : Tree → Py Sym
  | .id i => .ok ⟨"m" ++ toString i, .nonneg⟩
  | .seq [.id i, .id j] =>
    match [1, 2, 3].filter fun (k : ℤ) => k ≠ i ∧ k ≠ j with
    | k :: _ => .ok ⟨"sigma" ++ toString k, .nonneg⟩
    | [] => .error .valueError
  | .seq _ => .error .notImplementedError

/-- `to_mandelstam_symbol` (dynamics.py:171-181). -/
def toMandelstamSymbol (node : List Tree) : Py Sym :=
  if allInt node then toMassSymbol (.seq node) else toMassSymbol (.id 0)

/-- `R_\mathrm{res}` (dynamics.py:85, 113). -/
def resRadius : Sym := ⟨"R_\\mathrm{res}", .nonneg⟩

/-- The unpacking of a node into two items (dynamics.py:83, 106, 136). -/
def unpack2 {α : Type} : List α → Py (α × α)
  | [a, b] => .ok (a, b)
  | _ => .error .valueError

/-- `formulate_form_factor` (dynamics.py:73-97). -/
def formulateFormFactor (v : Vertex) (m : ModelDefinition) : Py DefExpr :=
  match v.formfactor with
  | none => .ok {}
  | some name =>
    if name = "" then .ok {}
    else do
      let f ← getFunctionDefinition name m
      if f.type = "BlattWeisskopf" then do
        let s ← toMandelstamSymbol v.node
        let ms ← v.node.mapM toMassSymbol
        let (m1, m2) ← unpack2 ms
        let R : Sym ← if allInt v.node then pure resRadius else do
          let initial ← getInitialState m identityFunction
          pure ⟨"R_{" ++ initial.latex ++ "}", .nonneg⟩
        let L ← PyDict.get f.fields "l"
        let radius ← PyDict.get f.fields "radius"
        return ⟨.ff (.sym s) (.sym m1) (.sym m2) (pyInt L) (.sym R), [(.sym R, .real radius)]⟩
      else .error .notImplementedError

/-- `sp.Symbol(f"m_{{{resonance}}}", nonnegative=True)` (dynamics.py:108, 138). -/
def resonanceMass (resonance : String) : Sym := ⟨"m_{" ++ resonance ++ "}", .nonneg⟩

/-- `sp.Symbol(Rf"\Gamma_{{{resonance}}}", nonnegative=True)` (dynamics.py:109, 139). -/
def resonanceWidth (resonance : String) : Sym := ⟨"\\Gamma_{" ++ resonance ++ "}", .nonneg⟩

/-- `formulate_breit_wigner` (dynamics.py:100-123). -/
def formulateBreitWigner : PropagatorBuilder := fun p resonance m => do
  let f ← getFunctionDefinition p.parametrization m
  let (i, j) ← unpack2 p.node
  let s ← toMandelstamSymbol p.node
  let mass := resonanceMass resonance
  let width := resonanceWidth resonance
  let m1 ← toMassSymbol i
  let m2 ← toMassSymbol j
  let L ← PyDict.get f.fields "l"
  let d := resRadius
  let massVal ← PyDict.get f.fields "mass"
  let widthVal ← PyDict.get f.fields "width"
  let ma ← PyDict.get f.fields "ma"
  let mb ← PyDict.get f.fields "mb"
  let dVal ← PyDict.get f.fields "d"
  return ⟨breitWigner (.sym s) (.sym mass) (.sym width) (.sym m1) (.sym m2) (pyInt L) (.sym d),
    PyDict.ofItems [(.sym mass, .real massVal), (.sym width, .real widthVal), (.sym m1, .real ma),
      (.sym m2, .real mb), (.sym d, .real dVal)]⟩

/-- The symbols of channel `n` (dynamics.py:153-157). -/
def channelWidth (resonance : String) (n : ℕ) : Sym :=
  ⟨"\\Gamma_{" ++ resonance ++ "}^\\text{ch. " ++ toString n ++ "}", .nonneg⟩
/-- `mi1` (dynamics.py:156). -/
def channelMassA (n : ℕ) : Sym := ⟨"m_{a," ++ toString n ++ "}", .nonneg⟩
/-- `mi2` (dynamics.py:157). -/
def channelMassB (n : ℕ) : Sym := ⟨"m_{b," ++ toString n ++ "}", .nonneg⟩

/-- The loop over the channels from the second one on (dynamics.py:152-164). -/
def channelLoop (resonance : String) (s mass d : Sym) :
    ℕ → List (PyDict String ℚ) → List ChannelArguments → PyDict Key Val →
    Py (List ChannelArguments × PyDict Key Val)
  | _, [], channels, params => .ok (channels, params)
  | n, c :: t, channels, params => do
    let L ← PyDict.get c "l"
    let ma ← PyDict.get c "ma"
    let mb ← PyDict.get c "mb"
    let gsq ← PyDict.get c "gsq"
    channelLoop resonance s mass d (n + 1) t
      (channels ++ [⟨.sym s, .sym mass, .sym (channelWidth resonance n), .sym (channelMassA n),
        .sym (channelMassB n), pyInt L, .sym d⟩])
      (PyDict.update params [(.sym (channelMassA n), .real ma), (.sym (channelMassB n), .real mb),
        (.sym (channelWidth resonance n), .real gsq)])

/-- `formulate_multichannel_breit_wigner` (dynamics.py:126-168). -/
def formulateMultichannelBreitWigner : PropagatorBuilder := fun p resonance m => do
  let f ← getFunctionDefinition p.parametrization m
  match f.channels with
  | none => .error .keyError
  | some (c1 :: c2 :: cs) => do
    let (i, j) ← unpack2 p.node
    let s ← toMandelstamSymbol p.node
    let mass := resonanceMass resonance
    let width := resonanceWidth resonance
    let m1 ← toMassSymbol i
    let m2 ← toMassSymbol j
    let L ← PyDict.get c1 "l"
    let d : Sym := ⟨"R_{" ++ resonance ++ "}", .nonneg⟩
    let massVal ← PyDict.get f.fields "mass"
    let gsq ← PyDict.get c1 "gsq"
    let ma ← PyDict.get c1 "ma"
    let mb ← PyDict.get c1 "mb"
    let dVal ← PyDict.get c1 "d"
    let r ← channelLoop resonance s mass d 2 (c2 :: cs)
      [⟨.sym s, .sym mass, .sym width, .sym m1, .sym m2, pyInt L, .sym d⟩]
      (PyDict.ofItems [(.sym mass, .real massVal), (.sym width, .real gsq), (.sym m1, .real ma),
        (.sym m2, .real mb), (.sym d, .real dVal)])
    return ⟨multichannelBreitWigner (.sym s) (.sym mass) r.1, r.2⟩
  | some _ => .error .notImplementedError

/-- The builders by function type (dynamics.py:50-55). -/
def dynamicsDefinitions (additional : Option (PyDict String PropagatorBuilder)) :
    PyDict String PropagatorBuilder :=
  let definitions := PyDict.ofItems [("BreitWigner", formulateBreitWigner),
    ("MultichannelBreitWigner", formulateMultichannelBreitWigner)]
  match additional with
  | none => definitions
  | some d => PyDict.update definitions d

/-- The loop over the propagators (dynamics.py:56-70). -/
def dynamicsLoop (definitions : PyDict String PropagatorBuilder) (resonance : String)
    (m : ModelDefinition) : List Propagator → DefExpr → Py DefExpr
  | [], expr => .ok expr
  | p :: t, expr => do
    let f ← getFunctionDefinition p.parametrization m
    match PyDict.get? definitions f.type with
    | none => .error .notImplementedError
    | some builder => do
      let e ← builder p resonance m
      dynamicsLoop definitions resonance m t (expr.mul (.defined e))

/-- `formulate_dynamics` (dynamics.py:44-70). -/
def formulateDynamics (c : ChainDefinition) (m : ModelDefinition) (toLatex : String → String)
    (additional : Option (PyDict String PropagatorBuilder)) : Py DefExpr :=
  dynamicsLoop (dynamicsDefinitions additional) (toLatex c.name) m c.propagators {}

end Verif.Serialization
