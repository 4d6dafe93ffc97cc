import Verif.Model.SerialDynamics

/-!
Model of the custom builder in the documentation, `/repo/docs/serialization.ipynb`, which is needed for
`/repo/docs/Lc2ppiK.json`.
-/
namespace Verif.Serialization
open Verif Verif.ThreeBody

/-- `final_state[i].mass` for an item of a node (docs/serialization.ipynb:439-440). -/
def finalStateMass (final : PyDict ℤ State) : Tree → Py ℚ
  | .id i => do return (← PyDict.get final i).mass
  | .seq _ => .error .keyError

/-- `formulate_bugg_breit_wigner` (docs/serialization.ipynb:422-444). A key that is a list is not
hashable (`TypeError`); this cannot occur after `to_mandelstam_symbol` for the nodes of a three-body
decay and is not distinguished here. -/
def formulateBuggBreitWigner : PropagatorBuilder := fun p resonance m => do
  let f ← getFunctionDefinition p.parametrization m
  let (i, j) ← unpack2 p.node
  let s ← toMandelstamSymbol p.node
  let mass := resonanceMass resonance
  let width := resonanceWidth resonance
  let γ : Sym := ⟨"\\gamma_{" ++ resonance ++ "}", .nonneg⟩
  let m1 ← toMassSymbol i
  let m2 ← toMassSymbol j
  let final ← getFinalState m identityFunction
  let massVal ← PyDict.get f.fields "mass"
  let widthVal ← PyDict.get f.fields "width"
  let ma ← finalStateMass final i
  let mb ← finalStateMass final j
  let slope ← PyDict.get f.fields "slope"
  return ⟨buggBreitWigner (.sym s) (.sym mass) (.sym width) (.sym m1) (.sym m2) (.sym γ),
    PyDict.ofItems [(.sym mass, .real massVal), (.sym width, .real widthVal), (.sym m1, .real ma),
      (.sym m2, .real mb), (.sym γ, .real slope)]⟩

/-- `DYNAMICS_BUILDERS` (docs/serialization.ipynb:475-477). -/
def docsBuilders : PyDict String PropagatorBuilder :=
  [("BreitWignerWidthExpLikeBugg", formulateBuggBreitWigner)]

/-- `str.strip(c)` for a single character (used in docs/serialization.ipynb:157). -/
def stripChar (c : Char) (l : List Char) : List Char :=
  ((l.dropWhile (· == c)).reverse.dropWhile (· == c)).reverse

/-- `to_latex` (docs/serialization.ipynb:148-162). For the empty name `name[0]` raises `IndexError`; the empty
text stands for that. -/
def docsToLatex (name : String) : String :=
  match PyDict.get? [("Lc", "\\Lambda_c^+"), ("pi", "\\pi^+"), ("K", "K^-"), ("p", "p")] name with
  | some latex => latex
  | none => match name.toList with
    | [] => ""
    | letter :: rest =>
      let mass := stripChar ')' (stripChar '(' rest)
      match PyDict.get? [('D', "D"), ('K', "K"), ('L', "\\Lambda")] letter with
      | none => name
      | some subsystem => subsystem ++ "(" ++ String.ofList mass ++ ")"

end Verif.Serialization
