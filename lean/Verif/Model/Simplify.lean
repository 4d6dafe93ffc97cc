import Verif.Model.SubIntensity

/-!
Model of `_get_symbol_values` and `_simplify`, with the dictionary `__EXPRS` of earlier results, in the comparisons with AmpForm
(`/repo/docs/comparison/jpsi2pipipi.ipynb`, `/repo/docs/comparison/jpsi2phipipi.ipynb`; line numbers of the former, those of the
latter are larger by one).
-/
namespace Verif.Simplify
open Verif Verif.ThreeBody

/-- What the functions use of SymPy and AmpForm, for symbols `S`, expressions `E` and hashes `H` (lines 641-667): `s.name`, `str(s)`,
`free_symbols`, `sp.Rational`, `cached.xreplace`, `sp.trigsimp` and `get_readable_hash` of the tuple `obj`. -/
structure Algebra (S E H : Type) where
  name : S → String
  str : S → String
  freeSymbols : E → List S
  rational : ℚ → E
  xreplace : E → PyDict S E → E
  trigsimp : E → E
  hash : E × List (S × E) × List (S × E) → H

/-- The arguments of `_simplify` (lines 646-651). The values of the parameters are integers at the calls (lines 676-679, 812-823). -/
structure Call (S E : Type) where
  expr : E
  parameters : PyDict String ℚ
  vars : PyDict S E
  selected : List String

variable {S E H : Type} [DecidableEq S] [DecidableEq H]

/-- `_get_symbol_values` (lines 630-643). The set `free_symbols` is a list in any order. -/
def getSymbolValues (w : Algebra S E H) (expr : E) (parameters : PyDict String ℚ) (selected : List String) : PyDict S E :=
  let values : PyDict String ℚ := parameters.map fun x => (x.1, if selected.any fun r => textIn r x.1 then x.2 else 0)
  PyDict.ofItems ((w.freeSymbols expr).filterMap fun s => (PyDict.get? values (w.name s)).map fun q => (s, w.rational q))

/-- `fixed_variables` (line 655). -/
def fixedVariables (w : Algebra S E H) (vars : PyDict S E) : PyDict S E :=
  vars.filter fun x => (w.freeSymbols x.2).isEmpty

/-- `tuple((k, d[k]) for k in sorted(d, key=str))` (lines 658-659). -/
def sortedItems (w : Algebra S E H) (d : PyDict S E) : List (S × E) :=
  d.mergeSort fun a b => !decide (w.str b.1 < w.str a.1)

/-- `_simplify` (lines 646-668): the result and `__EXPRS` after the call. -/
def simplify (w : Algebra S E H) (exprs : PyDict H E) (c : Call S E) : E × PyDict H E :=
  let parameters := getSymbolValues w c.expr c.parameters c.selected
  let fixed := fixedVariables w c.vars
  let h := w.hash (c.expr, sortedItems w fixed, sortedItems w parameters)
  match PyDict.get? exprs h with
  | some e => (e, exprs)
  | none =>
    let e := w.trigsimp (w.xreplace (w.xreplace c.expr parameters) fixed)
    (e, PyDict.set exprs h e)

/-- The results of successive calls of `_simplify` in one session, for both models (lines 812-823), and `__EXPRS` after them
(line 627). -/
def simplifyAll (w : Algebra S E H) (exprs : PyDict H E) : List (Call S E) → List E × PyDict H E
  | [] => ([], exprs)
  | c :: cs =>
    let r := simplify w exprs c
    let rs := simplifyAll w r.2 cs
    (r.1 :: rs.1, rs.2)

end Verif.Simplify
