import Verif.Model.Expr

/-!
Model of `aslatex` for `DefinedExpression` and of the rendering of indexed symbols
(`/repo/src/ampform_dpd/io/__init__.py`).

Simplifications:
* SymPy's rendering of expressions, symbols and values is a parameter, and so is `doit(deep=False)`.
* `expr == unfolded` is the equality of expression trees.
* `simplify_latex_rendering` sets a global attribute of SymPy; only the function that it installs is modelled.
-/
namespace Verif.Io
open Verif

/-- What the `DefinedExpression` implementation takes from SymPy and AmpForm (io/__init__.py:87-93): `aslatex` of an
expression with keyword arguments of type `K`, of a key and of a value of the parameters, and `doit(deep=False)`. -/
structure Printer (K : Type) where
  expr : K → Expr → String
  noKwargs : K
  key : Key → String
  val : Val → String
  doit : Expr → Expr

/-- `aslatex` of a `DefinedExpression` (io/__init__.py:83-95). -/
def latexDefined {K : Type} (P : Printer K) (kwargs : K) (obj : DefExpr) : String :=
  let latex := "\\begin{array}{rcl}" ++ "\n"
  let expr := obj.expression
  let unfolded := P.doit expr
  let latex :=
    if expr = unfolded then latex ++ ("  " ++ P.expr kwargs obj.expression ++ " \\\\" ++ "\n")
    else latex ++ ("  " ++ P.expr P.noKwargs expr ++ " &=& " ++ P.expr P.noKwargs unfolded ++ " \\\\" ++ "\n")
  let latex := obj.parameters.foldl
    (fun latex x => latex ++ ("  " ++ P.key x.1 ++ " &=& " ++ P.val x.2 ++ " \\\\" ++ "\n")) latex
  latex ++ "\\end{array}"

/-- `_print_Indexed_latex` (io/__init__.py:231-234), given the texts of the base and of the indices. -/
def latexIndexed (base : String) (indices : List String) : String :=
  base ++ "_{" ++ ", ".intercalate indices ++ "}"

end Verif.Io
