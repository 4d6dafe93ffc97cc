import Verif.Model.IoExpression

/-! Specification of the LaTeX arrays of defined expressions and of indexed symbols, in terms of the text alone. -/
namespace Verif.Io
open Verif

/-- A LaTeX array with these rows: a line to open it, one line per row with `&=&` between the cells and `\\` at the
end, and a closing line. -/
def IsArray (s : String) (rows : List (List String)) : Prop :=
  s.toList = "\\begin{array}{rcl}\n".toList ++
    (rows.flatMap fun cells => "  ".toList ++ List.intercalate " &=& ".toList (cells.map String.toList) ++
      " \\\\\n".toList) ++
    "\\end{array}".toList

/-- Text that does not interfere with the syntax of arrays. -/
def CleanCell (x : String) : Prop := '&' ∉ x.toList ∧ '\n' ∉ x.toList

/-- The rows that a reader expects: the expression with its definition, if it can be unfolded, and one row per
parameter. -/
structure IsRows {K : Type} (P : Printer K) (kwargs : K) (d : DefExpr) (rows : List (List String)) : Prop where
  plain : P.doit d.expression = d.expression → rows.head? = some [P.expr kwargs d.expression]
  unfolded : P.doit d.expression ≠ d.expression →
    rows.head? = some [P.expr P.noKwargs d.expression, P.expr P.noKwargs (P.doit d.expression)]
  parameters : rows.tail = d.parameters.map fun x => [P.key x.1, P.val x.2]

/-- Everything that is shown of the expression is clean. -/
structure CleanDefined {K : Type} (P : Printer K) (kwargs : K) (d : DefExpr) : Prop where
  expr : CleanCell (P.expr kwargs d.expression) ∧ CleanCell (P.expr P.noKwargs d.expression) ∧
    CleanCell (P.expr P.noKwargs (P.doit d.expression))
  parameters : ∀ x ∈ d.parameters, CleanCell (P.key x.1) ∧ CleanCell (P.val x.2)

/-- Texts of the base and the indices of an indexed symbol that can be told apart: at least one index, no comma in
indices, and no index in the base. -/
structure CleanIndexed (base : String) (indices : List String) : Prop where
  nonempty : indices ≠ []
  comma : ∀ i ∈ indices, ',' ∉ i.toList
  base : ¬ "_{".toList <:+: base.toList

end Verif.Io
