import Verif.Proofs.IoExpression

/-! C92: LaTeX code of defined expressions and of indexed symbols. -/
namespace Verif.Io
open Verif

/-- C92: the text is an array of the expression, with its definition if it can be unfolded, and of all parameters in
order. -/
theorem C92_rows {K : Type} (P : Printer K) (kwargs : K) (d : DefExpr) :
    ∃ rows, IsRows P kwargs d rows ∧ IsArray (latexDefined P kwargs d) rows :=
  ⟨_, (rowsOf_isRows P kwargs d _).2 rfl, latexDefined_array P kwargs d⟩

/-- C92: the text determines the rows, if they do not contain ampersands and newlines: two expressions have the same
LaTeX code exactly if their rows are the same. -/
theorem C92_readable {K : Type} (P : Printer K) (kwargs kwargs' : K) (d d' : DefExpr) (h : CleanDefined P kwargs d)
    (h' : CleanDefined P kwargs' d') (rows rows' : List (List String)) (hr : IsRows P kwargs d rows)
    (hr' : IsRows P kwargs' d' rows') :
    latexDefined P kwargs d = latexDefined P kwargs' d' ↔ rows = rows' := by
  rw [rowsOf_isRows] at hr hr'
  subst hr hr'
  have a := latexDefined_array P kwargs d
  have a' := latexDefined_array P kwargs' d'
  constructor
  · intro e
    rw [e] at a
    exact array_unique a a' (rowsOf_clean h) (rowsOf_clean h')
  · intro e
    rw [e] at a
    apply String.toList_inj.1
    exact a.trans a'.symm

/-- C92: the parameters of expressions with the same LaTeX code have the same LaTeX code, one by one. -/
theorem C92_parameters {K : Type} (P : Printer K) (kwargs : K) (d d' : DefExpr) (h : CleanDefined P kwargs d)
    (h' : CleanDefined P kwargs d') (e : latexDefined P kwargs d = latexDefined P kwargs d') :
    List.Forall₂ (fun x y => P.key x.1 = P.key y.1 ∧ P.val x.2 = P.val y.2) d.parameters d'.parameters := by
  obtain ⟨rows, hr, -⟩ := C92_rows P kwargs d
  obtain ⟨rows', hr', -⟩ := C92_rows P kwargs d'
  have hp := hr.parameters
  rw [(C92_readable P kwargs kwargs d d' h h' rows rows' hr hr').1 e, hr'.parameters] at hp
  generalize d.parameters = l at hp
  generalize d'.parameters = l' at hp
  induction l' generalizing l with
  | nil =>
    cases l with
    | nil => exact .nil
    | cons x l => cases hp
  | cons y l' ih =>
    cases l with
    | nil => cases hp
    | cons x l =>
      injection hp with h1 h2
      injection h1 with h1 h3
      injection h3 with h3 _
      exact .cons ⟨h1.symm, h3.symm⟩ (ih l h2)

/-- C92: keyword arguments have no effect on an expression that can be unfolded. -/
theorem C92_kwargs {K : Type} (P : Printer K) (kwargs kwargs' : K) (d : DefExpr)
    (h : P.doit d.expression ≠ d.expression) : latexDefined P kwargs d = latexDefined P kwargs' d := by
  apply String.toList_inj.1
  have e : rowsOf P kwargs d = rowsOf P kwargs' d := by
    rw [rowsOf, rowsOf, if_neg fun e => h e.symm, if_neg fun e => h e.symm]
  have a := latexDefined_array P kwargs d
  rw [e] at a
  exact a.trans (latexDefined_array P kwargs' d).symm

/-- A printer for the example: symbols by their name, and `D` unfolds to `1 / s`. -/
def exPrinter : Printer Bool where
  expr k e := if e = .sym ⟨"D", .none⟩ then "D" else if k then "\\frac{1}{s}" else "1/s"
  noKwargs := true
  key
    | .sym s => s.name
    | .idx x => x.base
  val
    | .real q => if q = 2 then "2" else if q = 1 then "1" else "0"
    | .cplx _ _ => "?"
  doit e := if e = .sym ⟨"D", .none⟩ then .num 1 / .sym ⟨"s", .none⟩ else e

def exDefined : DefExpr := ⟨.sym ⟨"D", .none⟩, [(.sym ⟨"m", .none⟩, .real 2), (.sym ⟨"g", .none⟩, .real 1)]⟩

/-- The text of the example, of which the rows can be read. -/
example : latexDefined exPrinter false exDefined =
    "\\begin{array}{rcl}\n  D &=& \\frac{1}{s} \\\\\n  m &=& 2 \\\\\n  g &=& 1 \\\\\n\\end{array}" ∧
    CleanDefined exPrinter false exDefined ∧ exPrinter.doit exDefined.expression ≠ exDefined.expression := by
  refine ⟨by decide, ⟨⟨⟨by decide, by decide⟩, ⟨by decide, by decide⟩, ⟨by decide, by decide⟩⟩, ?_⟩, by decide⟩
  intro x hx
  simp only [exDefined, List.mem_cons, List.not_mem_nil, or_false] at hx
  rcases hx with rfl | rfl <;> exact ⟨⟨by decide, by decide⟩, ⟨by decide, by decide⟩⟩

/-- C92: the condition is needed: a row that contains the text of two rows. -/
theorem C92_newline_fails : ∃ (P : Printer Unit) (d d' : DefExpr), d.parameters.length ≠ d'.parameters.length ∧
    latexDefined P () d = latexDefined P () d' := by
  let P : Printer Unit := ⟨fun _ _ => "1", (),
    fun | .sym s => s.name
        | .idx x => x.base, fun _ => "0", id⟩
  refine ⟨P, ⟨.num 1, [(.sym ⟨"a &=& 0 \\\\\n  b", .none⟩, .real 0)]⟩,
    ⟨.num 1, [(.sym ⟨"a", .none⟩, .real 0), (.sym ⟨"b", .none⟩, .real 0)]⟩, by decide, by decide⟩

/-- C92: the LaTeX code of an indexed symbol determines base and indices. -/
theorem C92_indexed (b b' : String) (i i' : List String) (h : CleanIndexed b i) (h' : CleanIndexed b' i') :
    latexIndexed b i = latexIndexed b' i' ↔ b = b' ∧ i = i' :=
  ⟨latexIndexed_inj h h', by rintro ⟨rfl, rfl⟩; rfl⟩

/-- An amplitude symbol. -/
example : latexIndexed "A^{1}" ["- \\frac{1}{2}", "0", "0", "\\frac{1}{2}"] =
    "A^{1}_{- \\frac{1}{2}, 0, 0, \\frac{1}{2}}" ∧
    CleanIndexed "A^{1}" ["- \\frac{1}{2}", "0", "0", "\\frac{1}{2}"] :=
  ⟨by decide, by decide, by decide, by decide⟩

/-- C92: with commas in the indices it does not. -/
theorem C92_comma_fails : ∃ i i' : List String, i ≠ i' ∧ latexIndexed "H" i = latexIndexed "H" i' :=
  ⟨["K, L", "0"], ["K", "L, 0"], by decide, by decide⟩

end Verif.Io
