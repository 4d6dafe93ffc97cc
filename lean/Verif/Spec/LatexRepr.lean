import Verif.Model.LatexRepr

/-! What `str.format` is for: texts in which values are inserted (C112). -/
namespace Verif.LatexRepr
open Verif

/-- A part of a format string: text that stands for itself, or the name of a field. -/
inductive Piece where
  | text (t : String)
  | field (name : String)

/-- Braces in a text are doubled in a format string. -/
def escape : List Char → List Char
  | [] => []
  | c :: t => if c = '{' ∨ c = '}' then c :: c :: escape t else c :: escape t

/-- The format string for a list of pieces. -/
def writeTemplate : List Piece → List Char
  | [] => []
  | .text t :: ps => escape t.toList ++ writeTemplate ps
  | .field name :: ps => '{' :: name.toList ++ '}' :: writeTemplate ps

/-- The text for a list of pieces, with values for the fields. -/
def fill (value : String → String) : List Piece → String
  | [] => ""
  | .text t :: ps => t ++ fill value ps
  | .field name :: ps => value name ++ fill value ps

/-- The names of the fields. -/
def fieldNames : List Piece → List String
  | [] => []
  | .text _ :: ps => fieldNames ps
  | .field name :: ps => name :: fieldNames ps

end Verif.LatexRepr
