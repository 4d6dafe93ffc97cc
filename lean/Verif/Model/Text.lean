import Verif.Model.SerialAmplitude

/-!
Model of the reading of numbers in a serialized model: `complex(str(...).replace(" ", "").replace("i", "j"))`
for weights (amplitude.py:216) and `sp.Rational(...)` for spins and helicities (amplitude.py:137, 174, 242, 261,
282, 291, 332, 343, decay.py:59, 139). Both are functions of Python and SymPy; they are modelled as documented,
for exact numbers. Simplifications: infinities, `nan` and underscores between digits are rejected; texts are ASCII,
so that there are no other digits and spaces; a number in the JSON file is represented by its value.
-/
namespace Verif.Serialization
open Verif

/-- A value in a JSON file: a text or a number (io/serialization/amplitude.py:216). -/
inductive Scalar where
  | text (s : String)
  | number (q : ℚ)

/-- `Py_ISSPACE` of CPython, for the texts of `complex` (amplitude.py:216) and `Rational`. -/
def isSpace (c : Char) : Bool := (9 ≤ c.toNat && c.toNat ≤ 13) || c.toNat == 32

/-- Skips spaces (`complex` at io/serialization/amplitude.py:216). -/
def skipSpace (l : List Char) : List Char := l.dropWhile isSpace

/-- The number that is denoted by a sequence of digits (`complex` at io/serialization/amplitude.py:216). -/
def natOf (l : List Char) : ℕ := l.foldl (fun n c => 10 * n + (c.toNat - 48)) 0

/-- An optional sign, and the rest of the text (`complex` at io/serialization/amplitude.py:216). -/
def takeSign : List Char → ℤ × List Char
  | '+' :: t => (1, t)
  | '-' :: t => (-1, t)
  | l => (1, l)

/-- An optional exponent, and the rest of the text. A letter `e` without digits is not consumed (`complex` at
io/serialization/amplitude.py:216). -/
def takeExponent : List Char → ℤ × List Char
  | [] => (0, [])
  | c :: t =>
    if c = 'e' ∨ c = 'E' then
      let s := takeSign t
      let ds := s.2.takeWhile Char.isDigit
      if ds = [] then (0, c :: t) else (s.1 * natOf ds, s.2.dropWhile Char.isDigit)
    else (0, c :: t)

/-- The digits after a decimal point, if there is one: whether there is one, the digits and the rest
(`complex` at io/serialization/amplitude.py:216). -/
def takeFraction : List Char → List Char × List Char
  | '.' :: t => (t.takeWhile Char.isDigit, t.dropWhile Char.isDigit)
  | l => ([], l)

/-- `PyOS_string_to_double` of CPython, which `complex` calls (amplitude.py:216): the longest decimal number at the
beginning of a text, and the rest. The number is exact. -/
def takeFloat (l : List Char) : Option (ℚ × List Char) :=
  let s := takeSign l
  let whole := s.2.takeWhile Char.isDigit
  let f := takeFraction (s.2.dropWhile Char.isDigit)
  if whole ++ f.1 = [] then none
  else
    let e := takeExponent f.2
    some (s.1 * natOf (whole ++ f.1) * (10 : ℚ) ^ (e.1 - f.1.length), e.2)

/-- The letter of the imaginary unit (`complex` at io/serialization/amplitude.py:216). -/
def takeUnit : List Char → Option (List Char)
  | 'j' :: t => some t
  | 'J' :: t => some t
  | _ => none

/-- The forms of a complex number in CPython's `complex(text)` (amplitude.py:216), without brackets and spaces
around it. -/
def takeComplex (l : List Char) : Option ((ℚ × ℚ) × List Char) :=
  match takeFloat l with
  | some (z, []) => some ((z, 0), [])
  | some (z, c :: t) =>
    if c = '+' ∨ c = '-' then
      match takeFloat (c :: t) with
      | some (y, u) => (takeUnit u).map fun r => ((z, y), r)
      | none => (takeUnit t).map fun r => ((z, if c = '+' then 1 else -1), r)
    else
      match takeUnit (c :: t) with
      | some r => some ((0, z), r)
      | none => some ((z, 0), c :: t)
  | none =>
    match l with
    | [] => none
    | c :: t =>
      if c = '+' ∨ c = '-' then (takeUnit t).map fun r => ((0, if c = '+' then 1 else -1), r)
      else (takeUnit (c :: t)).map fun r => ((0, 1), r)

/-- `complex(text)` (amplitude.py:216): spaces around the number, and one pair of brackets, are allowed. -/
def complexOf (text : List Char) : Py (ℚ × ℚ) :=
  match skipSpace text with
  | '(' :: t =>
    match takeComplex (skipSpace t) with
    | none => .error .valueError
    | some (z, r) =>
      match skipSpace r with
      | ')' :: u => if skipSpace u = [] then .ok z else .error .valueError
      | _ => .error .valueError
  | l =>
    match takeComplex l with
    | none => .error .valueError
    | some (z, r) => if skipSpace r = [] then .ok z else .error .valueError

/-- The value of a weight (amplitude.py:216). -/
def readWeight : Scalar → Py (ℚ × ℚ)
  | .text s => complexOf ((s.toList.filter (· ≠ ' ')).map fun c => if c = 'i' then 'j' else c)
  | .number q => .ok (q, 0)

/-- `fractions.Fraction(text)`, for a text without `/`; `Rational` calls it (amplitude.py:137 and others). -/
def fractionOf (text : List Char) : Option ℚ :=
  match takeFloat (skipSpace text) with
  | none => none
  | some (q, r) => if skipSpace r = [] then some q else none

/-- `sp.Rational(x)` (amplitude.py:137 and others): one `/` is allowed, spaces are removed. -/
def readRational : Scalar → Py ℚ
  | .number q => .ok q
  | .text s =>
    let l := s.toList.filter (· ≠ ' ')
    if 1 < l.count '/' then .error .typeError
    else
      match l.dropWhile (· ≠ '/') with
      | [] =>
        match fractionOf l with
        | some q => .ok q
        | none => .error .typeError
      | _ :: denominator =>
        match fractionOf (l.takeWhile (· ≠ '/')), fractionOf denominator with
        | some a, some b => if b = 0 then .error .zeroDivisionError else .ok (a / b)
        | _, _ => .error .valueError

/-- `int(text)` (amplitude.py:290) and `int` of a number, which truncates (dynamics.py:89, 112, 142, 158). -/
def readInt : Scalar → Py ℤ
  | .number q => .ok (if 0 ≤ q then ⌊q⌋ else ⌈q⌉)
  | .text t =>
    let s := takeSign (skipSpace t.toList)
    let ds := s.2.takeWhile Char.isDigit
    if ds ≠ [] ∧ skipSpace (s.2.dropWhile Char.isDigit) = [] then .ok (s.1 * natOf ds) else .error .valueError

end Verif.Serialization
