import Mathlib.Data.Nat.Digits.Defs
import Mathlib.Data.Rat.Defs
import Mathlib.Algebra.Field.Rat
import Mathlib.Algebra.Order.Field.Basic

/-! Specification of the texts that denote numbers in a serialized model (C105). -/
namespace Verif.Serialization

/-- The number with the given decimal digits. -/
def decimal (l : List Char) : ℕ := Nat.ofDigits 10 (l.reverse.map fun c => c.toNat - '0'.toNat)

/-- An optional sign. -/
inductive Sign where
  | none | plus | minus
  deriving DecidableEq

def Sign.text : Sign → List Char
  | .none => []
  | .plus => ['+']
  | .minus => ['-']

def Sign.value : Sign → ℤ
  | .minus => -1
  | _ => 1

/-- A decimal number such as `-12.5e+3`. -/
structure Literal where
  sign : Sign
  whole : List Char
  point : Bool
  fraction : List Char
  exponent : Option (Char × Sign × List Char)

/-- Digits are digits, there is at least one before or after the point, and at least one in the exponent. -/
structure Literal.Valid (x : Literal) : Prop where
  digits : ∀ c ∈ x.whole ++ x.fraction, c.isDigit = true
  nonempty : x.whole ++ x.fraction ≠ []
  point : x.point = false → x.fraction = []
  exponent : ∀ e ∈ x.exponent, (e.1 = 'e' ∨ e.1 = 'E') ∧ e.2.2 ≠ [] ∧ ∀ c ∈ e.2.2, c.isDigit = true

/-- The text of the exponent. -/
def exponentText : Option (Char × Sign × List Char) → List Char
  | .none => []
  | .some (c, s, ds) => c :: (s.text ++ ds)

/-- The value of the exponent. -/
def exponentValue : Option (Char × Sign × List Char) → ℤ
  | .none => 0
  | .some (_, s, ds) => s.value * decimal ds

def Literal.text (x : Literal) : List Char :=
  x.sign.text ++ x.whole ++ (if x.point then ['.'] else []) ++ x.fraction ++ exponentText x.exponent

def Literal.value (x : Literal) : ℚ :=
  x.sign.value * (decimal x.whole + decimal x.fraction / 10 ^ x.fraction.length) * 10 ^ exponentValue x.exponent

/-- Letters of the imaginary unit. -/
def ImaginaryUnit (c : Char) : Prop := c = 'i' ∨ c = 'j' ∨ c = 'J'

/-- The text denotes the complex number `x + y i`. -/
inductive ComplexText : List Char → ℚ → ℚ → Prop
  | real (a : Literal) (h : a.Valid) : ComplexText a.text a.value 0
  | imaginary (a : Literal) (h : a.Valid) (u : Char) (hu : ImaginaryUnit u) : ComplexText (a.text ++ [u]) 0 a.value
  | both (a b : Literal) (h : a.Valid) (h' : b.Valid) (hs : b.sign ≠ .none) (u : Char) (hu : ImaginaryUnit u) :
      ComplexText (a.text ++ (b.text ++ [u])) a.value b.value
  | plusUnit (a : Literal) (h : a.Valid) (s : Sign) (hs : s ≠ .none) (u : Char) (hu : ImaginaryUnit u) :
      ComplexText (a.text ++ (s.text ++ [u])) a.value s.value
  | unit (s : Sign) (u : Char) (hu : ImaginaryUnit u) : ComplexText (s.text ++ [u]) 0 s.value

/-- White space other than the space itself, which is ignored everywhere. -/
def White (l : List Char) : Prop := ∀ c ∈ l, 9 ≤ c.toNat ∧ c.toNat ≤ 13

/-- The text of a weight: a complex number, with any spaces, possibly in brackets. -/
def WeightText (t : String) (x y : ℚ) : Prop :=
  ∃ core v w, ComplexText core x y ∧ White v ∧ White w ∧
    (t.toList.filter (· ≠ ' ') = v ++ (core ++ w) ∨
      ∃ v' w', White v' ∧ White w' ∧ t.toList.filter (· ≠ ' ') = v ++ ('(' :: (v' ++ (core ++ (w' ++ (')' :: w))))))

/-- The text of a rational number: a decimal number, or a fraction of two, with any spaces. -/
inductive RationalText (t : String) : ℚ → Prop
  | number (a : Literal) (v w : List Char) (h : a.Valid) (hv : White v) (hw : White w)
      (ht : t.toList.filter (· ≠ ' ') = v ++ (a.text ++ w)) : RationalText t a.value
  | fraction (a b : Literal) (v w v' w' : List Char) (h : a.Valid) (h' : b.Valid) (h0 : b.value ≠ 0)
      (hv : White v) (hw : White w) (hv' : White v') (hw' : White w')
      (ht : t.toList.filter (· ≠ ' ') = v ++ (a.text ++ (w ++ ('/' :: (v' ++ (b.text ++ w')))))) :
      RationalText t (a.value / b.value)

/-- The text of an integer: digits with an optional sign, and spaces around it. -/
def IntegerText (t : String) (n : ℤ) : Prop :=
  ∃ (s : Sign) (ds v w : List Char), ds ≠ [] ∧ (∀ c ∈ ds, c.isDigit = true) ∧
    (∀ c ∈ v ++ w, c = ' ' ∨ 9 ≤ c.toNat ∧ c.toNat ≤ 13) ∧ t.toList = v ++ (s.text ++ (ds ++ w)) ∧ n = s.value * decimal ds

end Verif.Serialization
