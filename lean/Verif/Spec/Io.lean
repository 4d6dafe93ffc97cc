import Verif.Model.Decay

/-! Specification of Markdown tables and of the $J^P$ notation, in terms of the text alone. -/
namespace Verif.Io
open Verif Verif.ThreeBody

/-- The text consists of one line per row. A line is a bar, followed by the cells, each followed
by a bar. Bars and newlines do not occur in cells. -/
def IsTable (s : String) (rows : List (List String)) : Prop :=
  s.toList = rows.flatMap
    (fun r => '|' :: (r.flatMap (fun c => c.toList ++ ['|']) ++ ['\n'])) ∧
  ∀ r ∈ rows, ∀ c ∈ r, '|' ∉ c.toList ∧ '\n' ∉ c.toList

/-- The text is a table in which all rows have the same number of cells. -/
def Rectangular (s : String) : Prop := ∃ rows n, IsTable s rows ∧ ∀ r ∈ rows, r.length = n

/-- The content of a cell is surrounded by blanks. -/
def padded (x : String) : String := " " ++ x ++ " "

/-- Text that does not interfere with the table syntax. -/
def CleanText (x : String) : Prop := '|' ∉ x.toList ∧ '\n' ∉ x.toList

/-- Name and LaTeX of a particle do not interfere with the table syntax. -/
def CleanParticle (p : Particle) : Prop := CleanText p.name ∧ CleanText p.latex

/-- The same for the particles shown for a chain. -/
def CleanChain (c : Chain) : Prop :=
  CleanParticle c.resonance.toP ∧ CleanParticle c.product1.toParticle ∧
    CleanParticle c.product2.toParticle

/-- The text of a spin: an integer, or a fraction with denominator two. -/
def IsSpinText (j : ℚ) (t : String) : Prop :=
  (∃ n : ℤ, j = n ∧ t = toString n) ∨
  (∃ n : ℤ, n % 2 = 1 ∧ j = n / 2 ∧ t = "\\frac{" ++ toString n ++ "}{2}")

/-- The text of spin and parity. -/
def IsJpText (j : ℚ) (parity : Option ℤ) (t : String) : Prop :=
  ∃ spin, IsSpinText j spin ∧
    (parity = none ∧ t = "J=" ++ spin ∨ parity = some 1 ∧ t = spin ++ "^+" ∨
      parity = some (-1) ∧ t = spin ++ "^-")

/-- `n` is `x` rounded towards zero. -/
def IsTruncation (x : ℚ) (n : ℤ) : Prop :=
  0 ≤ x ∧ n ≤ x ∧ x < n + 1 ∨ x < 0 ∧ x ≤ n ∧ n - 1 < x

/-- The text is the given mass in MeV, rounded towards zero, apart from commas. -/
def IsMeVText (mass : ℚ) (t : String) : Prop :=
  ∃ n : ℤ, IsTruncation (1000 * mass) n ∧ t.toList.filter (· ≠ ',') = (toString n).toList

/-- The cells for the properties that all particles have. -/
def IsParticleRow (p : Particle) (cells : List String) : Prop :=
  ∃ jp mass width, IsJpText p.spin p.parity jp ∧ IsMeVText p.mass mass ∧ IsMeVText p.width width ∧
    cells = ["`" ++ p.name ++ "`", "$" ++ p.latex ++ "$", "$" ++ jp ++ "$", mass, width].map padded

/-- The cells for a chain: the decay, spin and parity, mass and width of the resonance, and the
angular momenta of the couplings that the chain has, first the one of the decay. -/
def IsChainRow (c : Chain) (cells : List String) : Prop :=
  ∃ jp mass width, IsJpText c.resonance.toP.spin c.resonance.toP.parity jp ∧
    IsMeVText c.resonance.toP.mass mass ∧ IsMeVText c.resonance.toP.width width ∧
    cells = (["$" ++ c.resonance.toP.latex ++ " \\to " ++ c.product1.latex ++ " " ++
        c.product2.latex ++ "$", "$" ++ jp ++ "$", mass, width] ++
      (c.outgoingLs.map fun ls => toString ls.L).toList ++
      (c.incomingLs.map fun ls => toString ls.L).toList).map padded

/-- The cell for the index of a state; it is blank for other particles. -/
def indexCell : Obj → String
  | .state s => padded (toString s.index)
  | .particle _ => padded " "

/-- The index of a state; other particles have none. -/
def indexOf : Obj → Option ℤ
  | .state s => some s.index
  | .particle _ => none

/-- What a table of particles shows of a particle. -/
structure Shown where
  index : Option ℤ
  name : String
  latex : String
  spin : ℚ
  parity : Option ℤ
  mass : ℤ
  width : ℤ

/-- `m` is what a table shows of the particle: everything but the digits after the decimal point
of the mass and the width in MeV. -/
def IsShown (o : Obj) (m : Shown) : Prop :=
  m.index = indexOf o ∧
  m.name = o.toP.name ∧ m.latex = o.toP.latex ∧ m.spin = o.toP.spin ∧ m.parity = o.toP.parity ∧
  IsTruncation (1000 * o.toP.mass) m.mass ∧ IsTruncation (1000 * o.toP.width) m.width

/-- An object that `Particle(...)` or `State(...)` can have returned, with a parity of ±1 or
none. -/
def ValidParticle (p : Particle) : Prop :=
  (p.spin.den = 1 ∨ p.spin.den = 2) ∧ (p.parity = none ∨ p.parity = some 1 ∨ p.parity = some (-1))

/-- LaTeX code of a particle that cannot be mistaken for another part of the LaTeX code of a decay: no spaces, not an
arrow, no opening bracket of a decay at the start and no closing bracket at the end. -/
structure PlainLatex (x : String) : Prop where
  noSpace : ' ' ∉ x.toList
  noArrow : x ≠ "\\to" ∧ ¬ "\\xrightarrow[".toList <+: x.toList
  noLeft : ¬ "\\left(".toList <+: x.toList
  noRight : ¬ "\\right)".toList <:+ x.toList

/-- The particles and states in a decay. -/
def objects : Node → List Obj
  | .leaf o => [o]
  | .isobar p a b _ => p :: objects a ++ objects b

/-- All particles of a decay have plain LaTeX names, and valid spin and parity. -/
def AllPlain (n : Node) : Prop := ∀ o ∈ objects n, PlainLatex o.toP.latex ∧ ValidParticle o.toP

/-- The same LaTeX name and, if `withJp`, the same spin and parity. -/
def SameParticle (withJp : Bool) (p q : Particle) : Prop :=
  p.latex = q.latex ∧ (withJp = true → p.spin = q.spin ∧ p.parity = q.parity)

/-- A `State`. -/
def IsStateObj (o : Obj) : Prop := ∃ s, o = .state s

/-- The two decays have the same shape, with the same particles (by LaTeX name, and by spin and parity if `withJp`) in
the same order and the same LS couplings, and the same decaying particles are `State` objects. -/
def SameDecay (withJp : Bool) : Node → Node → Prop
  | .leaf o, .leaf o' => SameParticle withJp o.toP o'.toP
  | .isobar p a b i, .isobar p' a' b' i' => SameParticle withJp p.toP p'.toP ∧ (IsStateObj p ↔ IsStateObj p') ∧
      i = i' ∧ SameDecay withJp a a' ∧ SameDecay withJp b b'
  | _, _ => False

end Verif.Io
