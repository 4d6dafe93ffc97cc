import Verif.Model.SubIntensity
import Verif.Spec.Couplings

/-! Specification of property C126. -/
namespace Verif.Spec
open Verif Verif.ThreeBody

/-- The value of a model as a function of the values of its couplings: couplings are looked up by their text. Those
without a value do not occur in the numerical function, because the factor before them is zero (C111); they are zero here.
Everything else is as in `ι`. -/
noncomputable def withCouplings (ι : Interp) (p : PyDict String ℂ) : Interp :=
  { ι with idx := fun base res ix => (p.get? (couplingKey base res ix)).getD 0 }

/-- The texts of the couplings of a chain (`couplingSymbols`) for given helicities. -/
def couplingTexts (b : Builder) (c : Chain) (useCoefficients : Bool) (lR lk li lj : ℚ) : List String :=
  let R := c.resonance.toP.latex
  let p := couplingIndices b.useProdHel c.incomingLs lR lk
  let q := couplingIndices b.useDecHel c.outgoingLs li lj
  if useCoefficients then [couplingKey (coefficientName R b.useProdHel b.useDecHel) none (p ++ q)]
  else [couplingKey (couplingName b.useProdHel "production") (some R) p,
    couplingKey (couplingName b.useDecHel "decay") (some R) q]

/-- The text of one of the couplings of the chain contains `latex`. -/
def Mentions (b : Builder) (c : Chain) (useCoefficients : Bool) (latex : String) : Prop :=
  ∃ lR lk li lj, ∃ t ∈ couplingTexts b c useCoefficients lR lk li lj, latex.toList <:+: t.toList

/-- LaTeX as that of most particles: no comma, space or square bracket, some character that is not part of a number, and
not itself a part of the names of the couplings. -/
structure OrdinaryLatex (latex : String) : Prop where
  chars : ∀ x ∈ [',', ' ', '[', ']'], x ∉ latex.toList
  letter : ∃ x ∈ latex.toList, x.isDigit = false ∧ x ≠ '-' ∧ x ≠ '/'
  names : ∀ hel, ∀ v ∈ ["production", "decay"], ¬ latex.toList <:+: (couplingName hel v).toList

/-- Every brace that is closed has been opened, and every one that is opened is closed. -/
structure BalancedBraces (latex : String) : Prop where
  closed : latex.toList.count '{' = latex.toList.count '}'
  opened : ∀ s, s <+: latex.toList → s.count '}' ≤ s.count '{'

/-- As `OrdinaryLatex`, for the names of coefficients. -/
structure OrdinaryCoefficient (latex : String) : Prop where
  chars : ∀ x ∈ [',', ' ', '[', ']'], x ∉ latex.toList
  letter : ∃ x ∈ latex.toList, x.isDigit = false ∧ x ≠ '-' ∧ x ≠ '/'
  braces : BalancedBraces latex
  names : ∀ p q, ¬ latex.toList <:+: (coefficientName "" p q).toList

end Verif.Spec
