import Verif.Model.Simplify
import Mathlib.Data.Complex.Basic

/-! Specification for C134. -/
namespace Verif.Simplify
open Verif Verif.ThreeBody

variable {S E H : Type} [DecidableEq S] [DecidableEq H]

/-- `value η e` is the value of `e` if each symbol `s` has the value `η s`: what is required of SymPy. -/
structure Sound (w : Algebra S E H) (value : (S → ℂ) → E → ℂ) : Prop where
  rational : ∀ η q, value η (w.rational q) = q
  free : ∀ η η' e, (∀ s ∈ w.freeSymbols e, η s = η' s) → value η e = value η' e
  xreplace : ∀ η e d, value η (w.xreplace e d) = value (fun s => ((PyDict.get? d s).map (value η)).getD (η s)) e
  trigsimp : ∀ η e, value η (w.trigsimp e) = value η e

/-- Different objects have different hashes. -/
def FaithfulHash (w : Algebra S E H) : Prop := Function.Injective w.hash

open Classical in
/-- The number that a parameter of the given name has in the picture: its value if the name contains one of the selected
resonances and zero otherwise. -/
noncomputable def shownParameter (c : Call S E) (name : String) : Option ℚ :=
  (PyDict.get? c.parameters name).map fun q => if ∃ r ∈ c.selected, r.toList <:+: name.toList then q else 0

open Classical in
/-- The values of the symbols in the picture: parameters as selected, variables whose definition is a number have this number, and
all other symbols the value that they are given. -/
noncomputable def shownValues (w : Algebra S E H) (value : (S → ℂ) → E → ℂ) (c : Call S E) (η : S → ℂ) (s : S) : ℂ :=
  if h : (shownParameter c (w.name s)).isSome then (((shownParameter c (w.name s)).get h : ℚ) : ℂ)
  else if h : ∃ v, (s, v) ∈ c.vars ∧ w.freeSymbols v = [] then value η h.choose
  else η s

end Verif.Simplify
