import Verif.Model.Py
import Mathlib.Data.Rat.Defs

/-!
SymPy symbols and the real-valued expressions of `angles.py` and of the Mandelstam relations.

Simplification: expressions are kept as the operator tree written in the Python code; SymPy's
automatic canonicalisation (which preserves the value) is not modelled.
-/
namespace Verif

/-- Assumptions passed to `sp.Symbol` by the modelled code (__init__.py:183, 516-517, 535-536,
angles.py:32-39). -/
inductive Asm where
  | none | real | nonneg | rational
  deriving DecidableEq, Repr

/-- A SymPy `Symbol`: two symbols are equal iff name and assumptions are equal (__init__.py:183, 516-517,
535-536, angles.py:32-39). -/
structure Sym where
  name : String
  asm : Asm := .none
  deriving DecidableEq, Repr

/-- Real-valued SymPy expressions used for kinematic variables. `kallen` is
`ampform.kinematics.phasespace.Kallen` (angles.py:41-150, __init__.py:520-537). -/
inductive RExpr where
  | num (q : ℚ)
  | sym (s : Sym)
  | add (a b : RExpr)
  | sub (a b : RExpr)
  | mul (a b : RExpr)
  | div (a b : RExpr)
  | neg (a : RExpr)
  | pow (a : RExpr) (n : ℕ)
  | sqrt (a : RExpr)
  | acos (a : RExpr)
  | kallen (a b c : RExpr)
  deriving DecidableEq, Repr

namespace RExpr
/-! The operators `+`, `-`, `*`, `/`, `**` of SymPy (as used at angles.py:41-150). -/
instance : Add RExpr := ⟨add⟩
instance : Sub RExpr := ⟨sub⟩
instance : Mul RExpr := ⟨mul⟩
instance : Div RExpr := ⟨div⟩
instance : Neg RExpr := ⟨neg⟩
instance : Pow RExpr ℕ := ⟨pow⟩
instance (n : ℕ) : OfNat RExpr n := ⟨num n⟩
end RExpr

end Verif
