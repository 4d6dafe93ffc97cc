import Verif.Model.Expr
import Mathlib.Analysis.SpecialFunctions.Pow.Complex
import Mathlib.Algebra.BigOperators.Group.List.Basic

/-!
Numerical value of the expressions, in the complex numbers. Division by zero and similar partial
operations follow Lean's conventions; theorems that depend on them state the non-zero conditions.
-/
namespace Verif

/-- Values of everything that the package leaves open: parameters and variables, amplitudes and
couplings, and the functions that come from SymPy and AmpForm (the symbols left in `full_expression`,
__init__.py:52-55). -/
structure Interp where
  /-- value of a symbol (parameters, masses, angles, Mandelstam variables) -/
  sym : Sym → ℂ
  /-- value of an indexed symbol -/
  idx : String → Option String → List ℚ → ℂ
  /-- Wigner d-function `d^j_{m m'}(θ)` -/
  wig : ℚ → ℚ → ℚ → ℂ → ℂ
  /-- Clebsch-Gordan coefficient -/
  cg : ℚ → ℚ → ℚ → ℚ → ℚ → ℚ → ℂ
  /-- form factor -/
  ff : ℂ → ℂ → ℂ → ℤ → ℂ → ℂ
  /-- energy dependent width, for each phase space factor -/
  edw : String → ℂ → ℂ → ℂ → ℂ → ℂ → ℤ → ℂ → ℂ
  /-- breakup momentum -/
  bmom : ℂ → ℂ → ℂ → ℂ

/-- Value of a helicity expression (the helicity arguments of __init__.py:178-285). -/
def Hel.eval (η : Sym → ℚ) : Hel → ℚ
  | .num q => q
  | .sym s => η s
  | .add a b => a.eval η + b.eval η
  | .sub a b => a.eval η - b.eval η
  | .neg a => -a.eval η

/-- Value of an expression. `η` are the values of the helicity symbols (the mathematical meaning of the nodes
of Model/Expr, which come from SymPy and AmpForm; __init__.py:12-19, 52-55). -/
noncomputable def Expr.eval (ι : Interp) (η : Sym → ℚ) : Expr → ℂ
  | .num q => q
  | .I => Complex.I
  | .sym s => ι.sym s
  | .idx x => ι.idx x.base x.res (x.ix.map (Hel.eval η))
  | .add a b => a.eval ι η + b.eval ι η
  | .sub a b => a.eval ι η - b.eval ι η
  | .mul a b => a.eval ι η * b.eval ι η
  | .div a b => a.eval ι η / b.eval ι η
  | .neg a => -a.eval ι η
  | .pow a n => a.eval ι η ^ n
  | .sqrt a => a.eval ι η ^ (1 / 2 : ℂ)
  | .exp a => Complex.exp (a.eval ι η)
  | .abs a => (‖a.eval ι η‖ : ℂ)
  | .phase h => Complex.exp (Real.pi * Complex.I * (h.eval η : ℂ))
  | .kron a b => if a.eval η = b.eval η then 1 else 0
  | .wig j m mp θ => ι.wig j (m.eval η) (mp.eval η) (ι.sym θ)
  | .cg j1 m1 j2 m2 j3 m3 =>
    ι.cg (j1.eval η) (m1.eval η) (j2.eval η) (m2.eval η) (j3.eval η) (m3.eval η)
  | .ff s m1 m2 L R => ι.ff (s.eval ι η) (m1.eval ι η) (m2.eval ι η) L (R.eval ι η)
  | .edw s m0 g0 m1 m2 L R ph => ι.edw ph (s.eval ι η) (m0.eval ι η) (g0.eval ι η)
      (m1.eval ι η) (m2.eval ι η) L (R.eval ι η)
  | .bmom s m1 m2 => ι.bmom (s.eval ι η) (m1.eval ι η) (m2.eval ι η)
  | .psum body ixs => ((combos ixs).map fun a => body.eval ι (override id η a)).sum

/-- `parameter_defaults` values as complex numbers (__init__.py:48). -/
noncomputable def Val.toC : Val → ℂ
  | .real q => q
  | .cplx re im => re + im * Complex.I

end Verif
