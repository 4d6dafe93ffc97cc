import Verif.Model.Sym

/-!
Complex-valued SymPy expressions built by `ampform_dpd`: amplitudes, intensities, lineshapes.

Simplifications:
* Expressions are the operator trees written in the Python code. SymPy's automatic
  canonicalisation is not modelled, except for `0 * x = 0` and the evaluation of numeric
  `KroneckerDelta` in `Expr.doit`, which decide which symbols survive.
* Helicity arguments form a separate language `Hel` of linear expressions over rational numbers and
  helicity symbols, because helicity symbols only occur in such positions.
* Unevaluated classes of `ampform` (`FormFactor`, `EnergyDependentWidth`, `BreakupMomentum`) and
  SymPy's Wigner d-function and Clebsch-Gordan coefficient are kept as nodes.
-/
namespace Verif

/-- Helicity expressions, like `λR - λ[k]` (__init__.py:214). -/
inductive Hel where
  | num (q : ℚ)
  | sym (s : Sym)
  | add (a b : Hel)
  | sub (a b : Hel)
  | neg (a : Hel)
  deriving DecidableEq, Repr

/-- `sp.Indexed`: an `IndexedBase` name, an optional leading `Str` index (the resonance,
__init__.py:358) and numeric or helicity indices. -/
structure Indexed where
  base : String
  res : Option String
  ix : List Hel
  deriving DecidableEq, Repr

/-- Complex-valued expressions. The operators of SymPy used at __init__.py:178-285,
dynamics/__init__.py:38-214 and io/serialization/amplitude.py:60-407. -/
inductive Expr where
  | num (q : ℚ)
  | I
  | sym (s : Sym)
  | idx (x : Indexed)
  | add (a b : Expr)
  | sub (a b : Expr)
  | mul (a b : Expr)
  | div (a b : Expr)
  | neg (a : Expr)
  | pow (a : Expr) (n : ℕ)
  | sqrt (a : Expr)
  | exp (a : Expr)
  | abs (a : Expr)
  /-- `(-1) ** h` -/
  | phase (h : Hel)
  /-- `sp.KroneckerDelta` -/
  | kron (a b : Hel)
  /-- `Wigner.d(j, m, mp, θ)` -/
  | wig (j : ℚ) (m mp : Hel) (θ : Sym)
  /-- `CG(j1, m1, j2, m2, j3, m3)` -/
  | cg (j1 m1 j2 m2 j3 m3 : Hel)
  /-- `FormFactor(s, m1, m2, L, R)` -/
  | ff (s m1 m2 : Expr) (L : ℤ) (R : Expr)
  /-- `EnergyDependentWidth(s, m0, Γ0, m1, m2, L, R, phsp_factor)` -/
  | edw (s m0 g0 m1 m2 : Expr) (L : ℤ) (R : Expr) (phsp : String)
  /-- `BreakupMomentum(s, m1, m2)` -/
  | bmom (s m1 m2 : Expr)
  /-- `PoolSum(body, *indices)` -/
  | psum (body : Expr) (indices : List (Sym × List ℚ))
  deriving DecidableEq, Repr

namespace Expr
/-! The operators `+`, `-`, `*`, `/`, `**` of SymPy (as used at __init__.py:213-236, dynamics/__init__.py:38-214). -/
instance : Add Expr := ⟨add⟩
instance : Sub Expr := ⟨sub⟩
instance : Mul Expr := ⟨mul⟩
instance : Div Expr := ⟨div⟩
instance : Neg Expr := ⟨neg⟩
instance : Pow Expr ℕ := ⟨pow⟩
instance (n : ℕ) : OfNat Expr n := ⟨num n⟩
end Expr

/-- Substitution of helicity symbols, with numeric folding (SymPy evaluates `Add` of numbers). Used by
`PoolSum.evaluate` and `xreplace` (__init__.py:55, 128-149). -/
def Hel.subst (η : Sym → Option ℚ) : Hel → Hel
  | .num q => .num q
  | .sym s => match η s with
    | some q => .num q
    | none => .sym s
  | .add a b => match a.subst η, b.subst η with
    | .num x, .num y => .num (x + y)
    | a', b' => .add a' b'
  | .sub a b => match a.subst η, b.subst η with
    | .num x, .num y => .num (x - y)
    | a', b' => .sub a' b'
  | .neg a => match a.subst η with
    | .num x => .num (-x)
    | a' => .neg a'

/-- `itertools.product` over the values of the summation indices (__init__.py:128, and in `PoolSum` at
__init__.py:144, 152, 238, 270). -/
def combos : List (Sym × List ℚ) → List (List (Sym × ℚ))
  | [] => [[]]
  | (s, vals) :: t => vals.flatMap fun v => (combos t).map fun c => (s, v) :: c

/-- Environment after substituting the assignments `a` (`PoolSum.evaluate`; __init__.py:55, 144-161). -/
def override {α : Type} (f : ℚ → α) (η : Sym → α) (a : List (Sym × ℚ)) : Sym → α := fun s =>
  match a.find? (fun x => x.1 = s) with
  | some x => f x.2
  | none => η s

namespace Expr

/-- Product with SymPy's rule `0 * x = 0`. -/
def mulS (a b : Expr) : Expr := if a = .num 0 ∨ b = .num 0 then .num 0 else .mul a b

/-- `sp.Add(*terms)`. Used at __init__.py:244; the `sum` of __init__.py:271-278 and
io/serialization/amplitude.py:196-203 is of the same kind. -/
def addAll : List Expr → Expr
  | [] => .num 0
  | e :: t => .add e (addAll t)

/-- `expr.doit()` after substituting `η`: `PoolSum` is unfolded
(`ampform.sympy.PoolSum.evaluate`: sum over `itertools.product` of the index values), numeric
Kronecker deltas are evaluated and products with `0` vanish. Wigner functions and Clebsch-Gordan
coefficients are left as they are. -/
def doit (η : Sym → Option ℚ) : Expr → Expr
  | .num q => .num q
  | .I => .I
  | .sym s => .sym s
  | .idx x => .idx ⟨x.base, x.res, x.ix.map (Hel.subst η)⟩
  | .add a b => .add (a.doit η) (b.doit η)
  | .sub a b => .sub (a.doit η) (b.doit η)
  | .mul a b => mulS (a.doit η) (b.doit η)
  | .div a b => .div (a.doit η) (b.doit η)
  | .neg a => .neg (a.doit η)
  | .pow a n => .pow (a.doit η) n
  | .sqrt a => .sqrt (a.doit η)
  | .exp a => .exp (a.doit η)
  | .abs a => .abs (a.doit η)
  | .phase h => .phase (h.subst η)
  | .kron a b => match a.subst η, b.subst η with
    | .num x, .num y => .num (if x = y then 1 else 0)
    | a', b' => .kron a' b'
  | .wig j m mp θ => .wig j (m.subst η) (mp.subst η) θ
  | .cg j1 m1 j2 m2 j3 m3 =>
    .cg (j1.subst η) (m1.subst η) (j2.subst η) (m2.subst η) (j3.subst η) (m3.subst η)
  | .ff s m1 m2 L R => .ff (s.doit η) (m1.doit η) (m2.doit η) L (R.doit η)
  | .edw s m0 g0 m1 m2 L R ph =>
    .edw (s.doit η) (m0.doit η) (g0.doit η) (m1.doit η) (m2.doit η) L (R.doit η) ph
  | .bmom s m1 m2 => .bmom (s.doit η) (m1.doit η) (m2.doit η)
  | .psum body ixs => addAll ((combos ixs).map fun a => body.doit (override some η a))

/-- The `Indexed` objects in an expression (`expr.atoms(sp.Indexed)`; what __init__.py:54-55 replaces). -/
def indexeds : Expr → List Indexed
  | .num _ | .I | .sym _ | .phase _ | .kron .. | .wig .. | .cg .. => []
  | .idx x => [x]
  | .add a b | .sub a b | .mul a b | .div a b => a.indexeds ++ b.indexeds
  | .neg a | .pow a _ | .sqrt a | .exp a | .abs a => a.indexeds
  | .ff s m1 m2 _ R => s.indexeds ++ m1.indexeds ++ m2.indexeds ++ R.indexeds
  | .edw s m0 g0 m1 m2 _ R _ =>
    s.indexeds ++ m0.indexeds ++ g0.indexeds ++ m1.indexeds ++ m2.indexeds ++ R.indexeds
  | .bmom s m1 m2 => s.indexeds ++ m1.indexeds ++ m2.indexeds
  | .psum body _ => body.indexeds

/-- The free symbols of an expression that are not helicity symbols, including the angles in
Wigner functions (`expr.free_symbols` of the expressions of __init__.py:44-55). -/
def syms : Expr → List Sym
  | .num _ | .I | .idx _ | .phase _ | .kron .. | .cg .. => []
  | .sym s => [s]
  | .wig _ _ _ θ => [θ]
  | .add a b | .sub a b | .mul a b | .div a b => a.syms ++ b.syms
  | .neg a | .pow a _ | .sqrt a | .exp a | .abs a => a.syms
  | .ff s m1 m2 _ R => s.syms ++ m1.syms ++ m2.syms ++ R.syms
  | .edw s m0 g0 m1 m2 _ R _ =>
    s.syms ++ m0.syms ++ g0.syms ++ m1.syms ++ m2.syms ++ R.syms
  | .bmom s m1 m2 => s.syms ++ m1.syms ++ m2.syms
  | .psum body _ => body.syms

/-- `expr.xreplace(d)` for a mapping of `Indexed` objects (__init__.py:55). -/
def xreplace (d : PyDict Indexed Expr) : Expr → Expr
  | .idx x => match PyDict.get? d x with
    | some e => e
    | none => .idx x
  | .num q => .num q
  | .I => .I
  | .sym s => .sym s
  | .phase h => .phase h
  | .kron a b => .kron a b
  | .wig j m mp θ => .wig j m mp θ
  | .cg j1 m1 j2 m2 j3 m3 => .cg j1 m1 j2 m2 j3 m3
  | .add a b => .add (a.xreplace d) (b.xreplace d)
  | .sub a b => .sub (a.xreplace d) (b.xreplace d)
  | .mul a b => .mul (a.xreplace d) (b.xreplace d)
  | .div a b => .div (a.xreplace d) (b.xreplace d)
  | .neg a => .neg (a.xreplace d)
  | .pow a n => .pow (a.xreplace d) n
  | .sqrt a => .sqrt (a.xreplace d)
  | .exp a => .exp (a.xreplace d)
  | .abs a => .abs (a.xreplace d)
  | .ff s m1 m2 L R => .ff (s.xreplace d) (m1.xreplace d) (m2.xreplace d) L (R.xreplace d)
  | .edw s m0 g0 m1 m2 L R ph => .edw (s.xreplace d) (m0.xreplace d) (g0.xreplace d)
      (m1.xreplace d) (m2.xreplace d) L (R.xreplace d) ph
  | .bmom s m1 m2 => .bmom (s.xreplace d) (m1.xreplace d) (m2.xreplace d)
  | .psum body ixs => .psum (body.xreplace d) ixs

/-- Substitution of helicity symbols without unfolding sums, `expr.xreplace({λ: value})`
(a symbol bound by an inner sum is not replaced) (`PoolSum.cleanup`; __init__.py:143, 149). -/
def substHel (η : Sym → Option ℚ) : Expr → Expr
  | .num q => .num q
  | .I => .I
  | .sym s => .sym s
  | .idx x => .idx ⟨x.base, x.res, x.ix.map (Hel.subst η)⟩
  | .phase h => .phase (h.subst η)
  | .kron a b => .kron (a.subst η) (b.subst η)
  | .wig j m mp θ => .wig j (m.subst η) (mp.subst η) θ
  | .cg j1 m1 j2 m2 j3 m3 =>
    .cg (j1.subst η) (m1.subst η) (j2.subst η) (m2.subst η) (j3.subst η) (m3.subst η)
  | .add a b => .add (a.substHel η) (b.substHel η)
  | .sub a b => .sub (a.substHel η) (b.substHel η)
  | .mul a b => .mul (a.substHel η) (b.substHel η)
  | .div a b => .div (a.substHel η) (b.substHel η)
  | .neg a => .neg (a.substHel η)
  | .pow a n => .pow (a.substHel η) n
  | .sqrt a => .sqrt (a.substHel η)
  | .exp a => .exp (a.substHel η)
  | .abs a => .abs (a.substHel η)
  | .ff s m1 m2 L R => .ff (s.substHel η) (m1.substHel η) (m2.substHel η) L (R.substHel η)
  | .edw s m0 g0 m1 m2 L R ph => .edw (s.substHel η) (m0.substHel η) (g0.substHel η)
      (m1.substHel η) (m2.substHel η) L (R.substHel η) ph
  | .bmom s m1 m2 => .bmom (s.substHel η) (m1.substHel η) (m2.substHel η)
  | .psum body ixs =>
    .psum (body.substHel fun s => if s ∈ ixs.map Prod.fst then none else η s) ixs

/-- `PoolSum.cleanup` of `ampform.sympy`: indices with one value are substituted, indices without
values are dropped, the others remain. Other expressions have no such method. Called at __init__.py:143, 149. -/
def cleanup : Expr → Expr
  | .psum body ixs =>
    let single := ixs.filterMap fun x => match x.2 with
      | [v] => some (x.1, v)
      | _ => none
    let many := ixs.filter fun x => 2 ≤ x.2.length
    let body' := body.substHel (override some (fun _ => none) single)
    if many = [] then body' else .psum body' many
  | e => e

end Expr

/-- Values of parameters: `float`/`int` or `complex` (__init__.py:48, 486). -/
inductive Val where
  | real (q : ℚ)
  | cplx (re im : ℚ)
  deriving DecidableEq, Repr

/-- Keys of `parameter_defaults`: symbols or `Indexed` objects (__init__.py:48, 135, 141). -/
inductive Key where
  | sym (s : Sym)
  | idx (x : Indexed)
  deriving DecidableEq, Repr

/-- `DefinedExpression` (__init__.py:483-486). -/
structure DefExpr where
  expression : Expr := .num 1
  parameters : PyDict Key Val := []
  deriving DecidableEq

/-- Right operand of `DefinedExpression.__mul__` (__init__.py:488-503). -/
inductive MulArg where
  | defined (d : DefExpr)
  | pair (e : Expr) (definitions : PyDict Key Val)
  | expr (e : Expr)

/-- `DefinedExpression.__mul__` (__init__.py:488-503). -/
def DefExpr.mul (a : DefExpr) : MulArg → DefExpr
  | .defined b => ⟨a.expression * b.expression, PyDict.update (PyDict.update [] a.parameters) b.parameters⟩
  | .pair e defs => ⟨a.expression * e, PyDict.update (PyDict.update [] a.parameters) defs⟩
  | .expr e => ⟨a.expression * e, a.parameters⟩

end Verif
