import Verif.Model.Dynamics

/-!
Model of the custom dynamics builders in the documentation, `/repo/docs/index.ipynb` and
`/repo/docs/lc2pkpi.ipynb`.
-/
namespace Verif.ThreeBody
open Verif

/-- `formulate_gaussian` (docs/index.ipynb:602-614). -/
def formulateGaussian : DynBuilder := fun c => do
  let s ← getMandelstamS (← c.decay.decayNode)
  let mu := createMassSymbol c.resonance
  let sigma2 : Sym := ⟨"\\sigma_{" ++ c.resonance.toP.latex ++ "}^2", .nonneg⟩
  let x := Expr.sqrt (.sym s)
  return ⟨.exp (-((x - .sym mu) ^ 2) / (2 * .sym sigma2)),
    PyDict.ofItems [(.sym mu, .real c.resonance.toP.mass), (.sym sigma2, .real (c.resonance.toP.width ^ 2))]⟩

/-- `ls.L` of `None` or an `LSCoupling` (docs/lc2pkpi.ipynb:198-199). -/
def couplingL : Option LS → Py ℤ
  | none => .error .attributeError
  | some ls => .ok ls.L

/-- `formulate_breit_wigner` (docs/lc2pkpi.ipynb:193-232); `phsp` is the default phase space factor of
`BreitWignerMinL` (dynamics/__init__.py:67-69). -/
def formulateBreitWignerMinL (phsp : String) : DynBuilder := fun c => do
  let s ← getMandelstamS (← c.decay.decayNode)
  let child1 := createMassSymbol (.state c.product1)
  let child2 := createMassSymbol (.state c.product2)
  let lDec ← couplingL c.outgoingLs
  let lProd ← couplingL c.incomingLs
  let parentMass : Sym := ⟨"m_{" ++ c.parent.latex ++ "}", .nonneg⟩
  let spectatorMass : Sym := ⟨"m_{" ++ c.spectator.latex ++ "}", .nonneg⟩
  let mass : Sym := ⟨"m_{" ++ c.resonance.toP.latex ++ "}", .nonneg⟩
  let width : Sym := ⟨"\\Gamma_{" ++ c.resonance.toP.latex ++ "}", .nonneg⟩
  let rDec : Sym := ⟨"R_\\mathrm{res}", .nonneg⟩
  let rProd : Sym := ⟨"R_{\\Lambda_c}", .nonneg⟩
  return ⟨breitWignerMinL (.sym s) (.sym parentMass) (.sym spectatorMass) (.sym mass) (.sym width)
      (.sym child1) (.sym child2) lDec lProd (.sym rDec) (.sym rProd) phsp,
    PyDict.ofItems [(.sym parentMass, .real c.parent.mass), (.sym spectatorMass, .real c.spectator.mass),
      (.sym mass, .real c.resonance.toP.mass), (.sym width, .real c.resonance.toP.width),
      (.sym child1, .real c.product1.mass), (.sym child2, .real c.product2.mass),
      (.sym rDec, .real (3 / 2)), (.sym rProd, .real 5)]⟩

end Verif.ThreeBody
