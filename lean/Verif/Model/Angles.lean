import Verif.Model.Sym

/-!
Model of `/repo/src/ampform_dpd/angles.py`, branch by branch.
-/
namespace Verif.Angles
open Verif RExpr

/-- `sp.Symbol(f"m{i}", nonnegative=True)` (angles.py:34-37, 60-62, 96, 141). -/
def m (i : Int) : RExpr := .sym ⟨"m" ++ toString i, .nonneg⟩

/-- `sp.Symbol(f"sigma{i}", nonnegative=True)` (angles.py:38-39, 63-65, 97, 141). -/
def σ (i : Int) : RExpr := .sym ⟨"sigma" ++ toString i, .nonneg⟩

/-- `{a, b} <= {1, 2, 3}` (angles.py:19, 52). -/
def idsOk (a b : Int) : Bool := [a, b].all (fun x => x ∈ [1, 2, 3])

/-- `next(iter({1, 2, 3} - {a, b}))` (angles.py:33, 59). Called with two different IDs, so the
set has exactly one element; `StopIteration` is not modelled (default 0 is unreachable). -/
def remainingId (a b : Int) : Int :=
  (([1, 2, 3] : List Int).filter (fun x => x ≠ a ∧ x ≠ b)).headD 0

/-- A Python object that is compared with `==` in the guard of angles.py:22-28: the left-hand
side is a `set` of two integers, the members of the right-hand side are tuples. -/
inductive PyObj where
  | set (elems : List Int)
  | tuple (elems : List Int)

/-- Python `==` between such objects (angles.py:22-26): a `set` never equals a `tuple`. -/
def PyObj.eq : PyObj → PyObj → Bool
  | .set a, .set b => a.all (· ∈ b) && b.all (· ∈ a)
  | .tuple a, .tuple b => a == b
  | _, _ => false

/-- `formulate_scattering_angle` (angles.py:9-44).
Simplification: a `set` is not hashable, but Python's `in` converts a `set` operand to a
`frozenset`, so the guard does not raise `TypeError`. -/
def formulateScatteringAngle (stateId siblingId : Int) : Py (Sym × RExpr) :=
  if !idsOk stateId siblingId then .error .valueError
  else if [PyObj.tuple [2, 1], .tuple [3, 2], .tuple [1, 3]].any
      (PyObj.eq (.set [stateId, siblingId])) then
    .error .notImplementedError
  else if stateId = siblingId then .error .valueError
  else
    let symbol : Sym := ⟨"theta_" ++ toString stateId ++ toString siblingId, .real⟩
    let spectatorId := remainingId stateId siblingId
    let m0 := m 0
    let mi := m stateId
    let mj := m siblingId
    let mk := m spectatorId
    let σj := σ siblingId
    let σk := σ spectatorId
    let theta := acos (
      (2 * σk * (σj - mk^2 - mi^2) - (σk + mi^2 - mj^2) * (m0^2 - σk - mk^2))
      / (sqrt (kallen (m0^2) (mk^2) σk) * sqrt (kallen σk (mi^2) (mj^2))))
    .ok (symbol, theta)

/-- The expression of angles.py:59-72 for the ordered pairs of `formulate_theta_hat_angle`. -/
def thetaHatExpr (isobarId alignedSubsystem : Int) : RExpr :=
  let remaining := remainingId isobarId alignedSubsystem
  let m0 := m 0
  let mi := m isobarId
  let mj := m alignedSubsystem
  let σi := σ isobarId
  let σj := σ alignedSubsystem
  let σk := σ remaining
  acos (
    ((m0^2 + mi^2 - σi) * (m0^2 + mj^2 - σj) - 2 * m0^2 * (σk - mi^2 - mj^2))
    / (sqrt (kallen (m0^2) (mj^2) σj) * sqrt (kallen (m0^2) σi (mi^2))))

/-- `formulate_theta_hat_angle` (angles.py:47-75). `fuel` bounds the recursion depth; running
out of it is a `RecursionError` (`C10` shows that depth 2 is enough). -/
def formulateThetaHatAngleF : ℕ → Int → Int → Py (Sym × RExpr)
  | 0, _, _ => .error .recursionError
  | fuel + 1, isobarId, alignedSubsystem =>
    if !idsOk isobarId alignedSubsystem then .error .valueError
    else
      let symbol : Sym :=
        ⟨"\\hat\\theta_" ++ toString isobarId ++ "(" ++ toString alignedSubsystem ++ ")", .real⟩
      if isobarId = alignedSubsystem then .ok (symbol, 0)
      else if (isobarId, alignedSubsystem) ∈ [((3 : Int), (1 : Int)), (1, 2), (2, 3)] then
        .ok (symbol, thetaHatExpr isobarId alignedSubsystem)
      else do
        let (_, theta) ← formulateThetaHatAngleF fuel alignedSubsystem isobarId
        .ok (symbol, -theta)

/-- Python's recursion limit is 1000 by default; any bound above 3 gives the same results. -/
def recursionLimit : ℕ := 1000

/-- `formulate_theta_hat_angle` (angles.py:47-75). -/
def formulateThetaHatAngle := formulateThetaHatAngleF recursionLimit

/-- `sp.acos` of angles.py:98-150: numerator over the product of two Källén roots. -/
def acosRatio (num k1 k2 : RExpr) : RExpr := acos (num / (sqrt k1 * sqrt k2))

/-- `formulate_zeta_angle` (angles.py:78-170); `fuel` as for `formulateThetaHatAngleF`. -/
def formulateZetaAngleF : ℕ → Int → Int → Int → Py (Sym × RExpr)
  | 0, _, _, _ => .error .recursionError
  | fuel + 1, rotatedState, alignedSubsystem, referenceSubsystem =>
    let zetaSymbol : Sym :=
      ⟨"\\zeta^" ++ toString rotatedState ++ "_{" ++ toString alignedSubsystem ++ "("
        ++ toString referenceSubsystem ++ ")}", .real⟩
    if rotatedState = 0 then do
      let (_, theta) ← formulateThetaHatAngleF fuel alignedSubsystem referenceSubsystem
      .ok (zetaSymbol, theta)
    else if referenceSubsystem = 0 then do
      let (_, zeta) ← formulateZetaAngleF fuel rotatedState alignedSubsystem rotatedState
      .ok (zetaSymbol, zeta)
    else if alignedSubsystem = referenceSubsystem then .ok (zetaSymbol, 0)
    else
      let key := (rotatedState, alignedSubsystem, referenceSubsystem)
      let m0 := m 0; let m1 := m 1; let m2 := m 2; let m3 := m 3
      let σ1 := σ 1; let σ2 := σ 2; let σ3 := σ 3
      if key = (1, 1, 3) then
        .ok (zetaSymbol, acosRatio
          (2 * m1^2 * (σ2 - m0^2 - m2^2) + (m0^2 + m1^2 - σ1) * (σ3 - m1^2 - m2^2))
          (kallen (m0^2) (m1^2) σ1) (kallen σ3 (m1^2) (m2^2)))
      else if key = (1, 2, 1) then
        .ok (zetaSymbol, acosRatio
          (2 * m1^2 * (σ3 - m0^2 - m3^2) + (m0^2 + m1^2 - σ1) * (σ2 - m1^2 - m3^2))
          (kallen (m0^2) (m1^2) σ1) (kallen σ2 (m1^2) (m3^2)))
      else if key = (2, 2, 1) then
        .ok (zetaSymbol, acosRatio
          (2 * m2^2 * (σ3 - m0^2 - m3^2) + (m0^2 + m2^2 - σ2) * (σ1 - m2^2 - m3^2))
          (kallen (m0^2) (m2^2) σ2) (kallen σ1 (m2^2) (m3^2)))
      else if key = (2, 3, 2) then
        .ok (zetaSymbol, acosRatio
          (2 * m2^2 * (σ1 - m0^2 - m1^2) + (m0^2 + m2^2 - σ2) * (σ3 - m2^2 - m1^2))
          (kallen (m0^2) (m2^2) σ2) (kallen σ3 (m2^2) (m1^2)))
      else if key = (3, 3, 2) then
        .ok (zetaSymbol, acosRatio
          (2 * m3^2 * (σ1 - m0^2 - m1^2) + (m0^2 + m3^2 - σ3) * (σ2 - m3^2 - m1^2))
          (kallen (m0^2) (m3^2) σ3) (kallen σ2 (m3^2) (m1^2)))
      else if key = (3, 1, 3) then
        .ok (zetaSymbol, acosRatio
          (2 * m3^2 * (σ2 - m0^2 - m2^2) + (m0^2 + m3^2 - σ3) * (σ1 - m3^2 - m2^2))
          (kallen (m0^2) (m3^2) σ3) (kallen σ1 (m3^2) (m2^2)))
      else if key ∈ [((1 : Int), (2 : Int), (3 : Int)), (2, 3, 1), (3, 1, 2)] then
        let mi := m rotatedState; let σi := σ rotatedState
        let mj := m alignedSubsystem; let σj := σ alignedSubsystem
        let mk := m referenceSubsystem; let σk := σ referenceSubsystem
        .ok (zetaSymbol, acosRatio
          (2 * mi^2 * (mj^2 + mk^2 - σi) + (σj - mi^2 - mk^2) * (σk - mi^2 - mj^2))
          (kallen σj (mk^2) (mi^2)) (kallen σk (mi^2) (mj^2)))
      else if key ∈ [((1 : Int), (3 : Int), (1 : Int)), (2, 1, 2), (3, 2, 3), (1, 1, 2), (2, 2, 3),
          (3, 3, 1), (1, 3, 2), (2, 1, 3), (3, 2, 1)] then do
        let (_, zeta) ← formulateZetaAngleF fuel rotatedState referenceSubsystem alignedSubsystem
        .ok (zetaSymbol, -zeta)
      else .error .notImplementedError

/-- `formulate_zeta_angle` (angles.py:78-170). -/
def formulateZetaAngle := formulateZetaAngleF recursionLimit

end Verif.Angles
