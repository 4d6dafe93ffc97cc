import Verif.Model.Sym
import Mathlib.Geometry.Euclidean.Angle.Unoriented.Basic

/-!
Specification of three-body kinematics: four-momenta with three-momenta in any real inner product
space, described in an arbitrary inertial frame. Nothing here mentions the model, except for the
type `Sym` of SymPy symbols in `AtEvent`.
-/
namespace Verif.Spec

variable {V : Type*} [NormedAddCommGroup V] [InnerProductSpace ℝ V]

/-- A four-momentum `(E, p)`. -/
@[ext] structure FourVec (V : Type*) where
  E : ℝ
  p : V

namespace FourVec
instance : Add (FourVec V) := ⟨fun a b => ⟨a.E + b.E, a.p + b.p⟩⟩
omit [InnerProductSpace ℝ V] in
@[simp] theorem add_E (a b : FourVec V) : (a + b).E = a.E + b.E := rfl
omit [InnerProductSpace ℝ V] in
@[simp] theorem add_p (a b : FourVec V) : (a + b).p = a.p + b.p := rfl

/-- Invariant mass squared. -/
noncomputable def sq (a : FourVec V) : ℝ := a.E ^ 2 - ‖a.p‖ ^ 2
end FourVec

/-- A decay event `0 → 1 2 3`: on-shell final-state momenta with non-negative energies, seen in
some inertial frame, and the mass `m 0` of the decaying particle, whose momentum is the sum. -/
structure Event (V : Type*) [NormedAddCommGroup V] where
  P : ℤ → FourVec V
  m : ℤ → ℝ
  total : P 0 = P 1 + P 2 + P 3
  m_nonneg : ∀ i, 0 ≤ m i
  mass_shell : ∀ i ∈ ([0, 1, 2, 3] : List ℤ), (P i).sq = m i ^ 2
  energy_nonneg : ∀ i ∈ ([1, 2, 3] : List ℤ), 0 ≤ (P i).E

/-- The symbols `m0..m3` and `sigma1..sigma3` have the values of the event, where `sigma_k` is
the invariant mass squared of the two other particles. -/
structure AtEvent (ρ : Sym → ℝ) (ev : Event V) : Prop where
  m0 : ρ ⟨"m0", .nonneg⟩ = ev.m 0
  m1 : ρ ⟨"m1", .nonneg⟩ = ev.m 1
  m2 : ρ ⟨"m2", .nonneg⟩ = ev.m 2
  m3 : ρ ⟨"m3", .nonneg⟩ = ev.m 3
  s1 : ρ ⟨"sigma1", .nonneg⟩ = (ev.P 2 + ev.P 3).sq
  s2 : ρ ⟨"sigma2", .nonneg⟩ = (ev.P 3 + ev.P 1).sq
  s3 : ρ ⟨"sigma3", .nonneg⟩ = (ev.P 1 + ev.P 2).sq

/-- Three IDs that are a permutation of `1, 2, 3`. -/
def IsPerm123 (i j k : ℤ) : Prop := [i, j, k].Perm [1, 2, 3]

/-- Cyclic permutations of `1, 2, 3`. -/
def Cyclic (i j k : ℤ) : Prop := (i, j, k) ∈ [((1 : ℤ), (2 : ℤ), (3 : ℤ)), (2, 3, 1), (3, 1, 2)]

/-- In the rest frame of `i`, the momentum that subsystem `k` uses as reference direction for the
spin of `i`: that of the decaying particle if `i` is the spectator of subsystem `k`, otherwise that
of the particle that forms the isobar of subsystem `k` together with `i`. -/
def refMomentum (ev : Event V) (i k : ℤ) : V :=
  if k = i then (ev.P 0).p else (ev.P (6 - i - k)).p

/-- Order of the reference directions in the decay plane: subsystem `i-1`, then `i`, then `i+1`. -/
def refRank (i k : ℤ) : ℤ := if k = i then 1 else if (k - i) % 3 = 1 then 2 else 0

/-- Orientation of the rotation from the reference of `k` to that of `j`: `1`, `0` or `-1`. -/
def zetaSign (i j k : ℤ) : ℝ := ((refRank i j - refRank i k).sign : ℤ)

end Verif.Spec
