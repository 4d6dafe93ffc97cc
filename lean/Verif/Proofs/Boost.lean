import Verif.Spec.Kinematics
import Mathlib.Tactic.LinearCombination
import Mathlib.Tactic.FieldSimp

/-!
Every event can be described in the rest frame of a massive (sub)system: Lorentz boosts.
-/
namespace Verif.Spec
open scoped RealInnerProductSpace
variable {V : Type*} [NormedAddCommGroup V] [InnerProductSpace ℝ V]

/-- Boost to the rest frame of the timelike momentum `P` of mass `M`. -/
noncomputable def boost (P : FourVec V) (M : ℝ) (q : FourVec V) : FourVec V :=
  ⟨(P.E * q.E - ⟪P.p, q.p⟫) / M, q.p + (⟪P.p, q.p⟫ / (M * (P.E + M)) - q.E / M) • P.p⟩

theorem boost_add (P : FourVec V) (M : ℝ) (a b : FourVec V) :
    boost P M (a + b) = boost P M a + boost P M b := by
  ext
  · simp only [boost, FourVec.add_E, FourVec.add_p, inner_add_right]; ring
  · simp only [boost, FourVec.add_E, FourVec.add_p, inner_add_right]
    rw [add_add_add_comm, ← add_smul]
    congr 2
    ring

theorem boost_sq {P : FourVec V} {M : ℝ} (hM : 0 < M) (hE : 0 ≤ P.E) (hP : P.sq = M ^ 2)
    (q : FourVec V) : (boost P M q).sq = q.sq := by
  have hEM : 0 < P.E + M := by linarith
  have hn : ‖P.p‖ ^ 2 = P.E ^ 2 - M ^ 2 := by unfold FourVec.sq at hP; linarith
  simp only [FourVec.sq, boost]
  rw [norm_add_sq_real, norm_smul, mul_pow, Real.norm_eq_abs, sq_abs, inner_smul_right,
    real_inner_comm P.p q.p, hn]
  field_simp
  ring

theorem boost_self {P : FourVec V} {M : ℝ} (hM : 0 < M) (hE : 0 ≤ P.E) (hP : P.sq = M ^ 2) :
    (boost P M P).p = 0 := by
  have hEM : 0 < P.E + M := by linarith
  have hn : ‖P.p‖ ^ 2 = P.E ^ 2 - M ^ 2 := by unfold FourVec.sq at hP; linarith
  simp only [boost, real_inner_self_eq_norm_sq, hn]
  have : (P.E ^ 2 - M ^ 2) / (M * (P.E + M)) - P.E / M = -1 := by
    field_simp; ring
  rw [this]; simp

theorem boost_E_nonneg {P : FourVec V} {M : ℝ} (hM : 0 < M) (hE : 0 ≤ P.E) (hP : P.sq = M ^ 2)
    {q : FourVec V} (hq : 0 ≤ q.E) (hs : 0 ≤ q.sq) : 0 ≤ (boost P M q).E := by
  have h1 : ‖P.p‖ ≤ P.E := by
    apply abs_le_of_sq_le_sq' _ hE |>.2
    unfold FourVec.sq at hP; nlinarith
  have h2 : ‖q.p‖ ≤ q.E := by
    apply abs_le_of_sq_le_sq' _ hq |>.2
    unfold FourVec.sq at hs; linarith
  have h3 := real_inner_le_norm P.p q.p
  have h4 : ‖P.p‖ * ‖q.p‖ ≤ P.E * q.E := by gcongr
  exact div_nonneg (by linarith) hM.le

/-- The event seen from the rest frame of the total momentum of mass `M > 0`. -/
noncomputable def Event.boost (ev : Event V) (P : FourVec V) (M : ℝ) (hM : 0 < M) (hE : 0 ≤ P.E)
    (hP : P.sq = M ^ 2) : Event V where
  P i := Spec.boost P M (ev.P i)
  m := ev.m
  total := by rw [ev.total, boost_add, boost_add]
  m_nonneg := ev.m_nonneg
  mass_shell i hi := by rw [boost_sq hM hE hP, ev.mass_shell i hi]
  energy_nonneg i hi := boost_E_nonneg hM hE hP (ev.energy_nonneg i hi)
    (by rw [ev.mass_shell i (List.mem_cons_of_mem _ hi)]; positivity)

/-- Boosting an event does not change the values of masses and Mandelstam variables. -/
theorem AtEvent.boost {ρ : Sym → ℝ} {ev : Event V} (h : AtEvent ρ ev) (P : FourVec V) (M : ℝ)
    (hM : 0 < M) (hE : 0 ≤ P.E) (hP : P.sq = M ^ 2) : AtEvent ρ (ev.boost P M hM hE hP) where
  m0 := h.m0
  m1 := h.m1
  m2 := h.m2
  m3 := h.m3
  s1 := by rw [h.s1]; show _ = (Spec.boost P M _ + Spec.boost P M _).sq; rw [← boost_add, boost_sq hM hE hP]
  s2 := by rw [h.s2]; show _ = (Spec.boost P M _ + Spec.boost P M _).sq; rw [← boost_add, boost_sq hM hE hP]
  s3 := by rw [h.s3]; show _ = (Spec.boost P M _ + Spec.boost P M _).sq; rw [← boost_add, boost_sq hM hE hP]

omit [InnerProductSpace ℝ V] in
theorem Event.energy_nonneg0 (ev : Event V) {i : ℤ} (hi : i ∈ ([0, 1, 2, 3] : List ℤ)) :
    0 ≤ (ev.P i).E := by
  rcases List.mem_cons.1 hi with rfl | hi
  · rw [ev.total]
    have h1 := ev.energy_nonneg 1 (by simp)
    have h2 := ev.energy_nonneg 2 (by simp)
    have h3 := ev.energy_nonneg 3 (by simp)
    simp only [FourVec.add_E]; positivity
  · exact ev.energy_nonneg i hi

/-- Any event can be described in the rest frame of any of its massive particles (`i = 0` is the
decaying one), without changing masses and Mandelstam variables. -/
theorem exists_rest_frame {ρ : Sym → ℝ} {ev : Event V} (h : AtEvent ρ ev) {i : ℤ}
    (hi : i ∈ ([0, 1, 2, 3] : List ℤ)) (hm : 0 < ev.m i) :
    ∃ ev' : Event V, AtEvent ρ ev' ∧ ev'.m = ev.m ∧ (ev'.P i).p = 0 :=
  ⟨_, h.boost (ev.P i) (ev.m i) hm (ev.energy_nonneg0 hi) (ev.mass_shell i hi), rfl,
    boost_self hm (ev.energy_nonneg0 hi) (ev.mass_shell i hi)⟩

end Verif.Spec
