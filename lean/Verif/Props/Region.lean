import Verif.Proofs.Region
import Verif.Props.Angles

/-! Property C120: angles on the Dalitz plot with its boundary. -/
namespace Verif.Angles
open Verif Verif.Spec RExpr

/-- C120: on the Dalitz plot, including its boundary, all angles are real numbers, at most π. They are 0 or π (up to the sign)
exactly on the boundary. -/
theorem C120_defined {ρ : Sym → ℝ} (h : DalitzRegion ρ) :
    (∀ i ∈ ([1, 2, 3] : List ℤ), ∀ j ∈ ([1, 2, 3] : List ℤ), i ≠ j →
      ∃ s e v, formulateScatteringAngle i j = .ok (s, e) ∧ e.eval ρ = some v ∧
        0 ≤ v ∧ v ≤ Real.pi ∧ (v = 0 ∨ v = Real.pi ↔ kibbleFunction ρ = 0)) ∧
    (∀ i ∈ ([1, 2, 3] : List ℤ), ∀ j ∈ ([1, 2, 3] : List ℤ), i ≠ j →
      ∃ s e v, formulateThetaHatAngle i j = .ok (s, e) ∧ e.eval ρ = some v ∧
        |v| ≤ Real.pi ∧ (|v| = 0 ∨ |v| = Real.pi ↔ kibbleFunction ρ = 0)) ∧
    (∀ i ∈ ([0, 1, 2, 3] : List ℤ), ∀ j ∈ ([1, 2, 3] : List ℤ), ∀ k ∈ ([1, 2, 3] : List ℤ), j ≠ k →
      ∃ s e v, formulateZetaAngle i j k = .ok (s, e) ∧ e.eval ρ = some v ∧
        |v| ≤ Real.pi ∧ (|v| = 0 ∨ |v| = Real.pi ↔ kibbleFunction ρ = 0)) := by
  have hpos : ∀ {e : RExpr}, Within ρ e →
      (∃ v, e.eval ρ = some v ∧ |v| ≤ Real.pi ∧ (|v| = 0 ∨ |v| = Real.pi ↔ kibbleFunction ρ = 0)) ∧
      (∃ v, (-e).eval ρ = some v ∧ |v| ≤ Real.pi ∧ (|v| = 0 ∨ |v| = Real.pi ↔ kibbleFunction ρ = 0)) := by
    rintro e ⟨v, h1, h2, h3, h4⟩
    refine ⟨⟨v, h1, ?_⟩, ⟨-v, eval_neg ρ h1, ?_⟩⟩
    · rw [abs_of_nonneg h2]; exact ⟨h3, h4⟩
    · rw [abs_neg, abs_of_nonneg h2]; exact ⟨h3, h4⟩
  have hhat : ∀ q, ∀ i ∈ ([1, 2, 3] : List ℤ), ∀ j ∈ ([1, 2, 3] : List ℤ), i ≠ j →
      ∃ e v, formulateThetaHatAngleF (q + 2) i j = .ok (hatSym i j, e) ∧ e.eval ρ = some v ∧
        |v| ≤ Real.pi ∧ (|v| = 0 ∨ |v| = Real.pi ↔ kibbleFunction ρ = 0) := by
    intro q i hi j hj hij
    rcases pair_cases hi hj with rfl | ⟨k, hk⟩ | ⟨k, hk⟩
    · exact absurd rfl hij
    · obtain ⟨v, hv⟩ := (hpos (thetaHat_within h (cyclic_perm hk))).1
      exact ⟨_, v, (hat_forms q hk).1, hv⟩
    · obtain ⟨v, hv⟩ := (hpos (thetaHat_within h (cyclic_perm hk))).2
      exact ⟨_, v, (hat_forms q hk).2, hv⟩
  refine ⟨?_, ?_, ?_⟩
  · intro i hi j hj hij
    have : ∃ k, IsPerm123 i j k := by
      rcases pair_cases hi hj with rfl | ⟨k, hk⟩ | ⟨k, hk⟩
      · exact absurd rfl hij
      · exact ⟨k, cyclic_perm hk⟩
      · exact ⟨k, perm_swap (cyclic_perm hk)⟩
    obtain ⟨k, hp⟩ := this
    obtain ⟨v, hv⟩ := scattering_within h hp
    exact ⟨_, _, v, scat_forms hp, hv⟩
  · intro i hi j hj hij
    obtain ⟨e, v, he⟩ := hhat 998 i hi j hj hij
    exact ⟨_, e, v, he⟩
  · intro i hi j hj k hk hjk
    rcases List.mem_cons.1 hi with rfl | hi
    · obtain ⟨e, v, he, hv⟩ := hhat 997 j hj k hk hjk
      refine ⟨zetaSym 0 j k, e, v, ?_, hv⟩
      show formulateZetaAngleF (999 + 1) 0 j k = _
      rw [zeta_rot0, he]; rfl
    · obtain ⟨a, b, hc, hj', hk'⟩ := zeta_triples hi hj hk
      obtain ⟨f1, f2, f3, f4, f5, f6⟩ := zeta_forms 998 hc
      have hp := cyclic_perm hc
      have hp' : IsPerm123 i b a := perm_swap (perm_rot (perm_rot hp))
      obtain ⟨⟨v1, z1⟩, ⟨w1, y1⟩⟩ := hpos (zetaA_within h hp)
      obtain ⟨⟨v2, z2⟩, ⟨w2, y2⟩⟩ := hpos (zetaA_within h hp')
      obtain ⟨⟨v3, z3⟩, ⟨w3, y3⟩⟩ := hpos (zetaB_within h hp)
      rcases hj' with rfl | rfl | rfl <;> rcases hk' with rfl | rfl | rfl
      · exact absurd rfl hjk
      · exact ⟨_, _, _, f5, y2⟩
      · exact ⟨_, _, _, f1, z1⟩
      · exact ⟨_, _, _, f2, z2⟩
      · exact absurd rfl hjk
      · exact ⟨_, _, _, f3, z3⟩
      · exact ⟨_, _, _, f4, y1⟩
      · exact ⟨_, _, _, f6, y3⟩
      · exact absurd rfl hjk

/-- The line `σ3 = 48` in the Dalitz plot of a particle of mass 8 that decays to three particles of mass 1. -/
noncomputable def closedLine (t : ℝ) (s : Sym) : ℝ :=
  if s = ⟨"m0", .nonneg⟩ then 8
  else if s = ⟨"sigma3", .nonneg⟩ then 48
  else if s = ⟨"sigma2", .nonneg⟩ then t
  else if s = ⟨"sigma1", .nonneg⟩ then 19 - t
  else 1

/-- Between `σ2 = 27/4` and `σ2 = 49/4` the line is in the Dalitz plot, and both ends are on its boundary. -/
theorem closedLine_region {t : ℝ} (h1 : 27 / 4 ≤ t) (h2 : t ≤ 49 / 4) :
    DalitzRegion (closedLine t) ∧ (kibbleFunction (closedLine t) = 0 ↔ t = 27 / 4 ∨ t = 49 / 4) := by
  have t0 : toString (0 : ℤ) = "0" := rfl
  have t1 : toString (1 : ℤ) = "1" := rfl
  have t2 : toString (2 : ℤ) = "2" := rfl
  have t3 : toString (3 : ℤ) = "3" := rfl
  have hK : kibbleFunction (closedLine t) = 49152 * ((t - 27 / 4) * (t - 49 / 4)) := by
    simp [closedLine, kibbleFunction, lam]
    ring
  refine ⟨⟨?_, ?_, ?_, ?_, ?_, ?_⟩, ?_⟩
  · intro n hn
    simp only [List.mem_cons, List.not_mem_nil, or_false] at hn
    rcases hn with rfl | rfl | rfl | rfl <;> simp [closedLine, t0, t1, t2, t3]
  · simp [closedLine, SumRule]; norm_num
  · simp [closedLine, AllowedMass, BetweenThresholds, t1, t2, t3]
    constructor <;> linarith
  · simp [closedLine, AllowedMass, BetweenThresholds, t1, t2, t3]
    constructor <;> linarith
  · simp [closedLine, AllowedMass, BetweenThresholds, t1, t2, t3]; norm_num
  · rw [hK]; nlinarith
  · rw [hK]
    simp [sub_eq_zero]

/-- The line enters and leaves the Dalitz plot: at both ends `C120_defined` is about a point on the boundary, and between them about
points inside. -/
example : DalitzRegion (closedLine (27 / 4)) ∧ kibbleFunction (closedLine (27 / 4)) = 0 ∧ DalitzRegion (closedLine 9) ∧
    kibbleFunction (closedLine 9) ≠ 0 := by
  obtain ⟨h1, h2⟩ := closedLine_region (t := 27 / 4) le_rfl (by norm_num)
  obtain ⟨h3, h4⟩ := closedLine_region (t := 9) (by norm_num) (by norm_num)
  exact ⟨h1, h2.2 (.inl rfl), h3, fun h => by rcases h4.1 h with h | h <;> norm_num at h⟩

end Verif.Angles
