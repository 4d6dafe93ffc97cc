import Verif.Spec.Kinematics
import Verif.Spec.Closed
import Mathlib.Analysis.Complex.Basic
import Mathlib.Tactic.NormNum.RealSqrt
import Mathlib.Tactic.Linarith
import Mathlib.Tactic.FieldSimp

/-! Every point of the Dalitz plot, also on its boundary, is realised by a decay event in the rest frame. -/
namespace Verif.Angles
open Verif Verif.Spec

theorem norm_sq_mk (x y : ℝ) : ‖(⟨x, y⟩ : ℂ)‖ ^ 2 = x ^ 2 + y ^ 2 := by
  rw [← Complex.normSq_eq_norm_sq, Complex.normSq_mk]; ring

theorem event_of_region {ρ : Sym → ℝ} (h : DalitzRegion ρ) :
    ∃ ev : Event ℂ, AtEvent ρ ev ∧ 0 < ev.m 0 ∧ (ev.P 0).p = 0 := by
  have p0 : 0 < ρ ⟨"m0", .nonneg⟩ := h.mass 0 (by simp)
  have p1 : 0 < ρ ⟨"m1", .nonneg⟩ := h.mass 1 (by simp)
  have p2 : 0 < ρ ⟨"m2", .nonneg⟩ := h.mass 2 (by simp)
  have p3 : 0 < ρ ⟨"m3", .nonneg⟩ := h.mass 3 (by simp)
  have t1 : BetweenThresholds (ρ ⟨"m0", .nonneg⟩) (ρ ⟨"m2", .nonneg⟩) (ρ ⟨"m3", .nonneg⟩)
    (ρ ⟨"m1", .nonneg⟩) (ρ ⟨"sigma1", .nonneg⟩) := h.first
  have t2 : BetweenThresholds (ρ ⟨"m0", .nonneg⟩) (ρ ⟨"m3", .nonneg⟩) (ρ ⟨"m1", .nonneg⟩)
    (ρ ⟨"m2", .nonneg⟩) (ρ ⟨"sigma2", .nonneg⟩) := h.second
  have t3 : BetweenThresholds (ρ ⟨"m0", .nonneg⟩) (ρ ⟨"m1", .nonneg⟩) (ρ ⟨"m2", .nonneg⟩)
    (ρ ⟨"m3", .nonneg⟩) (ρ ⟨"sigma3", .nonneg⟩) := h.third
  have hs := h.sum
  have kib := h.kibble
  clear h
  unfold kibbleFunction at kib
  unfold SumRule at hs
  unfold BetweenThresholds at t1 t2 t3
  generalize hM : ρ ⟨"m0", .nonneg⟩ = M at *
  generalize hm1 : ρ ⟨"m1", .nonneg⟩ = m1 at *
  generalize hm2 : ρ ⟨"m2", .nonneg⟩ = m2 at *
  generalize hm3 : ρ ⟨"m3", .nonneg⟩ = m3 at *
  generalize hs1 : ρ ⟨"sigma1", .nonneg⟩ = s1 at *
  generalize hs2 : ρ ⟨"sigma2", .nonneg⟩ = s2 at *
  generalize hs3 : ρ ⟨"sigma3", .nonneg⟩ = s3 at *
  have hpos : ∀ {m s : ℝ}, 0 < m → m < M → s < (M - m) ^ 2 → 0 < lam (M ^ 2) (m ^ 2) s := by
    intro m s hm hmM hlt
    have : lam (M ^ 2) (m ^ 2) s = ((M - m) ^ 2 - s) * ((M + m) ^ 2 - s) := by unfold lam; ring
    rw [this]
    apply mul_pos (by linarith)
    nlinarith
  have L1 := hpos p1 t1.2.1 t1.2.2
  have L2 := hpos p2 t2.2.1 t2.2.2
  have L3 := hpos p3 t3.2.1 t3.2.2
  have hE : ∀ {m s : ℝ}, 0 < m → s < (M - m) ^ 2 → 0 ≤ (M ^ 2 + m ^ 2 - s) / (2 * M) := by
    intro m s hm hlt
    apply div_nonneg _ (by positivity)
    nlinarith [mul_pos hm p0]
  have hsh : ∀ m s : ℝ, ((M ^ 2 + m ^ 2 - s) / (2 * M)) ^ 2 - lam (M ^ 2) (m ^ 2) s / (4 * M ^ 2) = m ^ 2 := by
    intro m s; unfold lam; field_simp; ring
  have hsig : ∀ m s : ℝ, (M - (M ^ 2 + m ^ 2 - s) / (2 * M)) ^ 2 - lam (M ^ 2) (m ^ 2) s / (4 * M ^ 2) = s := by
    intro m s; unfold lam; field_simp; ring
  have hsum : (M ^ 2 + m1 ^ 2 - s1) / (2 * M) + (M ^ 2 + m2 ^ 2 - s2) / (2 * M) +
      (M ^ 2 + m3 ^ 2 - s3) / (2 * M) = M := by
    field_simp; linarith
  have sh1 := hsh m1 s1; have sh2 := hsh m2 s2; have sh3 := hsh m3 s3
  have sg1 := hsig m1 s1; have sg2 := hsig m2 s2; have sg3 := hsig m3 s3
  have k1 := hE p1 t1.2.2; have k2 := hE p2 t2.2.2; have k3 := hE p3 t3.2.2
  clear hsh hsig hE hpos
  generalize lam (M ^ 2) (m1 ^ 2) s1 = l1 at *
  generalize lam (M ^ 2) (m2 ^ 2) s2 = l2 at *
  generalize lam (M ^ 2) (m3 ^ 2) s3 = l3 at *
  generalize (M ^ 2 + m1 ^ 2 - s1) / (2 * M) = e1 at *
  generalize (M ^ 2 + m2 ^ 2 - s2) / (2 * M) = e2 at *
  generalize (M ^ 2 + m3 ^ 2 - s3) / (2 * M) = e3 at *
  have kibQ : (l3 / (4 * M ^ 2) - l1 / (4 * M ^ 2) - l2 / (4 * M ^ 2)) ^ 2 ≤
      4 * (l1 / (4 * M ^ 2)) * (l2 / (4 * M ^ 2)) := by
    have : (l3 - l1 - l2) ^ 2 ≤ 4 * l1 * l2 := by unfold lam at kib; linarith
    have e1 : (l3 / (4 * M ^ 2) - l1 / (4 * M ^ 2) - l2 / (4 * M ^ 2)) ^ 2 =
      (l3 - l1 - l2) ^ 2 / (4 * M ^ 2) ^ 2 := by ring
    have e2 : 4 * (l1 / (4 * M ^ 2)) * (l2 / (4 * M ^ 2)) = 4 * l1 * l2 / (4 * M ^ 2) ^ 2 := by ring
    rw [e1, e2]
    exact div_le_div_of_nonneg_right this (by positivity)
  have Q1 : 0 < l1 / (4 * M ^ 2) := by positivity
  generalize l1 / (4 * M ^ 2) = q1 at *
  generalize l2 / (4 * M ^ 2) = q2 at *
  generalize l3 / (4 * M ^ 2) = q3 at *
  -- the momenta lie in a plane, the first along the real axis
  obtain ⟨a, ha⟩ : ∃ a, a = √q1 := ⟨_, rfl⟩
  have ha0 : 0 < a := by rw [ha]; exact Real.sqrt_pos.2 Q1
  have ha2 : a ^ 2 = q1 := by rw [ha, Real.sq_sqrt Q1.le]
  obtain ⟨c, hc⟩ : ∃ c, c = (q3 - q1 - q2) / (2 * a) := ⟨_, rfl⟩
  have hc2 : c ^ 2 ≤ q2 := by
    have h4 : (2 * a) ^ 2 = 4 * q1 := by rw [mul_pow, ha2]; norm_num
    rw [hc, div_pow, div_le_iff₀ (by positivity), h4]
    linarith
  have hca : 2 * a * c = q3 - q1 - q2 := by rw [hc]; field_simp
  obtain ⟨y, hy⟩ : ∃ y, y = √(q2 - c ^ 2) := ⟨_, rfl⟩
  have hy2 : y ^ 2 = q2 - c ^ 2 := by rw [hy, Real.sq_sqrt (by linarith)]
  have n1 : ‖(⟨a, 0⟩ : ℂ)‖ ^ 2 = q1 := by rw [norm_sq_mk, ← ha2]; ring
  have n2 : ‖(⟨c, y⟩ : ℂ)‖ ^ 2 = q2 := by rw [norm_sq_mk, hy2]; ring
  have n3 : ‖(⟨-a - c, -y⟩ : ℂ)‖ ^ 2 = q3 := by
    have h4 : (-a - c) ^ 2 + (-y) ^ 2 = a ^ 2 + 2 * a * c + c ^ 2 + y ^ 2 := by ring
    rw [norm_sq_mk, h4, ha2, hca, hy2]; ring
  have v23 : (⟨c, y⟩ : ℂ) + ⟨-a - c, -y⟩ = -⟨a, 0⟩ := by
    apply Complex.ext <;> simp
  have v31 : (⟨-a - c, -y⟩ : ℂ) + ⟨a, 0⟩ = -⟨c, y⟩ := by
    apply Complex.ext <;> simp
    ring
  have v12 : (⟨a, 0⟩ : ℂ) + ⟨c, y⟩ = -⟨-a - c, -y⟩ := by
    apply Complex.ext <;> simp
    ring
  have v0 : (⟨a, 0⟩ : ℂ) + ⟨c, y⟩ + ⟨-a - c, -y⟩ = 0 := by
    rw [v12]; simp
  let P : ℤ → FourVec ℂ := fun i => if i = 1 then ⟨e1, ⟨a, 0⟩⟩ else if i = 2 then ⟨e2, ⟨c, y⟩⟩ else
    if i = 3 then ⟨e3, ⟨-a - c, -y⟩⟩ else ⟨M, 0⟩
  let μ : ℤ → ℝ := fun i => if i = 1 then m1 else if i = 2 then m2 else if i = 3 then m3 else M
  refine ⟨⟨P, μ, ?_, ?_, ?_, ?_⟩, ⟨?_, ?_, ?_, ?_, ?_, ?_, ?_⟩, ?_, ?_⟩
  · apply FourVec.ext
    · simp [P, hsum]
    · simp [P, v0]
  · intro i; simp only [μ]; split_ifs <;> linarith
  · intro i hi
    simp only [List.mem_cons, List.not_mem_nil, or_false] at hi
    rcases hi with rfl | rfl | rfl | rfl
    · simp [P, μ, FourVec.sq]
    · simp [P, μ, FourVec.sq, n1, sh1]
    · simp [P, μ, FourVec.sq, n2, sh2]
    · simp [P, μ, FourVec.sq, n3, sh3]
  · intro i hi
    simp only [List.mem_cons, List.not_mem_nil, or_false] at hi
    rcases hi with rfl | rfl | rfl
    · simpa [P] using k1
    · simpa [P] using k2
    · simpa [P] using k3
  · simp [μ, hM]
  · simp [μ, hm1]
  · simp [μ, hm2]
  · simp [μ, hm3]
  · simp only [P, FourVec.sq, FourVec.add_E, FourVec.add_p]
    norm_num
    rw [hs1, v23, norm_neg, n1, ← sg1, show e2 + e3 = M - e1 by linarith]
  · simp only [P, FourVec.sq, FourVec.add_E, FourVec.add_p]
    norm_num
    rw [hs2, v31, norm_neg, n2, ← sg2, show e3 + e1 = M - e2 by linarith]
  · simp only [P, FourVec.sq, FourVec.add_E, FourVec.add_p]
    norm_num
    rw [hs3, v12, norm_neg, n3, ← sg3, show e1 + e2 = M - e3 by linarith]
  · simpa [μ] using p0
  · simp [P]

end Verif.Angles
