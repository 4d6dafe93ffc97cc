import Verif.Model.Angles
import Verif.Model.REval
import Verif.Spec.Kinematics
import Mathlib.Tactic.LinearCombination
import Mathlib.Tactic.FieldSimp
import Mathlib.Geometry.Euclidean.Triangle

/-! Helper lemmas for the angle properties. -/
namespace Verif.Angles
open Verif Verif.Spec RExpr InnerProductGeometry
open scoped RealInnerProductSpace

variable {V : Type*} [NormedAddCommGroup V] [InnerProductSpace ℝ V]

section evalLemmas
variable (ρ : Sym → ℝ)

theorem eval_add {a b : RExpr} {x y : ℝ} (ha : eval ρ a = some x) (hb : eval ρ b = some y) :
    eval ρ (a + b) = some (x + y) := by
  show eval ρ (.add a b) = _
  simp [eval, ha, hb]
theorem eval_sub {a b : RExpr} {x y : ℝ} (ha : eval ρ a = some x) (hb : eval ρ b = some y) :
    eval ρ (a - b) = some (x - y) := by
  show eval ρ (.sub a b) = _
  simp [eval, ha, hb]
theorem eval_mul {a b : RExpr} {x y : ℝ} (ha : eval ρ a = some x) (hb : eval ρ b = some y) :
    eval ρ (a * b) = some (x * y) := by
  show eval ρ (.mul a b) = _
  simp [eval, ha, hb]
theorem eval_pow {a : RExpr} {x : ℝ} {n : ℕ} (ha : eval ρ a = some x) :
    eval ρ (a ^ n) = some (x ^ n) := by
  show eval ρ (.pow a n) = _
  simp [eval, ha]
theorem eval_neg {a : RExpr} {x : ℝ} (ha : eval ρ a = some x) :
    eval ρ (-a) = some (-x) := by
  show eval ρ (.neg a) = _
  simp [eval, ha]
theorem eval_num {n : ℕ} : eval ρ (OfNat.ofNat n : RExpr) = some (n : ℝ) := by
  show eval ρ (.num n) = _
  simp [eval]
theorem eval_kallen {a b c : RExpr} {x y z : ℝ} (ha : eval ρ a = some x) (hb : eval ρ b = some y)
    (hc : eval ρ c = some z) : eval ρ (.kallen a b c) = some (kallenR x y z) := by
  simp [eval, ha, hb, hc]

/-- The value of `acos(N / (√k1 √k2))`. -/
theorem eval_acosRatio {N k1 k2 : RExpr} {n x y : ℝ} (hN : eval ρ N = some n)
    (h1 : eval ρ k1 = some x) (h2 : eval ρ k2 = some y) (hx : 0 < x) (hy : 0 < y)
    (hle : n ^ 2 ≤ x * y) :
    eval ρ (acosRatio N k1 k2) = some (Real.arccos (n / (√x * √y))) := by
  have hs : 0 < √x * √y := mul_pos (Real.sqrt_pos.2 hx) (Real.sqrt_pos.2 hy)
  have hb : |n / (√x * √y)| ≤ 1 := by
    rw [abs_div, abs_of_pos hs, div_le_one hs]
    apply abs_le_of_sq_le_sq _ hs.le
    rw [mul_pow, Real.sq_sqrt hx.le, Real.sq_sqrt hy.le]
    exact hle
  rw [abs_le] at hb
  show eval ρ (.acos (.div N (.mul (.sqrt k1) (.sqrt k2)))) = _
  simp [eval, hN, h1, h2, not_lt.2 hx.le, not_lt.2 hy.le, (Real.sqrt_pos.2 hx).ne',
    (Real.sqrt_pos.2 hy).ne', hb.1, hb.2]

/-- If numerator and Källén functions are scaled inner products, the value is an angle. -/
theorem eval_acosRatio_angle {N k1 k2 : RExpr} {n x y t s : ℝ} {u v : V} (hN : eval ρ N = some n)
    (h1 : eval ρ k1 = some x) (h2 : eval ρ k2 = some y) (ht : 0 < t) (hs : 0 < s)
    (hu : u ≠ 0) (hv : v ≠ 0)
    (hn : n = t * s * ⟪u, v⟫) (hx : x = (t * ‖u‖) ^ 2) (hy : y = (s * ‖v‖) ^ 2) :
    eval ρ (acosRatio N k1 k2) = some (angle u v) := by
  have hu' : 0 < t * ‖u‖ := mul_pos ht (norm_pos_iff.2 hu)
  have hv' : 0 < s * ‖v‖ := mul_pos hs (norm_pos_iff.2 hv)
  rw [eval_acosRatio ρ hN h1 h2 (by rw [hx]; positivity) (by rw [hy]; positivity)]
  · rw [hx, hy, Real.sqrt_sq hu'.le, Real.sqrt_sq hv'.le, hn]
    unfold InnerProductGeometry.angle
    congr 2
    have := norm_pos_iff.2 hu
    have := norm_pos_iff.2 hv
    field_simp
  · rw [hn, hx, hy]
    have h := abs_real_inner_le_norm u v
    have h2 : ⟪u, v⟫ ^ 2 ≤ (‖u‖ * ‖v‖) ^ 2 := by
      rw [← sq_abs]
      exact pow_le_pow_left₀ (abs_nonneg _) h 2
    calc (t * s * ⟪u, v⟫) ^ 2 = (t * s) ^ 2 * ⟪u, v⟫ ^ 2 := by ring
      _ ≤ (t * s) ^ 2 * (‖u‖ * ‖v‖) ^ 2 := by gcongr
      _ = _ := by ring

end evalLemmas

section event
variable {ρ : Sym → ℝ} {ev : Event V}

omit [InnerProductSpace ℝ V] in
theorem eval_m (h : AtEvent ρ ev) {i : ℤ} (hi : i ∈ ([0, 1, 2, 3] : List ℤ)) :
    eval ρ (m i) = some (ev.m i) := by
  simp only [List.mem_cons, List.not_mem_nil, or_false] at hi
  rcases hi with rfl | rfl | rfl | rfl
  · exact congrArg some h.m0
  · exact congrArg some h.m1
  · exact congrArg some h.m2
  · exact congrArg some h.m3

omit [InnerProductSpace ℝ V] in
theorem sq_add_comm (a b : FourVec V) : (a + b).sq = (b + a).sq := by
  simp [FourVec.sq, add_comm]

theorem perm_cases {i j k : ℤ} (h : IsPerm123 i j k) :
    (i = 1 ∧ j = 2 ∧ k = 3) ∨ (i = 1 ∧ j = 3 ∧ k = 2) ∨ (i = 2 ∧ j = 1 ∧ k = 3) ∨
    (i = 2 ∧ j = 3 ∧ k = 1) ∨ (i = 3 ∧ j = 1 ∧ k = 2) ∨ (i = 3 ∧ j = 2 ∧ k = 1) := by
  have hi : i ∈ ([1, 2, 3] : List ℤ) := h.subset (by simp)
  have hj : j ∈ ([1, 2, 3] : List ℤ) := h.subset (by simp)
  have hk : k ∈ ([1, 2, 3] : List ℤ) := h.subset (by simp)
  have hn : [i, j, k].Nodup := h.nodup_iff.2 (by decide)
  simp only [List.mem_cons, List.not_mem_nil, or_false] at hi hj hk
  clear h
  rcases hi with rfl | rfl | rfl <;> rcases hj with rfl | rfl | rfl <;>
    rcases hk with rfl | rfl | rfl <;> first | (exact absurd hn (by decide)) | decide

omit [InnerProductSpace ℝ V] in
theorem eval_σ (h : AtEvent ρ ev) {i j k : ℤ} (hp : IsPerm123 i j k) :
    eval ρ (σ k) = some (ev.P i + ev.P j).sq := by
  rcases perm_cases hp with ⟨rfl, rfl, rfl⟩ | ⟨rfl, rfl, rfl⟩ | ⟨rfl, rfl, rfl⟩ |
    ⟨rfl, rfl, rfl⟩ | ⟨rfl, rfl, rfl⟩ | ⟨rfl, rfl, rfl⟩
  · exact congrArg some h.s3
  · rw [sq_add_comm]; exact congrArg some h.s2
  · rw [sq_add_comm]; exact congrArg some h.s3
  · exact congrArg some h.s1
  · exact congrArg some h.s2
  · rw [sq_add_comm]; exact congrArg some h.s1


theorem perm_mem {i j k : ℤ} (hp : IsPerm123 i j k) :
    i ∈ ([1, 2, 3] : List ℤ) ∧ j ∈ ([1, 2, 3] : List ℤ) ∧ k ∈ ([1, 2, 3] : List ℤ) :=
  ⟨hp.subset (by simp), hp.subset (by simp), hp.subset (by simp)⟩

theorem perm_rot {i j k : ℤ} (hp : IsPerm123 i j k) : IsPerm123 j k i :=
  List.Perm.trans (l₂ := [i, j, k]) (by
    simpa using (List.perm_append_comm (l₁ := [j, k]) (l₂ := [i]))) hp

theorem perm_swap {i j k : ℤ} (hp : IsPerm123 i j k) : IsPerm123 j i k :=
  List.Perm.trans (List.Perm.swap i j [k]) hp

theorem mem0 {i : ℤ} (h : i ∈ ([1, 2, 3] : List ℤ)) : i ∈ ([0, 1, 2, 3] : List ℤ) :=
  List.mem_cons_of_mem _ h

omit [InnerProductSpace ℝ V] in
theorem total_perm (ev : Event V) {i j k : ℤ} (hp : IsPerm123 i j k) :
    (ev.P 0).E = (ev.P i).E + (ev.P j).E + (ev.P k).E ∧
    (ev.P 0).p = (ev.P i).p + (ev.P j).p + (ev.P k).p := by
  rw [ev.total]
  rcases perm_cases hp with ⟨rfl, rfl, rfl⟩ | ⟨rfl, rfl, rfl⟩ | ⟨rfl, rfl, rfl⟩ |
    ⟨rfl, rfl, rfl⟩ | ⟨rfl, rfl, rfl⟩ | ⟨rfl, rfl, rfl⟩ <;>
  exact ⟨by show _ + _ + _ = _; ring, by show _ + _ + _ = _; abel⟩

omit [InnerProductSpace ℝ V] in
theorem shell (ev : Event V) {i : ℤ} (hi : i ∈ ([1, 2, 3] : List ℤ)) :
    ev.m i ^ 2 = (ev.P i).E ^ 2 - ‖(ev.P i).p‖ ^ 2 := by
  rw [← ev.mass_shell i (mem0 hi)]; rfl

theorem sq_add (a b : FourVec V) :
    (a + b).sq = (a.E + b.E) ^ 2 - (‖a.p‖ ^ 2 + 2 * ⟪a.p, b.p⟫ + ‖b.p‖ ^ 2) := by
  unfold FourVec.sq
  rw [FourVec.add_E, FourVec.add_p, norm_add_sq_real]

omit [InnerProductSpace ℝ V] in
theorem energy_pos (ev : Event V) {i : ℤ} (hi : i ∈ ([1, 2, 3] : List ℤ)) (h : (ev.P i).p ≠ 0) :
    0 < (ev.P i).E := by
  refine lt_of_le_of_ne (ev.energy_nonneg i hi) ?_
  intro h0
  have h1 := shell ev hi
  rw [← h0] at h1
  have h2 : 0 < ‖(ev.P i).p‖ ^ 2 := pow_pos (norm_pos_iff.2 h) 2
  nlinarith [sq_nonneg (ev.m i)]

end event
end Verif.Angles
