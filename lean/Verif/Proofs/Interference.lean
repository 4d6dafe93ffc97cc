import Mathlib.Analysis.InnerProductSpace.PiL2
import Mathlib.Data.Finset.Powerset
import Mathlib.Algebra.Order.Chebyshev

/-! Sums of squared moduli of coherent sums: helper lemmas for C108. -/
namespace Verif.Interference

variable {κ L : Type*} [DecidableEq κ]

/-- Incoherent sum over `H` of the squared modulus of the coherent sum over the parts in `S`. -/
noncomputable def total (H : Finset L) (V : κ → L → ℂ) (S : Finset κ) : ℝ := ∑ l ∈ H, ‖∑ x ∈ S, V x l‖ ^ 2

theorem norm_add_sq' (x y : ℂ) : ‖x + y‖ ^ 2 = ‖x‖ ^ 2 + ‖y‖ ^ 2 + 2 * (x * (starRingEnd ℂ) y).re := by
  simp only [← Complex.normSq_eq_norm_sq]
  exact Complex.normSq_add x y

theorem pairs_point (v : κ → ℂ) (S : Finset κ) :
    ‖∑ x ∈ S, v x‖ ^ 2 = ∑ x ∈ S, ‖v x‖ ^ 2 +
      ∑ P ∈ S.powersetCard 2, (‖∑ x ∈ P, v x‖ ^ 2 - ∑ x ∈ P, ‖v x‖ ^ 2) := by
  induction S using Finset.induction_on with
  | empty =>
    rw [Finset.powersetCard_eq_empty.2 (by simp)]
    simp
  | insert a S ha ih =>
    have hdisj : Disjoint (S.powersetCard 2) ((S.powersetCard 1).image (insert a)) := by
      rw [Finset.disjoint_left]
      intro P hP hP'
      obtain ⟨Q, -, rfl⟩ := Finset.mem_image.1 hP'
      exact ha ((Finset.mem_powersetCard.1 hP).1 (Finset.mem_insert_self _ _))
    have hone : ∑ P ∈ (S.powersetCard 1).image (insert a), (‖∑ x ∈ P, v x‖ ^ 2 - ∑ x ∈ P, ‖v x‖ ^ 2) =
        ∑ y ∈ S, 2 * (v a * (starRingEnd ℂ) (v y)).re := by
      rw [Finset.powersetCard_one, Finset.sum_image, Finset.sum_map]
      · apply Finset.sum_congr rfl
        intro y hy
        have hne : a ∉ ({y} : Finset κ) := by
          rw [Finset.mem_singleton]; rintro rfl; exact ha hy
        show ‖∑ x ∈ insert a {y}, v x‖ ^ 2 - ∑ x ∈ insert a {y}, ‖v x‖ ^ 2 = _
        rw [Finset.sum_insert hne, Finset.sum_insert hne, Finset.sum_singleton, Finset.sum_singleton, norm_add_sq']
        ring
      · intro P hP Q hQ h
        simp only [Finset.coe_map, Set.mem_image, Finset.mem_coe] at hP hQ
        obtain ⟨y, hy, rfl⟩ := hP
        obtain ⟨z, hz, rfl⟩ := hQ
        simp only [Function.Embedding.coeFn_mk] at h ⊢
        have : y ∈ insert a ({z} : Finset κ) := by rw [← h]; simp
        rw [Finset.mem_insert, Finset.mem_singleton] at this
        rcases this with rfl | rfl
        · exact absurd hy ha
        · rfl
    rw [Finset.powersetCard_succ_insert ha, Finset.sum_union hdisj, hone, Finset.sum_insert ha, Finset.sum_insert ha,
      norm_add_sq', ih, map_sum, Finset.mul_sum, Complex.re_sum, Finset.mul_sum]
    ring

theorem total_pairs (H : Finset L) (V : κ → L → ℂ) (S : Finset κ) :
    total H V S = ∑ x ∈ S, total H V {x} + ∑ P ∈ S.powersetCard 2, (total H V P - ∑ x ∈ P, total H V {x}) := by
  unfold total
  simp only [Finset.sum_singleton]
  rw [Finset.sum_congr rfl fun l _ => pairs_point (fun x => V x l) S, Finset.sum_add_distrib]
  congr 1
  · exact Finset.sum_comm
  · rw [Finset.sum_comm]
    apply Finset.sum_congr rfl
    intro P _
    rw [Finset.sum_sub_distrib]
    congr 1
    exact Finset.sum_comm

theorem total_nonneg (H : Finset L) (V : κ → L → ℂ) (S : Finset κ) : 0 ≤ total H V S :=
  Finset.sum_nonneg fun _ _ => sq_nonneg _

/-- The amplitudes of a part as a vector. -/
noncomputable def vec (H : Finset L) (V : κ → L → ℂ) (S : Finset κ) : EuclideanSpace ℂ H :=
  WithLp.toLp 2 fun l : H => ∑ x ∈ S, V x l

theorem norm_vec (H : Finset L) (V : κ → L → ℂ) (S : Finset κ) : ‖vec H V S‖ = √(total H V S) := by
  rw [EuclideanSpace.norm_eq]
  congr 1
  unfold total vec
  rw [← Finset.sum_coe_sort H]

theorem vec_sum (H : Finset L) (V : κ → L → ℂ) (S : Finset κ) : vec H V S = ∑ x ∈ S, vec H V {x} := by
  ext l
  simp [vec]

theorem vec_union (H : Finset L) (V : κ → L → ℂ) {S T : Finset κ} (h : Disjoint S T) :
    vec H V (S ∪ T) = vec H V S + vec H V T := by
  rw [vec_sum, vec_sum H V S, vec_sum H V T, Finset.sum_union h]

theorem sqrt_total_le (H : Finset L) (V : κ → L → ℂ) (S : Finset κ) :
    √(total H V S) ≤ ∑ x ∈ S, √(total H V {x}) := by
  simp only [← norm_vec]
  rw [vec_sum]
  exact norm_sum_le _ _

theorem total_le (H : Finset L) (V : κ → L → ℂ) (S : Finset κ) :
    total H V S ≤ S.card * ∑ x ∈ S, total H V {x} := by
  have h1 := sqrt_total_le H V S
  have h2 : total H V S = √(total H V S) ^ 2 := (Real.sq_sqrt (total_nonneg _ _ _)).symm
  rw [h2]
  calc √(total H V S) ^ 2 ≤ (∑ x ∈ S, √(total H V {x})) ^ 2 := by gcongr
    _ ≤ S.card * ∑ x ∈ S, √(total H V {x}) ^ 2 := sq_sum_le_card_mul_sum_sq
    _ = _ := by
      congr 1
      exact Finset.sum_congr rfl fun x _ => Real.sq_sqrt (total_nonneg _ _ _)

theorem abs_sub_le (H : Finset L) (V : κ → L → ℂ) {S T : Finset κ} (h : Disjoint S T) :
    |√(total H V S) - √(total H V T)| ≤ √(total H V (S ∪ T)) ∧
      √(total H V (S ∪ T)) ≤ √(total H V S) + √(total H V T) := by
  simp only [← norm_vec]
  rw [vec_union H V h]
  refine ⟨?_, norm_add_le _ _⟩
  have := abs_norm_sub_norm_le (vec H V S) (-vec H V T)
  rwa [norm_neg, sub_neg_eq_add] at this

end Verif.Interference
