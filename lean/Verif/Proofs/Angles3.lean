import Verif.Proofs.Dalitz
import Verif.Proofs.Boost
import Verif.Proofs.Names

/-! Case analysis of the angle functions over the ID arguments. -/
namespace Verif.Angles
open Verif Verif.Spec RExpr

/-- Expressions returned by the three angle functions, in terms of distinct IDs. -/
def scatE (i j k : ℤ) : RExpr := acosRatio
  (2 * σ k * (σ j - m k ^ 2 - m i ^ 2) - (σ k + m i ^ 2 - m j ^ 2) * (m 0 ^ 2 - σ k - m k ^ 2))
  (kallen (m 0 ^ 2) (m k ^ 2) (σ k)) (kallen (σ k) (m i ^ 2) (m j ^ 2))
def hatE (i j k : ℤ) : RExpr := acosRatio
  ((m 0 ^ 2 + m i ^ 2 - σ i) * (m 0 ^ 2 + m j ^ 2 - σ j) - 2 * m 0 ^ 2 * (σ k - m i ^ 2 - m j ^ 2))
  (kallen (m 0 ^ 2) (m j ^ 2) (σ j)) (kallen (m 0 ^ 2) (σ i) (m i ^ 2))
def zetaAE (i a b : ℤ) : RExpr := acosRatio
  (2 * m i ^ 2 * (σ a - m 0 ^ 2 - m a ^ 2) + (m 0 ^ 2 + m i ^ 2 - σ i) * (σ b - m i ^ 2 - m a ^ 2))
  (kallen (m 0 ^ 2) (m i ^ 2) (σ i)) (kallen (σ b) (m i ^ 2) (m a ^ 2))
def zetaBE (i a b : ℤ) : RExpr := acosRatio
  (2 * m i ^ 2 * (m a ^ 2 + m b ^ 2 - σ i) + (σ a - m i ^ 2 - m b ^ 2) * (σ b - m i ^ 2 - m a ^ 2))
  (kallen (σ a) (m b ^ 2) (m i ^ 2)) (kallen (σ b) (m i ^ 2) (m a ^ 2))

def scatSym (i j : ℤ) : Sym := ⟨"theta_" ++ toString i ++ toString j, .real⟩
def hatSym (i j : ℤ) : Sym := ⟨"\\hat\\theta_" ++ toString i ++ "(" ++ toString j ++ ")", .real⟩
def zetaSym (i j k : ℤ) : Sym :=
  ⟨"\\zeta^" ++ toString i ++ "_{" ++ toString j ++ "(" ++ toString k ++ ")}", .real⟩

theorem cyclic_cases {i j k : ℤ} (h : Cyclic i j k) :
    (i = 1 ∧ j = 2 ∧ k = 3) ∨ (i = 2 ∧ j = 3 ∧ k = 1) ∨ (i = 3 ∧ j = 1 ∧ k = 2) := by
  simpa [Cyclic] using h

theorem cyclic_perm {i j k : ℤ} (h : Cyclic i j k) : IsPerm123 i j k := by
  rcases cyclic_cases h with ⟨rfl, rfl, rfl⟩ | ⟨rfl, rfl, rfl⟩ | ⟨rfl, rfl, rfl⟩ <;>
    unfold IsPerm123 <;> decide

theorem scat_forms {i j k : ℤ} (h : IsPerm123 i j k) :
    formulateScatteringAngle i j = .ok (scatSym i j, scatE i j k) := by
  rcases perm_cases h with ⟨rfl, rfl, rfl⟩ | ⟨rfl, rfl, rfl⟩ | ⟨rfl, rfl, rfl⟩ |
    ⟨rfl, rfl, rfl⟩ | ⟨rfl, rfl, rfl⟩ | ⟨rfl, rfl, rfl⟩ <;> rfl

theorem idsOk_iff {a b : ℤ} : idsOk a b = true ↔ a ∈ ([1, 2, 3] : List ℤ) ∧ b ∈ ([1, 2, 3] : List ℤ) := by
  simp [idsOk]

theorem guard_false (a b : ℤ) : [PyObj.tuple [2, 1], .tuple [3, 2], .tuple [1, 3]].any
      (PyObj.eq (.set [a, b])) = false := rfl

theorem hat_forms (n : ℕ) {i j k : ℤ} (h : Cyclic i j k) :
    formulateThetaHatAngleF (n + 2) i j = .ok (hatSym i j, hatE i j k) ∧
    formulateThetaHatAngleF (n + 2) j i = .ok (hatSym j i, -hatE i j k) := by
  rcases cyclic_cases h with ⟨rfl, rfl, rfl⟩ | ⟨rfl, rfl, rfl⟩ | ⟨rfl, rfl, rfl⟩ <;>
    exact ⟨rfl, rfl⟩

theorem hat_self (n : ℕ) {i : ℤ} (h : i ∈ ([1, 2, 3] : List ℤ)) :
    formulateThetaHatAngleF (n + 1) i i = .ok (hatSym i i, 0) := by
  simp only [List.mem_cons, List.not_mem_nil, or_false] at h
  rcases h with rfl | rfl | rfl <;> rfl

theorem hat_error (n : ℕ) {i j : ℤ} (h : ¬ (i ∈ ([1, 2, 3] : List ℤ) ∧ j ∈ ([1, 2, 3] : List ℤ))) :
    formulateThetaHatAngleF (n + 1) i j = .error .valueError := by
  rw [← idsOk_iff] at h
  unfold formulateThetaHatAngleF
  simp [h]

theorem pair_cases {i j : ℤ} (hi : i ∈ ([1, 2, 3] : List ℤ)) (hj : j ∈ ([1, 2, 3] : List ℤ)) :
    i = j ∨ (∃ k, Cyclic i j k) ∨ ∃ k, Cyclic j i k := by
  simp only [List.mem_cons, List.not_mem_nil, or_false] at hi hj
  rcases hi with rfl | rfl | rfl <;> rcases hj with rfl | rfl | rfl <;>
    first
      | (left; rfl)
      | (right; left; exact ⟨1, by unfold Cyclic; decide⟩)
      | (right; left; exact ⟨2, by unfold Cyclic; decide⟩)
      | (right; left; exact ⟨3, by unfold Cyclic; decide⟩)
      | (right; right; exact ⟨1, by unfold Cyclic; decide⟩)
      | (right; right; exact ⟨2, by unfold Cyclic; decide⟩)
      | (right; right; exact ⟨3, by unfold Cyclic; decide⟩)

theorem zeta_forms (n : ℕ) {i a b : ℤ} (h : Cyclic i a b) :
    formulateZetaAngleF (n + 2) i i b = .ok (zetaSym i i b, zetaAE i a b) ∧
    formulateZetaAngleF (n + 2) i a i = .ok (zetaSym i a i, zetaAE i b a) ∧
    formulateZetaAngleF (n + 2) i a b = .ok (zetaSym i a b, zetaBE i a b) ∧
    formulateZetaAngleF (n + 2) i b i = .ok (zetaSym i b i, -zetaAE i a b) ∧
    formulateZetaAngleF (n + 2) i i a = .ok (zetaSym i i a, -zetaAE i b a) ∧
    formulateZetaAngleF (n + 2) i b a = .ok (zetaSym i b a, -zetaBE i a b) := by
  rcases cyclic_cases h with ⟨rfl, rfl, rfl⟩ | ⟨rfl, rfl, rfl⟩ | ⟨rfl, rfl, rfl⟩ <;>
    exact ⟨rfl, rfl, rfl, rfl, rfl, rfl⟩

theorem zeta_self (n : ℕ) {i j : ℤ} (hi : i ≠ 0) (hj : j ≠ 0) :
    formulateZetaAngleF (n + 1) i j j = .ok (zetaSym i j j, 0) := by
  unfold formulateZetaAngleF
  simp [hi, hj, zetaSym]

theorem zeta_ref0 (n : ℕ) {i j : ℤ} (hi : i ≠ 0) :
    formulateZetaAngleF (n + 1) i j 0 =
      (formulateZetaAngleF n i j i).map (fun r => (zetaSym i j 0, r.2)) := by
  rw [formulateZetaAngleF]
  simp only [hi, if_false, if_true]
  cases formulateZetaAngleF n i j i <;> rfl

theorem zeta_rot0 (n : ℕ) (j k : ℤ) :
    formulateZetaAngleF (n + 1) 0 j k =
      (formulateThetaHatAngleF n j k).map (fun r => (zetaSym 0 j k, r.2)) := by
  rw [formulateZetaAngleF]
  simp only [if_true]
  cases formulateThetaHatAngleF n j k <;> rfl

theorem zeta_notimpl (n : ℕ) {i j k : ℤ} (hi : i ≠ 0) (hk : k ≠ 0) (hjk : j ≠ k)
    (h : ¬ (i ∈ ([1, 2, 3] : List ℤ) ∧ j ∈ ([1, 2, 3] : List ℤ) ∧ k ∈ ([1, 2, 3] : List ℤ))) :
    formulateZetaAngleF (n + 1) i j k = .error .notImplementedError := by
  rw [formulateZetaAngleF]
  simp only [hi, hk, hjk, if_false]
  have key : ∀ a b c : ℤ, a ∈ ([1, 2, 3] : List ℤ) → b ∈ ([1, 2, 3] : List ℤ) →
      c ∈ ([1, 2, 3] : List ℤ) → (i, j, k) ≠ (a, b, c) := by
    rintro a b c ha hb hc heq
    simp only [Prod.mk.injEq] at heq
    obtain ⟨rfl, rfl, rfl⟩ := heq
    exact h ⟨ha, hb, hc⟩
  simp only [List.mem_cons, List.not_mem_nil, or_false]
  simp only [key _ _ _ (by decide : (1:ℤ) ∈ ([1, 2, 3] : List ℤ)) (by decide : (1:ℤ) ∈ ([1, 2, 3] : List ℤ)) (by decide : (3:ℤ) ∈ ([1, 2, 3] : List ℤ)),
    key 1 2 1 (by decide) (by decide) (by decide), key 2 2 1 (by decide) (by decide) (by decide),
    key 2 3 2 (by decide) (by decide) (by decide), key 3 3 2 (by decide) (by decide) (by decide),
    key 3 1 3 (by decide) (by decide) (by decide), key 1 2 3 (by decide) (by decide) (by decide),
    key 2 3 1 (by decide) (by decide) (by decide), key 3 1 2 (by decide) (by decide) (by decide),
    key 1 3 1 (by decide) (by decide) (by decide), key 2 1 2 (by decide) (by decide) (by decide),
    key 3 2 3 (by decide) (by decide) (by decide), key 1 1 2 (by decide) (by decide) (by decide),
    key 2 2 3 (by decide) (by decide) (by decide), key 3 3 1 (by decide) (by decide) (by decide),
    key 1 3 2 (by decide) (by decide) (by decide), key 2 1 3 (by decide) (by decide) (by decide),
    key 3 2 1 (by decide) (by decide) (by decide), or_false, if_false]

/-- The ways to choose two subsystem IDs for a final state `i`. -/
theorem zeta_triples {i j k : ℤ} (hi : i ∈ ([1, 2, 3] : List ℤ)) (hj : j ∈ ([1, 2, 3] : List ℤ))
    (hk : k ∈ ([1, 2, 3] : List ℤ)) :
    ∃ a b, Cyclic i a b ∧ ((j = i ∨ j = a ∨ j = b) ∧ (k = i ∨ k = a ∨ k = b)) := by
  simp only [List.mem_cons, List.not_mem_nil, or_false] at hi hj hk
  rcases hi with rfl | rfl | rfl
  · exact ⟨2, 3, by unfold Cyclic; decide, by tauto⟩
  · exact ⟨3, 1, by unfold Cyclic; decide, by tauto⟩
  · exact ⟨1, 2, by unfold Cyclic; decide, by tauto⟩

end Verif.Angles
