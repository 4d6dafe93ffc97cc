import Verif.Proofs.Spin
import Mathlib.Data.Finset.Card
import Mathlib.Data.Finset.Prod
import Mathlib.Data.Finset.Image
import Mathlib.Data.Nat.Cast.Order.Basic
import Mathlib.Algebra.Order.AbsoluteValue.Basic

/-! Counting argument behind C05. -/
namespace Verif.Spin

/-- Helicity pairs on the integer grid `λ1 = i - b/2`, `λ2 = c/2 - k`. -/
def grid (a b c : ℕ) : Finset (ℕ × ℕ) :=
  ((Finset.range (b + 1)) ×ˢ (Finset.range (c + 1))).filter
    (fun p => |2 * ((p.1 : ℤ) + p.2) - b - c| ≤ a)

/-- Twice the total spin assigned to a grid point. -/
def gridS (b c : ℕ) (p : ℕ × ℕ) : ℤ := (b : ℤ) + c - 2 * (p.2 - ((p.1 + p.2 - b : ℕ) : ℤ))

def gridLS (a b c : ℕ) (p : ℕ × ℕ) : ℤ × ℚ :=
  ((2 * ((p.1 : ℤ) + p.2) - b - c + max (a : ℤ) (gridS b c p)) / 2, (gridS b c p : ℚ) / 2)

theorem gridLS_injOn (a b c : ℕ) (_hpar : (a + b + c) % 2 = 0) :
    Set.InjOn (gridLS a b c) (grid a b c : Set (ℕ × ℕ)) := by
  rintro ⟨i, k⟩ h ⟨i', k'⟩ h' heq
  simp only [grid, Finset.coe_filter, Finset.mem_product, Finset.mem_range, Set.mem_ofPred_eq,
    abs_le] at h h'
  simp only [gridLS, Prod.mk.injEq] at heq
  obtain ⟨h1, h2⟩ := heq
  have h3 : gridS b c (i, k) = gridS b c (i', k') := by
    have : (gridS b c (i, k) : ℚ) = gridS b c (i', k') := by linarith
    exact_mod_cast this
  rw [h3] at h1
  simp only [gridS] at h1 h3
  simp only [Prod.mk.injEq]
  omega

theorem mem_gridLS_image (a b c : ℕ) (hpar : (a + b + c) % 2 = 0) (L S2 : ℤ) :
    (∃ p ∈ grid a b c, gridLS a b c p = (L, (S2 : ℚ) / 2)) ↔
      (S2 ≤ b + c ∧ |(b:ℤ) - c| ≤ S2 ∧ (b + c - S2) % 2 = 0 ∧ |(a:ℤ) - S2| ≤ 2 * L ∧
        2 * L ≤ a + S2) := by
  constructor
  · rintro ⟨⟨i, k⟩, h, heq⟩
    simp only [grid, Finset.mem_filter, Finset.mem_product, Finset.mem_range, abs_le] at h
    simp only [gridLS, Prod.mk.injEq] at heq
    obtain ⟨h1, h2⟩ := heq
    have h3 : gridS b c (i, k) = S2 := by
      have : (gridS b c (i, k) : ℚ) = S2 := by linarith
      exact_mod_cast this
    rw [h3] at h1
    simp only [gridS] at h3
    rw [abs_le, abs_le]
    omega
  · rintro ⟨h1, h2, h3, h4, h5⟩
    rw [abs_le] at h2 h4
    obtain ⟨n, hn⟩ : ∃ n : ℕ, (n : ℤ) = (2 * L - max (a:ℤ) S2 + b + c) / 2 :=
      ⟨((2 * L - max (a:ℤ) S2 + b + c) / 2).toNat, by omega⟩
    obtain ⟨t, ht⟩ : ∃ t : ℕ, (t : ℤ) = (b + c - S2) / 2 := ⟨((b + c - S2) / 2).toNat, by omega⟩
    obtain ⟨k, hk⟩ : ∃ k : ℕ, k = t + (n - b) := ⟨_, rfl⟩
    obtain ⟨i, hi⟩ : ∃ i : ℕ, i + k = n := ⟨n - k, by omega⟩
    have hS : gridS b c (i, k) = S2 := by
      simp only [gridS]; omega
    refine ⟨(i, k), ?_, ?_⟩
    · simp only [grid, Finset.mem_filter, Finset.mem_product, Finset.mem_range, abs_le]
      omega
    · simp only [gridLS, hS, Prod.mk.injEq, and_true]
      omega

end Verif.Spin
