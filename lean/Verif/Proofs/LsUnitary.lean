import Verif.Proofs.CgSymm
import Verif.Props.Spin

/-! The factors of the LS couplings of a vertex form an orthogonal matrix. -/
namespace Verif.Cg
open Verif.Spec Verif.Spin

theorem cg_nat {n D₁ D₂ : ℕ} (h₁ : n ≤ D₁) (h₂ : n ≤ D₂) (a β : ℤ) :
    clebschGordan (D₁ / 2) (D₁ / 2 - a) (D₂ / 2) (D₂ / 2 - β) ((D₁ + D₂) / 2 - n) ((D₁ + D₂) / 2 - a - β) =
      cgn n (D₁ - n) (D₂ - n) a β := by
  rw [← clebschGordan_eq]
  push_cast [Nat.cast_sub h₁, Nat.cast_sub h₂]
  congr 1 <;> ring

theorem projection_nat {D : ℕ} {m : ℚ} : Projection (D / 2) m ↔ ∃ a : ℕ, a ≤ D ∧ m = D / 2 - a := by
  constructor
  · rintro ⟨h1, h2, z, hz⟩
    have h0 : 0 ≤ z := by
      have : (0 : ℚ) ≤ z := by rw [← hz]; linarith
      exact_mod_cast this
    obtain ⟨a, rfl⟩ := Int.eq_ofNat_of_zero_le h0
    refine ⟨a, ?_, by push_cast at hz; linarith⟩
    have : (a : ℚ) ≤ D := by push_cast at hz; linarith
    exact_mod_cast this
  · rintro ⟨a, ha, rfl⟩
    have : (a : ℚ) ≤ D := by exact_mod_cast ha
    exact ⟨by linarith, by linarith [(Nat.cast_nonneg a : (0 : ℚ) ≤ a)], a, by push_cast; ring⟩

theorem cg_not_projection {j1 m1 j2 m2 J M : ℚ} (h : ¬ Projection J M) : clebschGordan j1 m1 j2 m2 J M = 0 := by
  unfold clebschGordan
  rw [if_neg]
  rintro ⟨-, ⟨-, -, h'⟩, -⟩
  exact h h'

/-- Completeness for the coupling of `j1` and `j2`. -/
theorem cg_complete {D₁ D₂ : ℕ} {m1 m2 m1' m2' : ℚ} (h1 : Projection (D₁ / 2) m1) (h2 : Projection (D₂ / 2) m2)
    (h1' : Projection (D₁ / 2) m1') (h2' : Projection (D₂ / 2) m2') (hM : m1 + m2 = m1' + m2') :
    ∑ n ∈ Finset.range (min D₁ D₂ + 1),
      clebschGordan (D₁ / 2) m1 (D₂ / 2) m2 ((D₁ + D₂) / 2 - n) (m1 + m2) *
      clebschGordan (D₁ / 2) m1' (D₂ / 2) m2' ((D₁ + D₂) / 2 - n) (m1 + m2) = if m1 = m1' then 1 else 0 := by
  obtain ⟨a, ha, rfl⟩ := projection_nat.1 h1
  obtain ⟨β, hβ, rfl⟩ := projection_nat.1 h2
  obtain ⟨a', ha', rfl⟩ := projection_nat.1 h1'
  obtain ⟨β', hβ', rfl⟩ := projection_nat.1 h2'
  have e : a + β = a' + β' := by
    have : (a + β : ℚ) = a' + β' := by linarith
    exact_mod_cast this
  have key := cgn_complete (D₁ := D₁) (D₂ := D₂) (d := a + β) (a := a) (a' := a') ha (by omega) (by omega) ha' (by omega)
    (by omega)
  have es : ∀ n ∈ Finset.range (min D₁ D₂ + 1),
      clebschGordan (D₁ / 2) (D₁ / 2 - a) (D₂ / 2) (D₂ / 2 - β) ((D₁ + D₂) / 2 - n) (D₁ / 2 - a + (D₂ / 2 - β)) *
      clebschGordan (D₁ / 2) (D₁ / 2 - a') (D₂ / 2) (D₂ / 2 - β') ((D₁ + D₂) / 2 - n) (D₁ / 2 - a + (D₂ / 2 - β)) =
      cgn n (D₁ - n) (D₂ - n) a ((a + β : ℕ) - a) * cgn n (D₁ - n) (D₂ - n) a' ((a + β : ℕ) - a') := by
    intro n hn
    rw [Finset.mem_range] at hn
    have c1 := cg_nat (n := n) (D₁ := D₁) (D₂ := D₂) (by omega) (by omega) a β
    have c2 := cg_nat (n := n) (D₁ := D₁) (D₂ := D₂) (by omega) (by omega) a' β'
    push_cast at c1 c2
    rw [show ((a + β : ℕ) : ℤ) - a = β by push_cast; ring, show ((a + β : ℕ) : ℤ) - a' = β' by omega, ← c1, ← c2]
    congr 2
    · ring
    · linarith
  rw [Finset.sum_congr rfl es, key]
  refine if_congr ?_ rfl rfl
  constructor
  · rintro rfl; rfl
  · intro h
    have : (a : ℚ) = a' := by linarith
    exact_mod_cast this

/-- The first two factors, by exchange of `L` and `J`. -/
theorem ls_exchange {A D e k x y : ℕ} (he : 2 * e = A + D) (hA : k ≤ A) (hD : k ≤ D)
    (hxy : x + D = y + e) :
    √((2 * (e - k) + 1) / (A + 1) : ℝ) * clebschGordan (e - k) 0 (D / 2) (D / 2 - y) (A / 2) (D / 2 - y) =
      (-1) ^ (D - k + y) * cgn k (A - k) (D - k) x (e - x) := by
  have c : clebschGordan (e - k) 0 (D / 2) (D / 2 - y) (A / 2) (D / 2 - y) = cgn (D - k) (A - k) k ((e : ℤ) - k) y := by
    rw [← clebschGordan_eq]
    have he' : (2 * e : ℚ) = A + D := by exact_mod_cast he
    push_cast [Nat.cast_sub hA, Nat.cast_sub hD]
    congr 1 <;> linarith
  have ex := cgn_exchange (D - k) (A - k) k y ((e : ℤ) - k)
  have he' : (2 * e : ℝ) = A + D := by exact_mod_cast he
  push_cast [Nat.cast_sub hA, Nat.cast_sub hD] at ex
  rw [show ((e : ℤ) - k + y - (D - k)) = x by omega, show ((D : ℤ) - k + k - y) = e - x by omega,
    show (D - k + (A - k) + 1 : ℝ) = 2 * (e - k) + 1 by linarith, show ((A : ℝ) - k + k + 1) = A + 1 by ring] at ex
  have hk : (k : ℝ) ≤ e := by exact_mod_cast (by omega : k ≤ e)
  rw [c, Real.sqrt_div (by linarith), div_mul_eq_mul_div, ex, div_eq_iff (by positivity)]
  ring

/-- Sum over `L` of the first two factors. -/
theorem ls_complete {A D : ℕ} {e : ℕ} (he : 2 * e = A + D) {m m' : ℚ} (hm : Projection (A / 2) m)
    (hm' : Projection (A / 2) m') (hd : Projection (D / 2) m) (hd' : Projection (D / 2) m') :
    ∑ k ∈ Finset.range (min A D + 1),
      (√((2 * (e - k) + 1) / (A + 1) : ℝ) * clebschGordan (e - k) 0 (D / 2) m (A / 2) m) *
      (√((2 * (e - k) + 1) / (A + 1) : ℝ) * clebschGordan (e - k) 0 (D / 2) m' (A / 2) m') =
      if m = m' then 1 else 0 := by
  obtain ⟨x, hx, hmx⟩ := projection_nat.1 hm
  obtain ⟨x', hx', hmx'⟩ := projection_nat.1 hm'
  obtain ⟨y, hy, rfl⟩ := projection_nat.1 hd
  obtain ⟨y', hy', rfl⟩ := projection_nat.1 hd'
  have he' : (2 * e : ℚ) = A + D := by exact_mod_cast he
  have e1 : x + D = y + e := by
    have : (x + D : ℚ) = y + e := by linarith
    exact_mod_cast this
  have e2 : x' + D = y' + e := by
    have : (x' + D : ℚ) = y' + e := by linarith
    exact_mod_cast this
  have key := cgn_complete (D₁ := A) (D₂ := D) (d := e) (a := x) (a' := x') hx (by omega) (by omega) hx' (by omega)
    (by omega)
  have es : ∀ k ∈ Finset.range (min A D + 1),
      (√((2 * (e - k) + 1) / (A + 1) : ℝ) * clebschGordan (e - k) 0 (D / 2) (D / 2 - y) (A / 2) (D / 2 - y)) *
      (√((2 * (e - k) + 1) / (A + 1) : ℝ) * clebschGordan (e - k) 0 (D / 2) (D / 2 - y') (A / 2) (D / 2 - y')) =
      (-1) ^ (y + y') * (cgn k (A - k) (D - k) x (e - x) * cgn k (A - k) (D - k) x' (e - x')) := by
    intro k hk
    rw [Finset.mem_range] at hk
    rw [ls_exchange he (by omega) (by omega) e1, ls_exchange he (by omega) (by omega) e2]
    have hs : (-1 : ℝ) ^ (D - k + y) * (-1) ^ (D - k + y') = (-1) ^ (y + y') := by
      rw [← pow_add, show D - k + y + (D - k + y') = 2 * (D - k) + (y + y') by omega, pow_add, pow_mul]
      simp
    linear_combination (cgn k (A - k) (D - k) x (e - x) * cgn k (A - k) (D - k) x' (e - x')) * hs
  rw [Finset.sum_congr rfl es, ← Finset.mul_sum, key]
  by_cases h : x = x'
  · have hyy : y = y' := by omega
    subst h hyy
    rw [if_pos rfl, if_pos rfl, ← two_mul, pow_mul]
    simp
  · rw [if_neg h, if_neg, mul_zero]
    intro h'
    have : (y : ℚ) = y' := by linarith
    have : y = y' := by exact_mod_cast this
    omega

/-- `√((2L+1)/(2J+1)) ⟨L 0 S λ₁-λ₂ | J λ₁-λ₂⟩ ⟨s₁ λ₁ s₂ -λ₂ | S λ₁-λ₂⟩` -/
noncomputable def lsReal (J s1 s2 L S h1 h2 : ℚ) : ℝ :=
  √((2 * L + 1) / (2 * J + 1) : ℚ) * clebschGordan L 0 S (h1 - h2) J (h1 - h2) * clebschGordan s1 h1 s2 (-h2) S (h1 - h2)

theorem lsReal_complete {A B C : ℕ} {e : ℕ} (he : 2 * e = A + B + C) {h1 h2 h1' h2' : ℚ}
    (p1 : Projection (B / 2) h1) (p2 : Projection (C / 2) h2) (p : Projection (A / 2) (h1 - h2))
    (p1' : Projection (B / 2) h1') (p2' : Projection (C / 2) h2') (p' : Projection (A / 2) (h1' - h2')) :
    ∑ n ∈ Finset.range (min B C + 1), ∑ k ∈ Finset.range (min A (B + C - 2 * n) + 1),
      lsReal (A / 2) (B / 2) (C / 2) (e - n - k) ((B + C) / 2 - n) h1 h2 *
      lsReal (A / 2) (B / 2) (C / 2) (e - n - k) ((B + C) / 2 - n) h1' h2' =
      if h1 = h1' ∧ h2 = h2' then 1 else 0 := by
  have hi : ∀ n ∈ Finset.range (min B C + 1), ∑ k ∈ Finset.range (min A (B + C - 2 * n) + 1),
      lsReal (A / 2) (B / 2) (C / 2) (e - n - k) ((B + C) / 2 - n) h1 h2 *
      lsReal (A / 2) (B / 2) (C / 2) (e - n - k) ((B + C) / 2 - n) h1' h2' =
      if h1 - h2 = h1' - h2' then
        clebschGordan (B / 2) h1 (C / 2) (-h2) ((B + C) / 2 - n) (h1 + -h2) *
        clebschGordan (B / 2) h1' (C / 2) (-h2') ((B + C) / 2 - n) (h1 + -h2) else 0 := by
    intro n hn
    rw [Finset.mem_range] at hn
    obtain ⟨D, hD⟩ : ∃ D, D = B + C - 2 * n := ⟨_, rfl⟩
    have hD' : (D : ℚ) = B + C - 2 * n := by
      rw [hD, Nat.cast_sub (by omega)]; push_cast; ring
    have hS : ((B + C) / 2 - n : ℚ) = D / 2 := by rw [hD']; ring
    rw [← hD, hS]
    by_cases hq : Projection (D / 2) (h1 - h2) ∧ Projection (D / 2) (h1' - h2')
    · obtain ⟨E, hE⟩ : ∃ E, E = e - n := ⟨_, rfl⟩
      have key := ls_complete (A := A) (D := D) (e := E) (by omega) p p' hq.1 hq.2
      have hE' : (E : ℚ) = e - n := by rw [hE, Nat.cast_sub (by omega)]
      have hE'' : (E : ℝ) = e - n := by rw [hE, Nat.cast_sub (by omega)]
      have es : ∀ k ∈ Finset.range (min A D + 1),
          lsReal (A / 2) (B / 2) (C / 2) (e - n - k) (D / 2) h1 h2 *
          lsReal (A / 2) (B / 2) (C / 2) (e - n - k) (D / 2) h1' h2' =
          (clebschGordan (B / 2) h1 (C / 2) (-h2) (D / 2) (h1 - h2) *
            clebschGordan (B / 2) h1' (C / 2) (-h2') (D / 2) (h1' - h2')) *
          ((√((2 * (E - k) + 1) / (A + 1) : ℝ) * clebschGordan (E - k) 0 (D / 2) (h1 - h2) (A / 2) (h1 - h2)) *
          (√((2 * (E - k) + 1) / (A + 1) : ℝ) * clebschGordan (E - k) 0 (D / 2) (h1' - h2') (A / 2) (h1' - h2'))) := by
        intro k _
        unfold lsReal
        rw [← hE']
        have : (((2 * ((E : ℚ) - k) + 1) / (2 * (A / 2) + 1) : ℚ) : ℝ) = (2 * (E - k) + 1) / (A + 1) := by
          push_cast; ring
        rw [this]
        ring
      rw [Finset.sum_congr rfl es, ← Finset.mul_sum, key, mul_ite, mul_one, mul_zero]
      split_ifs with h
      · rw [← h, sub_eq_add_neg]
      · rfl
    · rw [Finset.sum_eq_zero]
      · split_ifs with h
        · rw [← sub_eq_add_neg]
          have : ¬ Projection (D / 2) (h1 - h2) := fun g => hq ⟨g, h ▸ g⟩
          rw [cg_not_projection this, zero_mul]
        · rfl
      · intro k _
        unfold lsReal
        by_cases hq1 : Projection (D / 2) (h1 - h2)
        · rw [cg_not_projection (J := (D : ℚ) / 2) (M := h1' - h2') fun g => hq ⟨hq1, g⟩]; simp
        · rw [cg_not_projection (J := (D : ℚ) / 2) (M := h1 - h2) hq1]; simp
  rw [Finset.sum_congr rfl hi]
  by_cases h : h1 - h2 = h1' - h2'
  · simp only [if_pos h]
    have hC : IsHalfInteger (C / 2 : ℚ) := ⟨C, by push_cast; ring⟩
    rw [cg_complete p1 ((projection_neg hC).2 p2) p1' ((projection_neg hC).2 p2') (by linarith)]
    refine if_congr ?_ rfl rfl
    constructor
    · rintro rfl; exact ⟨rfl, by linarith⟩
    · exact fun g => g.1
  · simp only [if_neg h, Finset.sum_const_zero]
    rw [if_neg]
    rintro ⟨rfl, rfl⟩
    exact h rfl

end Verif.Cg
