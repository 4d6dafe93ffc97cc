import Verif.Proofs.Amplitude
import Verif.Spec.Wigner

/-! Change of the reference subsystem. -/
namespace Verif.ThreeBody
open Verif Verif.Spec Verif.Spin

/-- A real orthogonal matrix preserves the sum of squared moduli. -/
theorem sum_norm_sq_orthogonal {α : Type} [DecidableEq α] (S : Finset α) (V : α → α → ℝ)
    (hV : ∀ n ∈ S, ∀ n' ∈ S, ∑ l ∈ S, V l n * V l n' = if n = n' then 1 else 0) (v : α → ℂ) :
    ∑ l ∈ S, ‖∑ n ∈ S, (V l n : ℂ) * v n‖ ^ 2 = ∑ n ∈ S, ‖v n‖ ^ 2 := by
  have key : ∀ z : ℂ, ((‖z‖ ^ 2 : ℝ) : ℂ) = z * (starRingEnd ℂ) z := by
    intro z; rw [Complex.mul_conj, Complex.normSq_eq_norm_sq]
  have : ((∑ l ∈ S, ‖∑ n ∈ S, (V l n : ℂ) * v n‖ ^ 2 : ℝ) : ℂ) = ((∑ n ∈ S, ‖v n‖ ^ 2 : ℝ) : ℂ) := by
    rw [Complex.ofReal_sum, Complex.ofReal_sum]
    simp only [key, map_sum, map_mul, Complex.conj_ofReal]
    calc ∑ l ∈ S, (∑ n ∈ S, (V l n : ℂ) * v n) * ∑ n ∈ S, (V l n : ℂ) * (starRingEnd ℂ) (v n)
        = ∑ l ∈ S, ∑ n ∈ S, ∑ n' ∈ S, ((V l n * V l n' : ℝ) : ℂ) * (v n * (starRingEnd ℂ) (v n')) := by
          apply Finset.sum_congr rfl
          intro l _
          rw [Finset.sum_mul_sum]
          apply Finset.sum_congr rfl
          intro n _
          apply Finset.sum_congr rfl
          intro n' _
          push_cast; ring
      _ = ∑ n ∈ S, ∑ n' ∈ S, ((∑ l ∈ S, V l n * V l n' : ℝ) : ℂ) * (v n * (starRingEnd ℂ) (v n')) := by
          rw [Finset.sum_comm]
          apply Finset.sum_congr rfl
          intro n _
          rw [Finset.sum_comm]
          apply Finset.sum_congr rfl
          intro n' _
          rw [Complex.ofReal_sum, Finset.sum_mul]
      _ = ∑ n ∈ S, v n * (starRingEnd ℂ) (v n) := by
          apply Finset.sum_congr rfl
          intro n hn
          rw [Finset.sum_eq_single n]
          · rw [hV n hn n hn, if_pos rfl]; simp
          · intro n' hn' hne
            rw [hV n hn n' hn', if_neg (Ne.symm hne)]; simp
          · intro h; exact absurd hn h
  exact_mod_cast this

/-- The factors of the aligned amplitude, seen as matrices acting on the outer helicity. -/
noncomputable def factor (ι : Interp) (d : Decay) (ref k : ℤ) (i : Fin 4) (a a' : ℚ) : ℂ :=
  if i = 0 then rotation ι d ref k i a a' else rotation ι d ref k i a' a

theorem alignedOver_eq (ι : Interp) (d : Decay) (S : Finset ℤ) (ref : ℤ) (A : ℤ → (Fin 4 → ℚ) → ℂ)
    (l : Fin 4 → ℚ) : alignedOver ι d S ref A l = ∑ l' ∈ helicities d, ∑ k ∈ S,
      A k l' * ∏ i, factor ι d ref k i (l i) (l' i) := by
  unfold alignedOver
  apply Finset.sum_congr rfl
  intro l' _
  apply Finset.sum_congr rfl
  intro k _
  rw [Fin.prod_univ_four]
  simp only [factor, if_true, if_neg (show (1 : Fin 4) ≠ 0 by decide),
    if_neg (show (2 : Fin 4) ≠ 0 by decide), if_neg (show (3 : Fin 4) ≠ 0 by decide)]
  ring

theorem aligned_eq (ι : Interp) (d : Decay) (ref : ℤ) (A : ℤ → (Fin 4 → ℚ) → ℂ) (l : Fin 4 → ℚ) :
    aligned ι d ref A l = ∑ l' ∈ helicities d, ∑ k ∈ subsystems d,
      A k l' * ∏ i, factor ι d ref k i (l i) (l' i) := alignedOver_eq ι d (subsystems d) ref A l

/-- If the factors for two references differ by orthogonal matrices and a sign for each subsystem,
the intensities agree up to the signs of the amplitudes. -/
theorem intensity_change {ι : Interp} {d : Decay} {S : Finset ℤ} {r₁ r₂ : ℤ} (W : Fin 4 → ℚ → ℚ → ℝ) (ε : ℤ → ℂ)
    (hW : ∀ i : Fin 4, ∀ n ∈ projections (d.spin i), ∀ n' ∈ projections (d.spin i),
      ∑ a ∈ projections (d.spin i), W i a n * W i a n' = if n = n' then 1 else 0)
    (hf : ∀ k ∈ S, ∀ i : Fin 4, ∀ a ∈ projections (d.spin i), ∀ a' ∈ projections (d.spin i),
      factor ι d r₂ k i a a' = (if i = 0 then ε k else 1) *
        ∑ n ∈ projections (d.spin i), (W i a n : ℂ) * factor ι d r₁ k i n a')
    (A : ℤ → (Fin 4 → ℚ) → ℂ) :
    intensityOver ι d S r₂ A = intensityOver ι d S r₁ (fun k l => ε k * A k l) := by
  have hV : ∀ n ∈ helicities d, ∀ n' ∈ helicities d,
      ∑ l ∈ helicities d, (∏ i, W i (l i) (n i)) * (∏ i, W i (l i) (n' i)) =
        if n = n' then 1 else 0 := by
    intro n hn n' hn'
    unfold helicities at hn hn' ⊢
    rw [Fintype.mem_piFinset] at hn hn'
    simp only [← Finset.prod_mul_distrib]
    rw [← Finset.prod_univ_sum (fun i : Fin 4 => projections (d.spin i)) (fun i a => W i a (n i) * W i a (n' i))]
    simp only [fun i => hW i (n i) (hn i) (n' i) (hn' i)]
    by_cases h : n = n'
    · subst h; simp
    · rw [if_neg h]
      obtain ⟨i, hi⟩ := Function.ne_iff.1 h
      exact Finset.prod_eq_zero (Finset.mem_univ i) (if_neg hi)
  unfold intensityOver
  rw [← sum_norm_sq_orthogonal (helicities d) (fun l n => ∏ i, W i (l i) (n i)) hV
    (alignedOver ι d S r₁ fun k l => ε k * A k l)]
  apply Finset.sum_congr rfl
  intro l hl
  congr 2
  simp only [alignedOver_eq]
  have hl' := hl
  unfold helicities at hl'
  rw [Fintype.mem_piFinset] at hl'
  calc ∑ l' ∈ helicities d, ∑ k ∈ S, A k l' * ∏ i, factor ι d r₂ k i (l i) (l' i)
      = ∑ l' ∈ helicities d, ∑ k ∈ S, ∑ n ∈ helicities d,
          ((∏ i, W i (l i) (n i) : ℝ) : ℂ) * (ε k * A k l' * ∏ i, factor ι d r₁ k i (n i) (l' i)) := by
        apply Finset.sum_congr rfl
        intro l' hl'2
        apply Finset.sum_congr rfl
        intro k hk
        have hl'3 := hl'2
        unfold helicities at hl'3
        rw [Fintype.mem_piFinset] at hl'3
        have : ∏ i, factor ι d r₂ k i (l i) (l' i) = ε k * ∑ n ∈ helicities d,
            ((∏ i, W i (l i) (n i) : ℝ) : ℂ) * ∏ i, factor ι d r₁ k i (n i) (l' i) := by
          rw [Finset.prod_congr rfl fun i _ => hf k hk i (l i) (hl' i) (l' i) (hl'3 i),
            Finset.prod_mul_distrib, Finset.prod_ite_eq' Finset.univ (0 : Fin 4) (fun _ => ε k),
            if_pos (Finset.mem_univ _), Finset.prod_univ_sum]
          congr 1
          apply Finset.sum_congr rfl
          intro n _
          rw [Finset.prod_mul_distrib]
          push_cast; rfl
        rw [this, Finset.mul_sum, Finset.mul_sum]
        apply Finset.sum_congr rfl
        intro n _
        ring
    _ = ∑ n ∈ helicities d, ((∏ i, W i (l i) (n i) : ℝ) : ℂ) * ∑ l' ∈ helicities d,
          ∑ k ∈ S, ε k * A k l' * ∏ i, factor ι d r₁ k i (n i) (l' i) := by
        simp only [Finset.mul_sum]
        conv_rhs => rw [Finset.sum_comm]
        apply Finset.sum_congr rfl
        intro l' _
        rw [Finset.sum_comm]

/-! ### Wigner matrices -/

theorem projections_zero : projections 0 = {0} := by
  ext m
  rw [mem_projections ⟨0, by norm_num⟩, Finset.mem_singleton]
  constructor
  · rintro ⟨h1, h2, -⟩; linarith
  · rintro rfl; exact ⟨by norm_num, le_refl _, 0, by norm_num⟩

theorem wigner_orth_left {d : ℚ → ℚ → ℚ → ℝ → ℝ} (h : IsWignerD d) {j : ℚ} (hj : IsHalfInteger j)
    {n n' : ℚ} (hn : n ∈ projections j) (hn' : n' ∈ projections j) (x : ℝ) :
    ∑ a ∈ projections j, d j a n x * d j a n' x = if n = n' then 1 else 0 := by
  rw [← h.zero hj n hn n' hn', ← neg_add_cancel x, h.add hj n hn n' hn']
  apply Finset.sum_congr rfl
  intro a ha
  rw [h.neg hj n hn a ha]

theorem wigner_orth_right {d : ℚ → ℚ → ℚ → ℝ → ℝ} (h : IsWignerD d) {j : ℚ} (hj : IsHalfInteger j)
    {n n' : ℚ} (hn : n ∈ projections j) (hn' : n' ∈ projections j) (x : ℝ) :
    ∑ a ∈ projections j, d j n a x * d j n' a x = if n = n' then 1 else 0 := by
  rw [← h.zero hj n hn n' hn', ← add_neg_cancel x, h.add hj n hn n' hn']
  apply Finset.sum_congr rfl
  intro a ha
  rw [h.neg hj a ha n' hn']

open Classical in
theorem wigner_sub_turn {d : ℚ → ℚ → ℚ → ℝ → ℝ} (h : IsWignerD d) {j : ℚ} (hj : IsHalfInteger j)
    {n n' : ℚ} (hn : n ∈ projections j) (hn' : n' ∈ projections j) (x : ℝ) :
    d j n n' (x - 2 * Real.pi) = (if IsInteger j then 1 else -1) * d j n n' x := by
  have := h.turn hj n hn n' hn' (x - 2 * Real.pi)
  rw [sub_add_cancel] at this
  rw [this]
  split <;> ring

/-- Change of reference, for angles with the given sum rules. -/
theorem intensity_change_ref {ι : Interp} {d : Decay} {S : Finset ℤ} (hd : Standard d)
    {D : ℚ → ℚ → ℚ → ℝ → ℝ} (hD : IsWignerD D) (hι : UsesWignerD ι D) {r₁ r₂ : ℤ}
    (z : ℤ → ℤ → ℤ → ℝ)
    (h1 : ∀ k ∈ S, ∀ i : Fin 4, d.spin i ≠ 0 → ι.sym (zetaSymbol i k r₁) = z i k r₁)
    (h2 : ∀ k ∈ S, ∀ i : Fin 4, d.spin i ≠ 0 → ι.sym (zetaSymbol i k r₂) = z i k r₂)
    (hz : ∀ k ∈ S, ∀ i : Fin 4, i ≠ 0 → z i k r₂ = z i k r₁ + z i r₁ r₂)
    (h0 : ∀ k ∈ S, (k = r₁ ∨ k = r₂ → z 0 k r₂ = z 0 r₁ r₂ + z 0 k r₁) ∧
      (z 0 k r₂ = z 0 r₁ r₂ + z 0 k r₁ ∨ z 0 k r₂ = z 0 r₁ r₂ + z 0 k r₁ + 2 * Real.pi ∨
        z 0 k r₂ = z 0 r₁ r₂ + z 0 k r₁ - 2 * Real.pi) ∧
      (k ≠ r₁ → k ≠ r₂ → z 0 k r₂ ≠ z 0 r₁ r₂ + z 0 k r₁))
    (A : ℤ → (Fin 4 → ℚ) → ℂ) :
    intensityOver ι d S r₂ A = intensityOver ι d S r₁ (fun k l => refSign d r₁ r₂ k * A k l) := by
  have hhalf := spins_half hd
  have hz0 : ∀ i : Fin 4, d.spin i = 0 → projections (d.spin i) = {0} := by
    intro i hi; rw [hi, projections_zero]
  apply intensity_change (fun i a n => if d.spin i = 0 then 1 else
    if i = 0 then D (d.spin i) a n (z i r₁ r₂) else D (d.spin i) n a (z i r₁ r₂))
  · intro i n hn n' hn'
    by_cases hs : d.spin i = 0
    · rw [hz0 i hs] at hn hn' ⊢
      rw [Finset.mem_singleton] at hn hn'
      subst hn; subst hn'
      simp [hs]
    · simp only [if_neg hs]
      by_cases hi : i = 0
      · simp only [if_pos hi]; exact wigner_orth_left hD (hhalf i) hn hn' _
      · simp only [if_neg hi]; exact wigner_orth_right hD (hhalf i) hn hn' _
  · intro k hk i a ha a' ha'
    by_cases hs : d.spin i = 0
    · rw [hz0 i hs] at ha ha' ⊢
      rw [Finset.mem_singleton] at ha ha'
      subst ha; subst ha'
      have hsgn : (if i = 0 then (refSign d r₁ r₂ k : ℂ) else 1) = 1 := by
        split
        · rename_i hi
          subst hi
          unfold refSign
          rw [if_pos (Or.inl ⟨0, by simpa using hs⟩)]; simp
        · rfl
      rw [hsgn]
      simp [factor, rotation, hs]
    · simp only [if_neg hs]
      by_cases hi : i = 0
      · subst hi
        obtain ⟨q1, q2, q3⟩ := h0 k hk
        have e1 := h1 k hk 0 hs
        have e2 := h2 k hk 0 hs
        have hh := hhalf 0
        simp only [factor, if_true, rotation, if_neg hs, e1, e2, hι _ _ _ _]
        have hadd : ∀ x y, ∑ n ∈ projections (d.spin (0 : Fin 4)),
            (D (d.spin (0 : Fin 4)) a n x : ℂ) * (D (d.spin (0 : Fin 4)) n a' y : ℂ) =
            (D (d.spin (0 : Fin 4)) a a' (x + y) : ℂ) := by
          intro x y
          rw [hD.add hh a ha a' ha']
          push_cast; rfl
        rw [hadd, ← Complex.ofReal_mul]
        congr 1
        change D (d.spin 0) a a' (z 0 k r₂) = refSign d r₁ r₂ k * D (d.spin 0) a a' (z 0 r₁ r₂ + z 0 k r₁)
        have hh' : IsHalfInteger (d.spin 0) := hh
        have ha0 : a ∈ projections (d.spin 0) := ha
        have ha0' : a' ∈ projections (d.spin 0) := ha'
        unfold refSign
        rcases q2 with q | q | q
        · rw [if_pos, q, one_mul]
          by_contra hc
          push Not at hc
          exact q3 hc.2.1 hc.2.2 q
        · rw [q, hD.turn hh' a ha0 a' ha0']
          by_cases hc : k = r₁ ∨ k = r₂
          · have := q1 hc
            rw [q] at this
            have := Real.pi_pos
            linarith
          · by_cases hI : IsInteger (d.spin 0) <;> simp [hI, hc]
        · rw [q, wigner_sub_turn hD hh' ha0 ha0']
          by_cases hc : k = r₁ ∨ k = r₂
          · have := q1 hc
            rw [q] at this
            have := Real.pi_pos
            linarith
          · by_cases hI : IsInteger (d.spin 0) <;> simp [hI, hc]
      · have e1 := h1 k hk i hs
        have e2 := h2 k hk i hs
        simp only [factor, if_neg hi, rotation, if_neg hs, e1, e2, hι _ _ _ _, one_mul]
        rw [hz k hk i hi, hD.add (hhalf i) a' ha' a ha]
        push_cast
        apply Finset.sum_congr rfl
        intro n _
        ring

/-! ### Sensitivity to the relative sign of two subsystems -/

theorem rotation_zero {ι : Interp} {d : Decay} (hd : Standard d) {D : ℚ → ℚ → ℚ → ℝ → ℝ}
    (hD : IsWignerD D) (hι : UsesWignerD ι D) {ref k : ℤ} {i : Fin 4}
    (hz : d.spin i ≠ 0 → ι.sym (zetaSymbol i k ref) = 0)
    {a a' : ℚ} (ha : a ∈ projections (d.spin i)) (ha' : a' ∈ projections (d.spin i)) :
    factor ι d ref k i a a' = if a = a' then 1 else 0 := by
  by_cases hs : d.spin i = 0
  · rw [hs, projections_zero, Finset.mem_singleton] at ha ha'
    subst ha; subst ha'
    simp [factor, rotation, hs]
  · have h0 : (0 : ℂ) = ((0 : ℝ) : ℂ) := by simp
    have hi := spins_half hd i
    unfold factor rotation
    simp only [if_neg hs]
    rw [hz hs, h0, hι, hι, hD.zero hi a ha a' ha', hD.zero hi a' ha' a ha]
    by_cases h : a = a'
    · subst h; simp
    · simp [h, Ne.symm h]

theorem factor_norm {ι : Interp} {d : Decay} (hd : Standard d) {D : ℚ → ℚ → ℚ → ℝ → ℝ}
    (hD : IsWignerD D) (hι : UsesWignerD ι D) {ref k : ℤ} {i : Fin 4} {x : ℝ}
    (hz : d.spin i ≠ 0 → ι.sym (zetaSymbol i k ref) = x)
    {a' : ℚ} (ha' : a' ∈ projections (d.spin i)) :
    ∑ a ∈ projections (d.spin i), ‖factor ι d ref k i a a'‖ ^ 2 = 1 := by
  by_cases hs : d.spin i = 0
  · rw [hs, projections_zero]
    simp [factor, rotation, hs]
  · have hi := spins_half hd i
    unfold factor rotation
    simp only [if_neg hs, hz hs, hι _ _ _ _]
    by_cases h : i = 0
    · simp only [if_pos h, Complex.norm_real, Real.norm_eq_abs, sq_abs]
      have := wigner_orth_left hD hi ha' ha' x
      simp only [if_true] at this
      rw [← this]
      exact Finset.sum_congr rfl fun a _ => by ring
    · simp only [if_neg h, Complex.norm_real, Real.norm_eq_abs, sq_abs]
      have := wigner_orth_right hD hi ha' ha' x
      simp only [if_true] at this
      rw [← this]
      exact Finset.sum_congr rfl fun a _ => by ring

open Classical in
/-- Amplitudes of the reference subsystem and one other that have the same aligned amplitude. -/
noncomputable def matching (ι : Interp) (d : Decay) (r k' : ℤ) (l0 : Fin 4 → ℚ) (k : ℤ)
    (l : Fin 4 → ℚ) : ℂ :=
  if k = r then ∏ i, factor ι d r k' i (l i) (l0 i) else if k = k' then if l = l0 then 1 else 0 else 0

theorem aligned_matching {ι : Interp} {d : Decay} {S : Finset ℤ} {r k' : ℤ} (hr : r ∈ S)
    (hk : k' ∈ S) (hne : k' ≠ r)
    (hz : ∀ i : Fin 4, ∀ a ∈ projections (d.spin i), ∀ a' ∈ projections (d.spin i),
      factor ι d r r i a a' = if a = a' then 1 else 0)
    {l0 l : Fin 4 → ℚ} (hl0 : l0 ∈ helicities d) (hl : l ∈ helicities d) (c₁ c₂ : ℂ) :
    alignedOver ι d S r (fun k l => (if k = r then c₁ else c₂) * matching ι d r k' l0 k l) l =
      (c₁ + c₂) * ∏ i, factor ι d r k' i (l i) (l0 i) := by
  classical
  rw [alignedOver_eq, Finset.sum_comm, ← Finset.add_sum_erase _ _ hr,
    ← Finset.add_sum_erase _ _ (Finset.mem_erase.2 ⟨hne, hk⟩)]
  have h3 : ∑ k ∈ (S.erase r).erase k', ∑ l' ∈ helicities d,
      (if k = r then c₁ else c₂) * matching ι d r k' l0 k l' * ∏ i, factor ι d r k i (l i) (l' i) = 0 := by
    apply Finset.sum_eq_zero
    intro k hk2
    obtain ⟨q1, q2, -⟩ := by simpa only [Finset.mem_erase] using hk2
    apply Finset.sum_eq_zero
    intro l' _
    simp [matching, q1, q2]
  have h1 : ∑ l' ∈ helicities d, (if r = r then c₁ else c₂) * matching ι d r k' l0 r l' *
      ∏ i, factor ι d r r i (l i) (l' i) = c₁ * ∏ i, factor ι d r k' i (l i) (l0 i) := by
    have hl' := hl
    unfold helicities at hl'
    rw [Fintype.mem_piFinset] at hl'
    rw [Finset.sum_eq_single l]
    · simp only [if_true, matching]
      rw [Finset.prod_eq_one (s := Finset.univ) (f := fun i => factor ι d r r i (l i) (l i)), mul_one]
      intro i _
      rw [hz i _ (hl' i) _ (hl' i), if_pos rfl]
    · intro l2 hl2 hne2
      unfold helicities at hl2
      rw [Fintype.mem_piFinset] at hl2
      obtain ⟨i, hi⟩ := Function.ne_iff.1 hne2
      rw [Finset.prod_eq_zero (Finset.mem_univ i), mul_zero]
      rw [hz i _ (hl' i) _ (hl2 i), if_neg (Ne.symm hi)]
    · intro h; exact absurd hl h
  have h2 : ∑ l' ∈ helicities d, (if k' = r then c₁ else c₂) * matching ι d r k' l0 k' l' *
      ∏ i, factor ι d r k' i (l i) (l' i) = c₂ * ∏ i, factor ι d r k' i (l i) (l0 i) := by
    rw [Finset.sum_eq_single l0]
    · simp [matching, hne]
    · intro l2 _ hne2
      simp [matching, hne, hne2]
    · intro h; exact absurd hl0 h
  rw [h1, h2, h3]; ring

theorem intensity_matching {ι : Interp} {d : Decay} {S : Finset ℤ} {r k' : ℤ} (hr : r ∈ S)
    (hk : k' ∈ S) (hne : k' ≠ r)
    (hz : ∀ i : Fin 4, ∀ a ∈ projections (d.spin i), ∀ a' ∈ projections (d.spin i),
      factor ι d r r i a a' = if a = a' then 1 else 0)
    (hn : ∀ i : Fin 4, ∀ a' ∈ projections (d.spin i),
      ∑ a ∈ projections (d.spin i), ‖factor ι d r k' i a a'‖ ^ 2 = 1)
    {l0 : Fin 4 → ℚ} (hl0 : l0 ∈ helicities d) (c₁ c₂ : ℂ) :
    intensityOver ι d S r (fun k l => (if k = r then c₁ else c₂) * matching ι d r k' l0 k l) =
      ‖c₁ + c₂‖ ^ 2 := by
  unfold intensityOver
  have : ∀ l ∈ helicities d, ‖alignedOver ι d S r
      (fun k l => (if k = r then c₁ else c₂) * matching ι d r k' l0 k l) l‖ ^ 2 =
      ‖c₁ + c₂‖ ^ 2 * ∏ i, ‖factor ι d r k' i (l i) (l0 i)‖ ^ 2 := by
    intro l hl
    rw [aligned_matching hr hk hne hz hl0 hl, norm_mul, mul_pow, norm_prod, Finset.prod_pow]
  rw [Finset.sum_congr rfl this, ← Finset.mul_sum]
  unfold helicities at hl0 ⊢
  rw [Fintype.mem_piFinset] at hl0
  rw [← Finset.prod_univ_sum (fun i : Fin 4 => projections (d.spin i))
    (fun i a => ‖factor ι d r k' i a (l0 i)‖ ^ 2)]
  rw [Finset.prod_eq_one fun i _ => hn i (l0 i) (hl0 i), mul_one]

end Verif.ThreeBody
