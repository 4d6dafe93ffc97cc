import Verif.Props.Unitary
import Verif.Spec.Parity

/-! Property C97: `filter_parity_violating_ls` keeps exactly the LS couplings of the helicity couplings that conserve
parity. -/
namespace Verif.ThreeBody
open Verif Verif.Spec Verif.Spin

variable {ι : Interp}

theorem projection_neg {j m : ℚ} (hj : IsHalfInteger j) (h : Projection j m) : Projection j (-m) := by
  obtain ⟨n, hn⟩ := hj
  obtain ⟨h1, h2, k, hk⟩ := h
  exact ⟨by linarith, by linarith, n - k, by push_cast; linarith⟩

theorem vertexHelicities_neg {J s1 s2 : ℚ} (hs : DecaySpins J s1 s2) {h : ℚ × ℚ} (hh : h ∈ vertexHelicities J s1 s2) :
    -h ∈ vertexHelicities J s1 s2 := by
  classical
  unfold vertexHelicities at hh ⊢
  rw [Finset.mem_filter, Finset.mem_product, mem_projections hs.2.1.2, mem_projections hs.2.2.1.2] at hh ⊢
  obtain ⟨⟨p1, p2⟩, p⟩ := hh
  refine ⟨⟨projection_neg hs.2.1.2 p1, projection_neg hs.2.2.1.2 p2⟩, ?_⟩
  have := projection_neg hs.1.2 p
  simpa [neg_add_eq_sub, sub_eq_add_neg, add_comm] using this

/-- A sum over all helicities does not change if all helicities are reversed. -/
theorem sum_vertexHelicities_neg {J s1 s2 : ℚ} (hs : DecaySpins J s1 s2) (f : ℚ × ℚ → ℂ) :
    ∑ h ∈ vertexHelicities J s1 s2, f (-h) = ∑ h ∈ vertexHelicities J s1 s2, f h :=
  Finset.sum_bij' (fun h _ => -h) (fun h _ => -h) (fun _ hh => vertexHelicities_neg hs hh)
    (fun _ hh => vertexHelicities_neg hs hh) (fun h _ => neg_neg h) (fun h _ => neg_neg h) (fun _ _ => rfl)

theorem minusOnePow_square {J s1 s2 : ℚ} (hs : DecaySpins J s1 s2) :
    minusOnePow (s1 + s2 - J) * minusOnePow (s1 + s2 - J) = 1 := by
  obtain ⟨⟨_, n, hn⟩, _, _, z, hz⟩ := hs
  rw [← minusOnePow_add, ← minusOnePow_even (z - n)]
  congr 1
  push_cast
  linarith

theorem mem_parity_filter {ls : List (ℤ × ℚ)} {p p₁ p₂ : ℤ} {x : ℤ × ℚ} :
    x ∈ filterParityViolatingLs ls p p₁ p₂ ↔ x ∈ ls ∧ VertexParity p p₁ p₂ x.1 := by
  simp only [filterParityViolatingLs, List.mem_filter, decide_eq_true_eq, VertexParity, Int.even_iff]

/-- C97: helicity couplings `H` that are the sums of LS couplings `g` times factors have the symmetry of a
parity-conserving decay, `H(-λ₁, -λ₂) = p p₁ p₂ (-1)^(s₁+s₂-J) H(λ₁, λ₂)`, if and only if all LS couplings that
`filter_parity_violating_ls` removes are zero. -/
theorem C97_parity_filter (hcg : UsesClebschGordan ι) {parent : Obj} {c1 c2 : Node}
    (hne : c1.toParticle ≠ c2.toParticle) {J s1 s2 : ℚ} (hJ : parent.toP.spin = J)
    (h1 : c1.toParticle.toP.spin = s1) (h2 : c2.toParticle.toP.spin = s2)
    (hs : DecaySpins J s1 s2) {maxL : ℤ} (hmax : J + s1 + s2 ≤ maxL) {p p₁ p₂ : ℤ} (hp : p = 1 ∨ p = -1)
    (hp₁ : p₁ = 1 ∨ p₁ = -1) (hp₂ : p₂ = 1 ∨ p₂ = -1) {g : ℤ × ℚ → ℂ} {H : ℚ × ℚ → ℂ}
    (hH : ∀ h ∈ vertexHelicities J s1 s2,
      H h = ((generateLsCouplings J s1 s2 maxL).map fun x => g x * factorValue ι parent c1 c2 x h.1 h.2).sum) :
    (∀ h ∈ vertexHelicities J s1 s2, H (-h.1, -h.2) = vertexSign p p₁ p₂ J s1 s2 * H h) ↔
      ∀ x ∈ generateLsCouplings J s1 s2 maxL,
        x ∉ filterParityViolatingLs (generateLsCouplings J s1 s2 maxL) p p₁ p₂ → g x = 0 := by
  have hr : ∀ x (h : ℚ × ℚ), factorValue ι parent c1 c2 x (-h.1) (-h.2) =
      minusOnePow (x.1 + s1 + s2 - J) * factorValue ι parent c1 c2 x h.1 h.2 := by
    intro x h
    simp only [factorValue_eq parent hne, hJ, h1, h2]
    exact lsFactor_reflect hcg J s1 s2 ⟨x.1, x.2⟩ h.1 h.2
  constructor
  · intro hsym x hx hn
    have hv : ¬ VertexParity p p₁ p₂ x.1 := fun hv => hn (mem_parity_filter.2 ⟨hx, hv⟩)
    have hg := (C94_inverse hcg hne hJ h1 h2 hs hmax g H).1 hH x hx
    have e : g x = vertexSign p p₁ p₂ J s1 s2 * minusOnePow (x.1 + s1 + s2 - J) * g x := by
      conv_lhs => rw [hg, ← sum_vertexHelicities_neg hs]
      conv_rhs => rw [hg, Finset.mul_sum]
      refine Finset.sum_congr rfl fun h hh => ?_
      have := hsym h hh
      rw [Prod.fst_neg, Prod.snd_neg, hr, show -h = (-h.1, -h.2) from rfl, this]
      ring
    have s : vertexSign p p₁ p₂ J s1 s2 * minusOnePow (x.1 + s1 + s2 - J) = -1 := by
      unfold vertexSign
      rw [show (x.1 : ℚ) + s1 + s2 - J = x.1 + (s1 + s2 - J) by ring, minusOnePow_add, minusOnePow_sign,
        show ∀ a b c : ℂ, a * b * (c * b) = a * c * (b * b) by intros; ring, minusOnePow_square hs, mul_one]
      unfold VertexParity at hv
      norm_cast
      rcases hp with rfl | rfl <;> rcases hp₁ with rfl | rfl <;> rcases hp₂ with rfl | rfl <;>
        by_cases he : Even x.1 <;> simp only [he, if_true, if_false] at hv ⊢ <;> revert hv <;> decide
    rw [s] at e
    have : 2 * g x = 0 := by linear_combination e
    simpa using this
  · intro hg h hh
    have hh' := vertexHelicities_neg hs hh
    rw [show ((-h.1, -h.2) : ℚ × ℚ) = -h from rfl, hH _ hh', hH h hh, ← List.sum_map_mul_left]
    congr 1
    refine List.map_congr_left fun x hx => ?_
    by_cases hf : x ∈ filterParityViolatingLs (generateLsCouplings J s1 s2 maxL) p p₁ p₂
    · rw [Prod.fst_neg, Prod.snd_neg, hr,
        sign_of_vertex hp₁ hp₂ (mem_parity_filter.1 hf).2]
      ring
    · rw [hg x hx hf]
      simp

/-- C97: for given helicity couplings that conserve parity there are LS couplings for the couplings that
`filter_parity_violating_ls` keeps, and these are unique. -/
theorem C97_kept_couplings (hcg : UsesClebschGordan ι) {parent : Obj} {c1 c2 : Node}
    (hne : c1.toParticle ≠ c2.toParticle) {J s1 s2 : ℚ} (hJ : parent.toP.spin = J)
    (h1 : c1.toParticle.toP.spin = s1) (h2 : c2.toParticle.toP.spin = s2)
    (hs : DecaySpins J s1 s2) {maxL : ℤ} (hmax : J + s1 + s2 ≤ maxL) {p p₁ p₂ : ℤ} (hp : p = 1 ∨ p = -1)
    (hp₁ : p₁ = 1 ∨ p₁ = -1) (hp₂ : p₂ = 1 ∨ p₂ = -1) {H : ℚ × ℚ → ℂ}
    (hH : ∀ h ∈ vertexHelicities J s1 s2, H (-h.1, -h.2) = vertexSign p p₁ p₂ J s1 s2 * H h) :
    ∃ g : ℤ × ℚ → ℂ,
      (∀ h ∈ vertexHelicities J s1 s2,
        H h = ((filterParityViolatingLs (generateLsCouplings J s1 s2 maxL) p p₁ p₂).map fun x =>
          g x * factorValue ι parent c1 c2 x h.1 h.2).sum) ∧
      ∀ g' : ℤ × ℚ → ℂ,
        (∀ h ∈ vertexHelicities J s1 s2,
          H h = ((filterParityViolatingLs (generateLsCouplings J s1 s2 maxL) p p₁ p₂).map fun x =>
            g' x * factorValue ι parent c1 c2 x h.1 h.2).sum) →
        ∀ x ∈ filterParityViolatingLs (generateLsCouplings J s1 s2 maxL) p p₁ p₂, g' x = g x := by
  classical
  set all := generateLsCouplings J s1 s2 maxL with hall
  set kept := filterParityViolatingLs all p p₁ p₂ with hkept
  have hsub : kept = all.filter fun x => decide (x ∈ kept) := by
    rw [hkept]
    conv_lhs => unfold filterParityViolatingLs
    refine List.filter_congr fun x hx => ?_
    simp [filterParityViolatingLs, hx]
  have hsum : ∀ (g : ℤ × ℚ → ℂ) (h : ℚ × ℚ), (kept.map fun x => g x * factorValue ι parent c1 c2 x h.1 h.2).sum =
      (all.map fun x => (if x ∈ kept then g x else 0) * factorValue ι parent c1 c2 x h.1 h.2).sum := by
    intro g h
    conv_lhs => rw [hsub]
    generalize all = l
    induction l with
    | nil => rfl
    | cons y l ih =>
      by_cases hy : y ∈ kept
      · simp [hy, ih]
      · simp [hy, ih]
  refine ⟨fun x => ∑ h ∈ vertexHelicities J s1 s2, H h * factorValue ι parent c1 c2 x h.1 h.2, ?_, ?_⟩
  · have hg := (C94_inverse hcg hne hJ h1 h2 hs hmax
      (fun x => ∑ h ∈ vertexHelicities J s1 s2, H h * factorValue ι parent c1 c2 x h.1 h.2) H).2 fun _ _ => rfl
    have hz := (C97_parity_filter hcg hne hJ h1 h2 hs hmax hp hp₁ hp₂ hg).1 hH
    intro h hh
    rw [hsum, hg h hh]
    congr 1
    refine List.map_congr_left fun x hx => ?_
    by_cases hk : x ∈ kept
    · rw [if_pos hk]
    · rw [if_neg hk, hz x hx hk]
  · intro g' hg' x hx
    have := (C94_inverse hcg hne hJ h1 h2 hs hmax (fun x => if x ∈ kept then g' x else 0) H).1
      (fun h hh => by rw [hg' h hh, hsum]) x ((mem_parity_filter.1 hx).1)
    simpa [hx] using this

/-- Decay products of `Λ* → K p`. -/
theorem exKp : (Node.leaf (.state exChainL.product1)).toParticle ≠ (Node.leaf (.state exChainL.product2)).toParticle ∧
    DecaySpins (3 / 2) 0 (1 / 2) := by
  refine ⟨by simp [Node.toParticle, exChainL, exState], ⟨by norm_num, 3, by norm_num⟩, ⟨by norm_num, 0, by norm_num⟩,
    ⟨by norm_num, 1, by norm_num⟩, 2, by norm_num⟩

/-- For the decay of a `Λ*` with `J^P = 3/2^-` to `K p`, one of the two LS couplings conserves parity, and the helicity
couplings `H(λ) = 2λ` of a parity-conserving decay follow from one value of that coupling. -/
example : ∃ ι : Interp, UsesClebschGordan ι ∧
    generateLsCouplings (3 / 2) 0 (1 / 2) 2 = [(1, 1 / 2), (2, 1 / 2)] ∧
    filterParityViolatingLs (generateLsCouplings (3 / 2) 0 (1 / 2) 2) (-1) (-1) 1 = [(2, 1 / 2)] ∧
    ∃ g : ℂ, ∀ l ∈ [(1 / 2 : ℚ), -1 / 2], 2 * (l : ℂ) =
      g * factorValue ι exChainL.resonance (.leaf (.state exChainL.product1)) (.leaf (.state exChainL.product2))
        (2, 1 / 2) 0 l := by
  obtain ⟨ι, hι⟩ : ∃ ι : Interp, UsesClebschGordan ι :=
    ⟨{ sym := fun _ => 0
       idx := fun _ _ _ => 0
       wig := fun _ _ _ _ => 0
       cg := fun a b c d e f => (clebschGordan a b c d e f : ℂ)
       ff := fun _ _ _ _ _ => 0
       edw := fun _ _ _ _ _ _ _ _ => 0
       bmom := fun _ _ _ => 0 }, fun _ _ _ _ _ _ => rfl⟩
  have e : generateLsCouplings (3 / 2) 0 (1 / 2) 2 = [(1, 1 / 2), (2, 1 / 2)] := by
    refine List.Perm.eq_of_pairwise (le := fun x y => x.1 < y.1 ∨ (x.1 = y.1 ∧ x.2 < y.2)) ?_ (C04_ls_contents _ _ _ _).2
      (by simp) ((List.perm_ext_iff_of_nodup (Cg.ls_nodup _ _ _ _) (by simp)).2 ?_)
    · rintro x y _ _ (h | ⟨h, h'⟩) (k | ⟨k, k'⟩)
      · omega
      · omega
      · omega
      · exact absurd h' k'.not_gt
    · rintro ⟨L, S⟩
      rw [(C04_ls_contents _ _ _ _).1]
      simp only [List.mem_cons, Prod.mk.injEq, List.not_mem_nil, or_false, zero_sub, abs_neg]
      constructor
      · rintro ⟨h0, h1, ⟨n, rfl⟩, h3, h4, h5⟩
        rw [abs_of_pos (show (0 : ℚ) < 1 / 2 by norm_num)] at h3 h4 h5 ⊢
        have hn : n = 0 := by
          have : (n : ℚ) < 1 := by linarith
          have : n < 1 := by exact_mod_cast this
          omega
        subst hn
        have : 1 ≤ L := by
          have : (1 : ℚ) ≤ L := by push_cast at h5; linarith
          exact_mod_cast this
        norm_num
        omega
      · rintro (⟨rfl, rfl⟩ | ⟨rfl, rfl⟩)
        · exact ⟨by norm_num, by norm_num, ⟨0, by norm_num⟩, by norm_num, by norm_num, by norm_num⟩
        · exact ⟨by norm_num, by norm_num, ⟨0, by norm_num⟩, by norm_num, by norm_num, by norm_num⟩
  have e' : filterParityViolatingLs (generateLsCouplings (3 / 2) 0 (1 / 2) 2) (-1) (-1) 1 = [(2, 1 / 2)] := by
    rw [e]; simp [filterParityViolatingLs]
  have hv : vertexSign (-1) (-1) 1 (3 / 2) 0 (1 / 2) = -1 := by
    unfold vertexSign
    rw [show (0 + 1 / 2 - 3 / 2 : ℚ) = ((-1 : ℤ) : ℚ) by norm_num, minusOnePow_int]
    norm_num
  refine ⟨ι, hι, e, e', ?_⟩
  obtain ⟨g, hg, -⟩ := C97_kept_couplings (parent := exChainL.resonance) (J := 3 / 2) (s1 := 0) (s2 := 1 / 2) (maxL := 2)
    (p := -1) (p₁ := -1) (p₂ := 1) (H := fun h => 2 * (h.2 : ℂ)) hι exKp.1 rfl rfl rfl exKp.2 (by norm_num) (.inr rfl)
    (.inr rfl) (.inl rfl) (fun h _ => by rw [hv]; push_cast; ring)
  refine ⟨g (2, 1 / 2), fun l hl => ?_⟩
  have mem : ((0 : ℚ), l) ∈ vertexHelicities (3 / 2) 0 (1 / 2) := by
    classical
    unfold vertexHelicities
    rw [Finset.mem_filter, Finset.mem_product, mem_projections ⟨0, by norm_num⟩, mem_projections ⟨1, by norm_num⟩]
    simp only [List.mem_cons, List.not_mem_nil, or_false] at hl
    rcases hl with rfl | rfl
    · exact ⟨⟨⟨by norm_num, by norm_num, 0, by norm_num⟩, by norm_num, by norm_num, 0, by norm_num⟩, by norm_num,
        by norm_num, 2, by norm_num⟩
    · exact ⟨⟨⟨by norm_num, by norm_num, 0, by norm_num⟩, by norm_num, by norm_num, 1, by norm_num⟩, by norm_num,
        by norm_num, 1, by norm_num⟩
  have := hg (0, l) mem
  rw [e'] at this
  simpa using this

end Verif.ThreeBody
