import Verif.Spec.Parity
import Verif.Proofs.ClebschGordan
import Verif.Props.Superposition

/-! Reversed helicities (used for C93). -/
namespace Verif.ThreeBody
open Verif Verif.Spec Verif.Spin Verif.Angles

variable {b : Builder} {dyn : Chain → DefExpr} {reference : Option ℤ} {cl uc : Bool}
  {m : AmplitudeModel} {ι : Interp}

theorem minusOnePow_add (x y : ℚ) : minusOnePow (x + y) = minusOnePow x * minusOnePow y := by
  unfold minusOnePow
  rw [← Complex.exp_add]
  congr 1
  push_cast
  ring

theorem minusOnePow_int (n : ℤ) : minusOnePow n = (-1) ^ n := C29_phase_is_sign n

theorem minusOnePow_even (n : ℤ) : minusOnePow (2 * n) = 1 := by
  rw [show (2 * n : ℚ) = ((2 * n : ℤ) : ℚ) by push_cast; rfl, minusOnePow_int, zpow_mul]
  simp

theorem minusOnePow_sign (n : ℤ) : minusOnePow n = ((if Even n then 1 else -1 : ℤ) : ℂ) := by
  rw [minusOnePow_int]
  split
  · rename_i h; rw [h.neg_one_zpow]; simp
  · rename_i h; rw [(Int.not_even_iff_odd.1 h).neg_one_zpow]; simp

theorem cg_reflect (hcg : UsesClebschGordan ι) (j1 m1 j2 m2 J M : ℚ) :
    ι.cg j1 (-m1) j2 (-m2) J (-M) = minusOnePow (j1 + j2 - J) * ι.cg j1 m1 j2 m2 J M := by
  classical
  rw [hcg, hcg]
  by_cases h : clebschGordan j1 m1 j2 m2 J M = 0
  · rw [clebschGordan_neg, h]; simp
  · have hc : Triangle j1 j2 J := by
      by_contra hc
      exact h (if_neg fun h' => hc h'.2.2.2)
    obtain ⟨t, ht⟩ := hc.2.2
    have ht0 : 0 ≤ t := by
      have : (0 : ℚ) ≤ t := by rw [← ht]; linarith [hc.2.1]
      exact_mod_cast this
    obtain ⟨n, rfl⟩ := Int.eq_ofNat_of_zero_le ht0
    rw [clebschGordan_neg, ht, minusOnePow_int]
    simp

theorem lsFactor_reflect (hcg : UsesClebschGordan ι) (J s1 s2 : ℚ) (ls : LS) (h1 h2 : ℚ) :
    lsFactor ι J s1 s2 ls (-h1) (-h2) = minusOnePow (ls.L + s1 + s2 - J) * lsFactor ι J s1 s2 ls h1 h2 := by
  unfold lsFactor
  have e1 := cg_reflect hcg ls.L 0 ls.S (h1 - h2) J (h1 - h2)
  have e2 := cg_reflect hcg s1 h1 s2 (-h2) ls.S (h1 - h2)
  rw [show -(h1 - h2) = -h1 - -h2 by ring] at e1 e2
  rw [neg_zero] at e1
  rw [e1, e2, show (ls.L : ℚ) + s1 + s2 - J = (ls.L + ls.S - J) + (s1 + s2 - ls.S) by ring, minusOnePow_add]
  ring

theorem perm_three {p q k : ℤ} (hp : p ∈ ([1, 2, 3] : List ℤ)) (hq : q ∈ ([1, 2, 3] : List ℤ))
    (hk : k ∈ ([1, 2, 3] : List ℤ)) (h : [p, q, k].Nodup) {M : Type} [AddCommMonoid M] (f : ℤ → M) :
    f p + f q + f k = f 1 + f 2 + f 3 := by
  have hperm : [p, q, k].Perm [1, 2, 3] := by
    refine (List.subperm_of_subset h ?_).perm_of_length_le (by simp)
    intro x hx
    simp only [List.mem_cons, List.not_mem_nil, or_false] at hx
    rcases hx with rfl | rfl | rfl <;> assumption
  have := (hperm.map f).sum_eq
  simp only [List.map_cons, List.map_nil, List.sum_cons, List.sum_nil, add_zero] at this
  rw [add_assoc, this, add_assoc]

theorem prod_three {p q k : ℤ} (hp : p ∈ ([1, 2, 3] : List ℤ)) (hq : q ∈ ([1, 2, 3] : List ℤ))
    (hk : k ∈ ([1, 2, 3] : List ℤ)) (h : [p, q, k].Nodup) (f : ℤ → ℤ) :
    f p * f q * f k = f 1 * f 2 * f 3 := by
  have hperm : [p, q, k].Perm [1, 2, 3] := by
    refine (List.subperm_of_subset h ?_).perm_of_length_le (by simp)
    intro x hx
    simp only [List.mem_cons, List.not_mem_nil, or_false] at hx
    rcases hx with rfl | rfl | rfl <;> assumption
  have := (hperm.map f).prod_eq
  simp only [List.map_cons, List.map_nil, List.prod_cons, List.prod_nil, mul_one] at this
  rw [mul_assoc, this, mul_assoc]

theorem prodIds_nodup {k : ℤ} (hk : k ∈ ([1, 2, 3] : List ℤ)) : (prodIds k).1 ∈ ([1, 2, 3] : List ℤ) ∧
    (prodIds k).2 ∈ ([1, 2, 3] : List ℤ) ∧ [(prodIds k).1, (prodIds k).2, k].Nodup := by
  simp only [List.mem_cons, List.not_mem_nil, or_false] at hk
  rcases hk with rfl | rfl | rfl <;> decide

/-- The decay vertex only contributes if the difference of the helicities is a projection. -/
theorem lsFactor_projection (hcg : UsesClebschGordan ι) {J s1 s2 : ℚ} {ls : LS} {h1 h2 : ℚ}
    (h : ¬ Projection J (h1 - h2)) : lsFactor ι J s1 s2 ls h1 h2 = 0 := by
  unfold lsFactor
  rw [hcg ls.L 0 ls.S, clebschGordan, if_neg fun h' => h h'.2.1.2.2]
  simp

theorem sign_of_vertex {p p₁ p₂ L : ℤ} (h₁ : p₁ = 1 ∨ p₁ = -1) (h₂ : p₂ = 1 ∨ p₂ = -1)
    (h : VertexParity p p₁ p₂ L) (j s₁ s₂ : ℚ) :
    vertexSign p p₁ p₂ j s₁ s₂ = minusOnePow (L + s₁ + s₂ - j) := by
  unfold vertexSign
  rw [show (L : ℚ) + s₁ + s₂ - j = L + (s₁ + s₂ - j) by ring, minusOnePow_add, minusOnePow_sign, h]
  congr 2
  rcases h₁ with h₁ | h₁ <;> rcases h₂ with h₂ | h₂ <;> rw [h₁, h₂] <;> ring

theorem chainValue_reflect (hd : Standard b.decay)
    (hcg : UsesClebschGordan ι) (hw : ReflectsWigner ι) {P : ℤ → ℤ} {c : Chain} (hc : c ∈ b.decay.chains)
    (hP : ConservesParity ι b uc P c) (line : Chain → ℂ) {k : ℤ} (hk : c.spectator.index = k) {l : ℤ → ℚ}
    (hl : ∀ i ∈ ([0, 1, 2, 3] : List ℤ), Projection (b.decay.spin i) (l i)) :
    chainValue ι b uc line (prodIds k).1 (prodIds k).2 k (fun x => -l x) c =
      (P 0 * P 1 * P 2 * P 3 : ℤ) * minusOnePow ((l 0 - b.decay.spin 0) + (b.decay.spin 1 - l 1) +
        (b.decay.spin 2 - l 2) + (b.decay.spin 3 - l 3)) *
      chainValue ι b uc line (prodIds k).1 (prodIds k).2 k l c := by
  classical
  obtain ⟨r, ⟨hr, -, hs⟩, v1, v2, hint, hcou⟩ := hP
  obtain ⟨c0, cs, cn⟩ := Standard.chain hd hc
  have f1 := cs c.product1 (by simp)
  have f2 := cs c.product2 (by simp)
  have f3 := cs c.spectator (by simp)
  have a1 := (hs c.product1 (by simp)).2
  have a2 := (hs c.product2 (by simp)).2
  have a3 := (hs c.spectator (by simp)).2
  rw [hk] at f3 cn v1 hcou a3
  have e0 : c.parent.index = 0 := by rw [c0]; exact Standard.st_index hd (by simp)
  rw [e0] at v1 hcou
  have s0 : c.parent.spin = b.decay.spin 0 := by rw [c0]; rfl
  have s1 : c.product1.spin = b.decay.spin c.product1.index := congrArg (fun s : State => s.spin) f1.2
  have s2 : c.product2.spin = b.decay.spin c.product2.index := congrArg (fun s : State => s.spin) f2.2
  have s3 : c.spectator.spin = b.decay.spin k := congrArg (fun s : State => s.spin) f3.2
  have hR := hd.resonances c hc
  obtain ⟨g1, g2, gn⟩ := prodIds_nodup f3.1
  generalize (prodIds k).1 = i at *
  generalize (prodIds k).2 = j at *
  have sumS := (perm_three f1.1 f2.1 f3.1 cn b.decay.spin).trans (perm_three g1 g2 f3.1 gn b.decay.spin).symm
  have sumS' := perm_three g1 g2 f3.1 gn b.decay.spin
  have sumL := perm_three g1 g2 f3.1 gn l
  have hprod := prod_three f1.1 f2.1 f3.1 cn P
  have eR : -l 0 + -l k = -(l 0 + l k) := by ring
  have twice : ∀ x ∈ ([1, 2, 3] : List ℤ), ∃ n : ℤ, 2 * l x = n := by
    intro x hx
    obtain ⟨-, -, z, hz⟩ := hl x (mem0 hx)
    obtain ⟨t, ht⟩ := Standard.half hd (mem0 hx)
    exact ⟨t - 2 * z, by push_cast; linarith⟩
  have hpf : productionFactor ι b c (-(l 0 + l k)) (-l k) *
      (if b.useProdHel then vertexSign (P 0) r (P k) c.parent.spin c.resonance.toP.spin c.spectator.spin else 1) =
      vertexSign (P 0) r (P k) c.parent.spin c.resonance.toP.spin c.spectator.spin *
        productionFactor ι b c (l 0 + l k) (l k) := by
    unfold productionFactor
    cases hp : b.useProdHel with
    | true => simp
    | false =>
      obtain ⟨A, hA, vA⟩ := v1 hp
      rw [sign_of_vertex hr a3 vA, hA]
      simp only
      split
      · rw [lsFactor_reflect hcg]; simp
      · rw [lsFactor_reflect hcg, add_right_comm (A.L : ℚ)]; simp
  have hdf : decayFactor ι b c (fun x => -l x) *
      (if b.useDecHel then vertexSign r (P c.product1.index) (P c.product2.index)
        c.resonance.toP.spin c.product1.spin c.product2.spin else 1) =
      vertexSign r (P c.product1.index) (P c.product2.index)
        c.resonance.toP.spin c.product1.spin c.product2.spin * decayFactor ι b c l := by
    unfold decayFactor
    cases hq : b.useDecHel with
    | true => simp
    | false =>
      obtain ⟨B, hB, vB⟩ := v2 hq
      rw [sign_of_vertex a1 a2 vB, hB]
      simp only
      rw [lsFactor_reflect hcg]
      simp
  have hco := hcou (l 0 + l k) (l k) (l i) (l j)
  unfold chainValue
  simp only [eR]
  by_cases hproj : Projection c.resonance.toP.spin (l 0 + l k)
  swap
  · rw [if_neg hproj, if_neg fun h => hproj ((projection_neg hR).1 h), mul_zero]
  rw [if_pos hproj, if_pos ((projection_neg hR).2 hproj)]
  have hij : l c.product1.index - l c.product2.index = l i - l j ∨
      l c.product1.index - l c.product2.index = -(l i - l j) := by
    have h1 := f1.1
    have h2 := f2.1
    have h3 := f3.1
    simp only [List.mem_cons, List.not_mem_nil, or_false, List.nodup_cons, not_or, not_false_eq_true,
      List.nodup_nil, and_true] at h1 h2 h3 g1 g2 gn cn
    have : c.product1.index = i ∧ c.product2.index = j ∨ c.product1.index = j ∧ c.product2.index = i := by omega
    rcases this with ⟨e1, e2⟩ | ⟨e1, e2⟩ <;> rw [e1, e2]
    · exact .inl rfl
    · exact .inr (by ring)
  have hm : IsInteger (c.resonance.toP.spin - (l i - l j)) ∨
      decayFactor ι b c l = 0 ∧ decayFactor ι b c (fun x => -l x) = 0 := by
    cases hq : b.useDecHel with
    | true =>
      left
      obtain ⟨z, hz⟩ := hint hq
      obtain ⟨-, -, zi, hzi⟩ := hl i (mem0 g1)
      obtain ⟨-, -, zj, hzj⟩ := hl j (mem0 g2)
      obtain ⟨nj, hnj⟩ := twice j g2
      rw [s1, s2] at hz
      exact ⟨z + zi + zj + nj, by push_cast; linarith⟩
    | false =>
      obtain ⟨B, hB, vB⟩ := v2 hq
      by_cases hm : Projection c.resonance.toP.spin (l i - l j)
      · exact .inl hm.2.2
      · right
        have h0 : ¬ Projection c.resonance.toP.spin (l c.product1.index - l c.product2.index) := by
          rcases hij with hij | hij
          · rwa [hij]
          · rw [hij]; exact fun h => hm ((projection_neg hR).1 h)
        unfold decayFactor
        rw [hq, hB]
        refine ⟨lsFactor_projection hcg h0, lsFactor_projection hcg fun h => h0 ?_⟩
        rw [show -l c.product1.index - -l c.product2.index = -(l c.product1.index - l c.product2.index) by ring] at h
        exact (projection_neg hR).1 h
  rcases hm with hm | ⟨z1, z2⟩
  swap
  · rw [z1, z2]; simp
  have hwig := hw hR _ ((mem_projections hR _).2 hproj) _ hm (ι.sym ⟨"theta_" ++ toString i ++ toString j, .real⟩)
  rw [show -l i - -l j = -(l i - l j) by ring, hwig]
  obtain ⟨nk, hnk⟩ := twice k f3.1
  obtain ⟨nj, hnj⟩ := twice j g2
  rw [show b.decay.spin k - -l k = (b.decay.spin k - l k) + nk by linarith,
    show b.decay.spin j - -l j = (b.decay.spin j - l j) + nj by linarith, minusOnePow_add, minusOnePow_add, hco]
  have hsign : minusOnePow nk * minusOnePow nj * minusOnePow (l 0 + l k - (l i - l j)) *
      vertexSign r (P c.product1.index) (P c.product2.index)
        c.resonance.toP.spin c.product1.spin c.product2.spin *
      vertexSign (P 0) r (P k) c.parent.spin c.resonance.toP.spin c.spectator.spin =
      (P 0 * P 1 * P 2 * P 3 : ℤ) * minusOnePow ((l 0 - b.decay.spin 0) + (b.decay.spin 1 - l 1) +
        (b.decay.spin 2 - l 2) + (b.decay.spin 3 - l 3)) := by
    have hPP : P 0 * P 1 * P 2 * P 3 = (r * P c.product1.index * P c.product2.index) * (P 0 * r * P k) := by
      rw [show P 0 * P 1 * P 2 * P 3 = P 0 * (P 1 * P 2 * P 3) by ring, ← hprod]
      rcases hr with hr | hr <;> rw [hr] <;> ring
    unfold vertexSign
    rw [hPP, Int.cast_mul]
    have : minusOnePow nk * minusOnePow nj * minusOnePow (l 0 + l k - (l i - l j)) *
        minusOnePow (c.product1.spin + c.product2.spin - c.resonance.toP.spin) *
        minusOnePow (c.resonance.toP.spin + c.spectator.spin - c.parent.spin) =
        minusOnePow ((l 0 - b.decay.spin 0) + (b.decay.spin 1 - l 1) +
        (b.decay.spin 2 - l 2) + (b.decay.spin 3 - l 3)) := by
      simp only [← minusOnePow_add]
      rw [← mul_one (minusOnePow (_ + (b.decay.spin 3 - l 3))), ← minusOnePow_even (nk + nj), ← minusOnePow_add]
      congr 1
      push_cast
      rw [s0, s1, s2, s3]
      linarith
    rw [← this]
    push_cast
    ring
  rw [← hsign]
  linear_combination (minusOnePow (b.decay.spin k - l k) * minusOnePow nk * (minusOnePow (b.decay.spin j - l j) *
      minusOnePow nj) * line c * (minusOnePow (l 0 + l k - (l i - l j)) *
      ι.wig c.resonance.toP.spin (l 0 + l k) (l i - l j) (ι.sym ⟨"theta_" ++ toString i ++ toString j, .real⟩)) *
      couplings ι b c uc (l 0 + l k) (l k) (l i) (l j)) *
    (productionFactor ι b c (-(l 0 + l k)) (-l k) *
      (if b.useProdHel then vertexSign (P 0) r (P k) c.parent.spin c.resonance.toP.spin c.spectator.spin else 1) * hdf +
    vertexSign r (P c.product1.index) (P c.product2.index)
        c.resonance.toP.spin c.product1.spin c.product2.spin * decayFactor ι b c l * hpf)

theorem byId_neg (l : Fin 4 → ℚ) : byId (-l) = fun x => -byId l x := by
  funext x
  unfold byId
  split_ifs <;> rfl

theorem byId_projection (hd : Standard b.decay) {l : Fin 4 → ℚ} (hl : l ∈ helicities b.decay) :
    ∀ i ∈ ([0, 1, 2, 3] : List ℤ), Projection (b.decay.spin i) (byId l i) := by
  rw [mem_helicities hd] at hl
  intro i hi
  simp only [List.mem_cons, List.not_mem_nil, or_false] at hi
  rcases hi with rfl | rfl | rfl | rfl
  · exact hl 0
  · exact hl 1
  · exact hl 2
  · exact hl 3

theorem subsystemValue_reflect (hd : Standard b.decay) (hcg : UsesClebschGordan ι) (hw : ReflectsWigner ι) {P : ℤ → ℤ}
    (hP : ∀ c ∈ b.decay.chains, ConservesParity ι b uc P c) (line : Chain → ℂ) (k : ℤ) {l : Fin 4 → ℚ}
    (hl : l ∈ helicities b.decay) :
    subsystemValue ι b uc line k (-l) = paritySign b.decay P l * subsystemValue ι b uc line k l := by
  unfold subsystemValue
  rw [byId_neg, ← List.sum_map_mul_left]
  congr 1
  apply List.map_congr_left
  intro c hc
  obtain ⟨hc1, hc2⟩ := List.mem_filter.1 hc
  exact chainValue_reflect hd hcg hw hc1 (hP c hc1) line (by simpa using hc2) (byId_projection hd hl)

theorem rotation_reflect {d : Decay} (hd : Standard d) (hw : ReflectsWigner ι) (ref k : ℤ) (i : Fin 4) {x y : ℚ}
    (hx : x ∈ projections (d.spin i)) (hy : y ∈ projections (d.spin i)) :
    rotation ι d ref k i (-x) (-y) = minusOnePow (x - y) * rotation ι d ref k i x y := by
  unfold rotation
  split
  · rename_i h
    rw [h, projections_zero, Finset.mem_singleton] at hx hy
    rw [hx, hy, sub_zero, minusOnePow_zero, one_mul]
  · have hj := Standard.half hd (fin4_mem i)
    exact hw hj _ hx _ ((mem_projections hj _).1 hy).2.2 _

theorem neg_mem_projections {j x : ℚ} (hj : IsHalfInteger j) : -x ∈ projections j ↔ x ∈ projections j := by
  rw [mem_projections hj, mem_projections hj, projection_neg hj]

theorem neg_mem_helicities {d : Decay} (hd : Standard d) {l : Fin 4 → ℚ} : -l ∈ helicities d ↔ l ∈ helicities d := by
  rw [mem_helicities hd, mem_helicities hd]
  exact forall_congr' fun i => projection_neg (Standard.half hd (fin4_mem i))

/-- If all amplitudes get the sign of parity, so does the aligned amplitude. -/
theorem aligned_reflect {d : Decay} (hd : Standard d) (hw : ReflectsWigner ι) (ref : ℤ) {P : ℤ → ℤ}
    {A : ℤ → (Fin 4 → ℚ) → ℂ} (hA : ∀ k ∈ subsystems d, ∀ l ∈ helicities d, A k (-l) = paritySign d P l * A k l)
    {l : Fin 4 → ℚ} (hl : l ∈ helicities d) :
    aligned ι d ref A (-l) = paritySign d P l * aligned ι d ref A l := by
  have mem : ∀ {l}, l ∈ helicities d → ∀ i : Fin 4, l i ∈ projections (d.spin i) := by
    intro l hl i
    unfold helicities at hl
    rw [Fintype.mem_piFinset] at hl
    exact hl i
  unfold aligned
  rw [Finset.mul_sum]
  refine Finset.sum_equiv (Equiv.neg _) (fun x => ?_) (fun x hx => ?_)
  · rw [Equiv.neg_apply, neg_mem_helicities hd]
  · rw [Finset.mul_sum]
    apply Finset.sum_congr rfl
    intro k hk
    have hx' : -x ∈ helicities d := (neg_mem_helicities hd).2 hx
    rw [Equiv.neg_apply]
    have e : A k x = paritySign d P (-x) * A k (-x) := by
      have := hA k hk (-x) hx'
      rwa [neg_neg] at this
    have r : ∀ i : Fin 4, rotation ι d ref k i (-l i) (x i) = minusOnePow (l i - (-x) i) *
        rotation ι d ref k i (l i) ((-x) i) := by
      intro i
      have := rotation_reflect hd hw ref k i (mem hl i) (mem hx' i)
      rwa [show -((-x) i) = x i from neg_neg _] at this
    have r' : ∀ i : Fin 4, rotation ι d ref k i (x i) (-l i) = minusOnePow ((-x) i - l i) *
        rotation ι d ref k i ((-x) i) (l i) := by
      intro i
      have := rotation_reflect hd hw ref k i (mem hx' i) (mem hl i)
      rwa [show -((-x) i) = x i from neg_neg _] at this
    have s : paritySign d P l = paritySign d P (-x) * minusOnePow (l 0 - (-x) 0) * minusOnePow ((-x) 1 - l 1) *
        minusOnePow ((-x) 2 - l 2) * minusOnePow ((-x) 3 - l 3) := by
      unfold paritySign
      simp only [mul_assoc, ← minusOnePow_add]
      congr 2
      ring
    have hn : ∀ i, (-l) i = -l i := fun _ => rfl
    rw [hn, hn, hn, hn, r 0, r' 1, r' 2, r' 3, e, s]
    ring

theorem norm_minusOnePow (x : ℚ) : ‖minusOnePow x‖ = 1 := by
  unfold minusOnePow
  have : (Real.pi * Complex.I * (x : ℂ)) = ((Real.pi * x : ℝ) : ℂ) * Complex.I := by push_cast; ring
  rw [this, Complex.norm_exp_ofReal_mul_I]

theorem norm_paritySign (hd : Standard b.decay) {P : ℤ → ℤ} {c : Chain} (hc : c ∈ b.decay.chains)
    (hP : ConservesParity ι b uc P c) (l : Fin 4 → ℚ) : ‖paritySign b.decay P l‖ = 1 := by
  obtain ⟨r, ⟨hr, -, hs⟩, -⟩ := hP
  obtain ⟨c0, cs, cn⟩ := Standard.chain hd hc
  have e0 : c.parent.index = 0 := by rw [c0]; exact Standard.st_index hd (by simp)
  have a0 := (hs c.parent (by simp)).2
  have a1 := (hs c.product1 (by simp)).2
  have a2 := (hs c.product2 (by simp)).2
  have a3 := (hs c.spectator (by simp)).2
  rw [e0] at a0
  have hprod := prod_three (cs c.product1 (by simp)).1 (cs c.product2 (by simp)).1 (cs c.spectator (by simp)).1 cn P
  have h : P 0 * P 1 * P 2 * P 3 = 1 ∨ P 0 * P 1 * P 2 * P 3 = -1 := by
    rw [show P 0 * P 1 * P 2 * P 3 = P 0 * (P 1 * P 2 * P 3) by ring, ← hprod]
    rcases a0 with a0 | a0 <;> rcases a1 with a1 | a1 <;> rcases a2 with a2 | a2 <;> rcases a3 with a3 | a3 <;>
      rw [a0, a1, a2, a3] <;> simp
  unfold paritySign
  rw [norm_mul, norm_minusOnePow, mul_one]
  rcases h with h | h <;> rw [h] <;> simp

end Verif.ThreeBody
