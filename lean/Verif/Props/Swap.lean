import Verif.Proofs.Swap
import Verif.Proofs.WignerMirror
import Verif.Proofs.Parity
import Verif.Props.Relabel
import Verif.Props.Parity
import Verif.Props.Projection

/-! Property C110: the numbering of the final states, exchange of two IDs. -/
namespace Verif.ThreeBody
open Verif Verif.Spec Verif.Spin Verif.Angles

variable {b b' : Builder} {dyn dyn' : Chain → DefExpr} {cl cl' uc : Bool} {r : ℤ}
  {m m' : AmplitudeModel} {ι ι' : Interp} {ρ ρ' : Sym → ℝ}

/-- C110: if the IDs 1 and 2 are exchanged, with the masses and Mandelstam variables, then all alignment angles change
their sign and the helicity angles of the decay products become their supplement. -/
theorem C110_angles (hm : ∀ i ∈ ([0, 1, 2, 3] : List ℤ),
      ρ' ⟨"m" ++ toString (swp i), .nonneg⟩ = ρ ⟨"m" ++ toString i, .nonneg⟩)
    (hs : ∀ i ∈ ([1, 2, 3] : List ℤ),
      ρ' ⟨"sigma" ++ toString (swp i), .nonneg⟩ = ρ ⟨"sigma" ++ toString i, .nonneg⟩) :
    (∀ i ∈ ([0, 1, 2, 3] : List ℤ), ∀ k ∈ ([1, 2, 3] : List ℤ), ∀ r ∈ ([1, 2, 3] : List ℤ), ∃ s e s' e',
      formulateZetaAngle i k r = .ok (s, e) ∧ formulateZetaAngle (swp i) (swp k) (swp r) = .ok (s', e') ∧
      e'.eval ρ' = (e.eval ρ).map fun ζ => -ζ) ∧
    (SumRule ρ → ∀ i j k, EvenPerm i j k → ∃ s e s' e', formulateScatteringAngle i j = .ok (s, e) ∧
      formulateScatteringAngle (swp j) (swp i) = .ok (s', e') ∧ e'.eval ρ' = (e.eval ρ).map fun θ => Real.pi - θ) := by
  have h : SwappedValues ρ ρ' := ⟨hm, hs⟩
  constructor
  · intro i hi k hk r hr
    refine ⟨_, _, _, _, zeta_eq hi hk hr, zeta_eq ?_ (swp_mem.2 hk) (swp_mem.2 hr), zeta_swap h hi hk hr⟩
    simp only [List.mem_cons, List.not_mem_nil, or_false] at hi
    rcases hi with rfl | rfl | rfl | rfl <;> decide
  · intro hsum i j k hp
    have hk : k ∈ ([1, 2, 3] : List ℤ) := by
      rcases hp with h | h | h <;> injection h with _ h <;> injection h with _ h <;> rw [h] <;> decide
    have hij : (i, j) = prodIds k := by
      rcases hp with h | h | h <;> injection h with h1 h <;> injection h with h2 h3 <;> rw [h1, h2, h3] <;> decide
    have h1 := theta_eq hk
    have h2 := theta_eq (swp_mem.2 hk)
    rw [prodIds_swap hk, ← hij] at h2
    rw [← hij] at h1
    exact ⟨_, _, _, _, h1, h2, theta_swap h hsum hk⟩

open Classical in
/-- C110: the actual Wigner d-functions have the required symmetries. -/
theorem C110_wigner (hι : ∀ j m m' z, ι.wig j m m' z =
    if Projection j m' then (Wigner.wignerD j m m' z.re : ℂ) else 0) : MirrorsWigner ι := by
  constructor
  · intro j hj x hx y hy z
    rw [hι, hι, if_pos ((mem_projections hj y).1 hy), if_pos ((mem_projections hj y).1 hy)]
    obtain ⟨-, -, a, ha⟩ := (mem_projections hj x).1 hx
    obtain ⟨-, -, b, hb⟩ := (mem_projections hj y).1 hy
    have e : x - y = ((b - a : ℤ) : ℚ) := by push_cast; linarith
    rw [Complex.ofReal_re, Complex.ofReal_re, Wigner.wignerD_mirror hj hx hy e, e, minusOnePow_int]
    push_cast
    rfl
  · intro j hj x hx y hy z
    rw [hι, hι]
    by_cases hp : Projection j y
    swap
    · rw [if_neg hp, if_neg fun h => hp ((projection_neg hj).1 h), mul_zero]
    obtain ⟨-, -, a, ha⟩ := (mem_projections hj x).1 hx
    obtain ⟨t, ht⟩ := hj
    have e : j + x = ((t - a : ℤ) : ℚ) := by push_cast; linarith
    have hj : IsHalfInteger j := ⟨t, ht⟩
    rw [if_pos hp, if_pos ((projection_neg hj).2 hp), Complex.ofReal_re, Complex.ofReal_re,
      Wigner.wignerD_supplement hj hx ((mem_projections hj y).2 hp) e, e, minusOnePow_int]
    push_cast
    rfl

/-- The exchange of the IDs as a permutation. -/
def swpF : Equiv.Perm (Fin 4) := ⟨![0, 2, 1, 3], ![0, 2, 1, 3], by decide, by decide⟩

theorem swpF_cast (i : Fin 4) : ((swpF i : Fin 4) : ℤ) = swp (i : ℤ) := by
  fin_cases i <;> decide

theorem swapped_values (h : SwappedPoint ι ι') : SwappedValues (fun s => (ι.sym s).re) fun s => (ι'.sym s).re :=
  ⟨fun i hi => congrArg Complex.re (h.masses i hi), fun i hi => congrArg Complex.re (h.mandelstam i hi)⟩

/-- Helicities of the renumbered states. -/
def swapHel (l : Fin 4 → ℚ) : Fin 4 → ℚ := fun i => l (swpF.symm i)

theorem byId_swap (l : Fin 4 → ℚ) {x : ℤ} (hx : x ∈ ([0, 1, 2, 3] : List ℤ)) :
    byId (swapHel l) (swp x) = byId l x := by
  simp only [List.mem_cons, List.not_mem_nil, or_false] at hx
  rcases hx with rfl | rfl | rfl | rfl <;> rfl

theorem swapHel_mem {d : Decay} (l : Fin 4 → ℚ) :
    swapHel l ∈ helicities (swapDecay d) ↔ l ∈ helicities d := by
  unfold helicities
  rw [Fintype.mem_piFinset, Fintype.mem_piFinset]
  constructor
  · intro h i
    have := h (swpF i)
    rw [swpF_cast, spin_swap] at this
    simpa [swapHel] using this
  · intro h i
    obtain ⟨i, rfl⟩ := swpF.surjective i
    rw [swpF_cast, spin_swap]
    simpa [swapHel] using h i

theorem sum_helicities_swap {M : Type} [AddCommMonoid M] (d : Decay) (F : (Fin 4 → ℚ) → M) :
    ∑ l ∈ helicities (swapDecay d), F l = ∑ l ∈ helicities d, F (swapHel l) := by
  symm
  refine Finset.sum_nbij' swapHel (fun l i => l (swpF i)) ?_ ?_ ?_ ?_ ?_
  · exact fun l hl => (swapHel_mem l).2 hl
  · intro l hl
    refine (swapHel_mem _).1 ?_
    have : swapHel (fun i => l (swpF i)) = l := by funext i; simp [swapHel]
    rwa [this]
  · intro l _; funext i; simp [swapHel]
  · intro l _; funext i; simp [swapHel]
  · intro l _; rfl

theorem sum_subsystems_swap {M : Type} [AddCommMonoid M] (d : Decay) (F : ℤ → M) :
    ∑ k ∈ subsystems (swapDecay d), F k = ∑ k ∈ subsystems d, F (swp k) := by
  have : subsystems (swapDecay d) = (subsystems d).image swp := by
    ext k
    simp only [subsystems, swapDecay, List.map_map, List.mem_toFinset, List.mem_map, Function.comp_apply,
      Finset.mem_image]
    constructor
    · rintro ⟨c, hc, rfl⟩
      exact ⟨_, ⟨c, hc, rfl⟩, rfl⟩
    · rintro ⟨_, ⟨c, hc, rfl⟩, rfl⟩
      exact ⟨c, hc, rfl⟩
  rw [this, Finset.sum_image (fun a _ b _ h => swp_inj h)]

/-- The sign of the amplitudes with helicities `l` under the exchange. -/
noncomputable def helSign (d : Decay) (l : Fin 4 → ℚ) : ℂ :=
  minusOnePow ((d.spin 0 - l 0) + (d.spin 1 - l 1) + (d.spin 2 - l 2) + (d.spin 3 - l 3))

theorem rotation_swap {d : Decay} (hd : Standard d) (ht : SwappedPoint ι ι') (hw : MirrorsWigner ι) {r k : ℤ} {i : Fin 4}
    (hz : d.spin i ≠ 0 → ∃ v : ℝ, ι.sym (zetaSymbol i k r) = (v : ℂ) ∧
      ι'.sym (zetaSymbol (swp i) (swp k) (swp r)) = ((-v : ℝ) : ℂ)) {a a' : ℚ}
    (ha : a ∈ projections (d.spin i)) (ha' : a' ∈ projections (d.spin i)) :
    rotation ι' (swapDecay d) (swp r) (swp k) (swpF i) a a' = minusOnePow (a - a') * rotation ι d r k i a a' := by
  unfold rotation
  rw [swpF_cast, spin_swap]
  split_ifs with h
  · rw [h, projections_zero, Finset.mem_singleton] at ha ha'
    rw [ha, ha', sub_zero, minusOnePow_zero, one_mul]
  · obtain ⟨v, h1, h2⟩ := hz h
    rw [h1, h2, ← ht.functions.wig, hw.neg (Standard.half hd (fin4_mem i)) a ha a' ha' v]

theorem intensity_swap {d : Decay} (hd : Standard d) (ht : SwappedPoint ι ι') (hw : MirrorsWigner ι) {r : ℤ}
    {A A' : ℤ → (Fin 4 → ℚ) → ℂ} {ε : ℂ} (hε : ‖ε‖ = 1)
    (hz : ∀ k ∈ subsystems d, ∀ i : Fin 4, d.spin i ≠ 0 → ∃ v : ℝ, ι.sym (zetaSymbol i k r) = (v : ℂ) ∧
      ι'.sym (zetaSymbol (swp i) (swp k) (swp r)) = ((-v : ℝ) : ℂ))
    (hA : ∀ k ∈ subsystems d, ∀ l ∈ helicities d, A' (swp k) (swapHel l) = ε * helSign d l * A k l) :
    Spec.intensity ι' (swapDecay d) (swp r) A' = Spec.intensity ι d r A := by
  have mem : ∀ {l}, l ∈ helicities d → ∀ i : Fin 4, l i ∈ projections (d.spin i) := by
    intro l hl i
    unfold helicities at hl
    rw [Fintype.mem_piFinset] at hl
    exact hl i
  unfold Spec.intensity
  rw [sum_helicities_swap]
  refine Finset.sum_congr rfl fun l hl => ?_
  have : aligned ι' (swapDecay d) (swp r) A' (swapHel l) = ε * helSign d l * aligned ι d r A l := by
    unfold aligned
    rw [sum_helicities_swap, Finset.mul_sum]
    refine Finset.sum_congr rfl fun l' hl' => ?_
    rw [sum_subsystems_swap, Finset.mul_sum]
    refine Finset.sum_congr rfl fun k hk => ?_
    have R := fun (i : Fin 4) => rotation_swap (r := r) (k := k) (i := i) hd ht hw (hz k hk i) (mem hl i) (mem hl' i)
    have R' := fun (i : Fin 4) => rotation_swap (r := r) (k := k) (i := i) hd ht hw (hz k hk i) (mem hl' i) (mem hl i)
    have R0 := R 0
    have R1 := R' 1
    have R2 := R' 2
    have R3 := R' 3
    rw [show swpF 0 = 0 from rfl] at R0
    rw [show swpF 1 = 2 from rfl] at R1
    rw [show swpF 2 = 1 from rfl] at R2
    rw [show swpF 3 = 3 from rfl] at R3
    have hsign : helSign d l' * (minusOnePow (l 0 - l' 0) * minusOnePow (l' 1 - l 1) * minusOnePow (l' 2 - l 2) *
        minusOnePow (l' 3 - l 3)) = helSign d l := by
      unfold helSign
      simp only [← minusOnePow_add]
      obtain ⟨-, -, z, hz⟩ := (mem_projections (Standard.half hd (fin4_mem 0)) _).1 (mem hl 0)
      obtain ⟨-, -, z', hz'⟩ := (mem_projections (Standard.half hd (fin4_mem 0)) _).1 (mem hl' 0)
      have hz : d.spin 0 - l 0 = z := hz
      have hz' : d.spin 0 - l' 0 = z' := hz'
      rw [← mul_one (minusOnePow (d.spin 0 - l 0 + _ + _ + _)), ← minusOnePow_even (z' - z), ← minusOnePow_add]
      congr 1
      push_cast
      linarith
    rw [hA k hk l' hl', ← hsign]
    rw [show swapHel l 0 = l 0 from rfl, show swapHel l 1 = l 2 from rfl,
      show swapHel l 2 = l 1 from rfl, show swapHel l 3 = l 3 from rfl,
      show swapHel l' 0 = l' 0 from rfl, show swapHel l' 1 = l' 2 from rfl,
      show swapHel l' 2 = l' 1 from rfl, show swapHel l' 3 = l' 3 from rfl, R0, R1, R2, R3]
    ring
  rw [this, norm_mul, norm_mul]
  unfold helSign
  rw [norm_minusOnePow, hε, one_mul, one_mul]

theorem first_swap (c : Chain) (hc : Chain.new c.decay = .ok c) :
    ResonanceFirst (swapChain c) ↔ ResonanceFirst c := by
  obtain ⟨p0, R, c1, c2, s, inc, out, hn⟩ := chain_shape_of_ok hc
  unfold ResonanceFirst
  rcases hn with hn | hn
  · refine iff_of_true ⟨swapObj p0, swapObj R, swapNode c1, swapNode c2, out,
      .leaf (.state (swapState s)), inc, ?_⟩ ⟨_, _, _, _, _, _, _, hn⟩
    show swapNode c.decay = _
    rw [hn]
    rfl
  · refine iff_of_false ?_ ?_
    · rintro ⟨p, r, a1, a2, x, n, y, h⟩
      have h : swapNode c.decay = _ := h
      rw [hn] at h
      cases h
    · rintro ⟨p, r, a1, a2, x, n, y, h⟩
      rw [hn] at h
      cases h

theorem chainValue_swap (hd : Standard b.decay) (hb : b'.decay = swapDecay b.decay) (hp : b'.useProdHel = b.useProdHel)
    (hq : b'.useDecHel = b.useDecHel) (ht : SwappedPoint ι ι') (hw : MirrorsWigner ι) {c : Chain}
    (hc : c ∈ b.decay.chains) (hint : IsInteger (c.resonance.toP.spin - c.product1.spin - c.product2.spin))
    {ε : ℂ} (hcou : ∀ lR lk li lj, couplings ι' b' (swapChain c) uc lR lk lj li = ε * swapSign c * couplings ι b c uc lR lk li lj)
    {line line' : Chain → ℂ} (hline : line' (swapChain c) = line c) {k : ℤ} (hk : c.spectator.index = k)
    {l : Fin 4 → ℚ} (hl : l ∈ helicities b.decay) {v : ℝ}
    (hv : ι.sym (thetaSym (prodIds k).1 (prodIds k).2) = (v : ℂ))
    (hv' : ι'.sym (thetaSym (swp (prodIds k).2) (swp (prodIds k).1)) = ((Real.pi - v : ℝ) : ℂ)) :
    chainValue ι' b' uc line' (swp (prodIds k).2) (swp (prodIds k).1) (swp k) (byId (swapHel l)) (swapChain c) =
      ε * helSign b.decay l * chainValue ι b uc line (prodIds k).1 (prodIds k).2 k (byId l) c := by
  have hl4 := byId_projection hd hl
  obtain ⟨c0, cs, cn⟩ := Standard.chain hd hc
  have f1 := cs c.product1 (by simp)
  have f2 := cs c.product2 (by simp)
  have f3 := cs c.spectator (by simp)
  rw [hk] at f3 cn
  have s0 : c.parent.spin = b.decay.spin 0 := by rw [c0]; rfl
  have s1 : c.product1.spin = b.decay.spin c.product1.index := congrArg (fun s : State => s.spin) f1.2
  have s2 : c.product2.spin = b.decay.spin c.product2.index := congrArg (fun s : State => s.spin) f2.2
  have s3 : c.spectator.spin = b.decay.spin k := congrArg (fun s : State => s.spin) f3.2
  have hR := hd.resonances c hc
  obtain ⟨g1, g2, gn⟩ := prodIds_nodup f3.1
  generalize (prodIds k).1 = i at *
  generalize (prodIds k).2 = j at *
  have hl0 : byId l 0 = l 0 := rfl
  have sumL := perm_three g1 g2 f3.1 gn (byId l)
  have sumS' := perm_three g1 g2 f3.1 gn b.decay.spin
  have sumS := (perm_three f1.1 f2.1 f3.1 cn b.decay.spin).trans sumS'.symm
  have L0 : byId (swapHel l) 0 = byId l 0 := byId_swap l (x := 0) (by simp)
  have Lk := byId_swap l (mem0 f3.1)
  have Li := byId_swap l (mem0 g1)
  have Lj := byId_swap l (mem0 g2)
  have L1 := byId_swap l (mem0 f1.1)
  have L2 := byId_swap l (mem0 f2.1)
  unfold chainValue
  rw [hb]
  rw [L0, Lk, Li, Lj, spin_swap, spin_swap, hline]
  rw [show (swapChain c).resonance = swapObj c.resonance from rfl, swapObj_toP]
  by_cases hproj : Projection c.resonance.toP.spin (byId l 0 + byId l k)
  swap
  · rw [if_neg hproj, if_neg hproj, mul_zero]
  rw [if_pos hproj, if_pos hproj]
  have hθ : ι.sym ⟨"theta_" ++ toString i ++ toString j, .real⟩ = (v : ℂ) := hv
  have hθ' : ι'.sym ⟨"theta_" ++ toString (swp j) ++ toString (swp i), .real⟩ = ((Real.pi - v : ℝ) : ℂ) := hv'
  rw [hθ, hθ', ← ht.functions.wig]
  obtain ⟨-, -, zi, hzi⟩ := hl4 i (mem0 g1)
  obtain ⟨-, -, zj, hzj⟩ := hl4 j (mem0 g2)
  obtain ⟨-, -, zk, hzk⟩ := hl4 k (mem0 f3.1)
  obtain ⟨-, -, z0, hz0⟩ := hl4 0 (by simp)
  obtain ⟨ti, hti⟩ := Standard.half hd (mem0 g1)
  obtain ⟨tj, htj⟩ := Standard.half hd (mem0 g2)
  obtain ⟨tk, htk⟩ := Standard.half hd (mem0 f3.1)
  obtain ⟨t0, ht0⟩ := Standard.half hd (i := 0) (by simp)
  have hm : IsInteger (c.resonance.toP.spin - (byId l i - byId l j)) := by
    obtain ⟨z, hz⟩ := hint
    rw [s1, s2] at hz
    refine ⟨z + zi - zj + tj, ?_⟩
    push_cast
    linarith
  have hwig := hw.supplement hR _ ((mem_projections hR _).2 hproj) _ hm v
  rw [neg_sub] at hwig
  rw [hwig, hcou]
  have f2' : decayFactor ι' b' (swapChain c) (byId (swapHel l)) = decayFactor ι b c (byId l) := by
    unfold decayFactor lsFactor
    rw [show (swapChain c).resonance = swapObj c.resonance from rfl, swapObj_toP, hq,
      ← ht.functions.cg, show (swapChain c).product1.index = swp c.product1.index from rfl,
      show (swapChain c).product2.index = swp c.product2.index from rfl, L1, L2]
    rfl
  have f3' : ∀ x y, productionFactor ι' b' (swapChain c) x y = productionFactor ι b c x y := by
    intro x y
    unfold productionFactor lsFactor
    rw [show (swapChain c).resonance = swapObj c.resonance from rfl, swapObj_toP, hp,
      ← ht.functions.cg]
    rw [show (swapChain c).incomingLs = c.incomingLs from rfl]
    cases b.useProdHel with
    | true => rfl
    | false =>
      cases c.incomingLs with
      | none => rfl
      | some ls =>
        have hiff := first_swap c (hd.valid.2 c hc)
        dsimp only
        by_cases hR : ResonanceFirst c
        · rw [if_pos hR, if_pos (hiff.2 hR)]
          rfl
        · rw [if_neg hR, if_neg fun e => hR (hiff.1 e)]
          rfl
  rw [f2', f3']
  have hsign : minusOnePow (b.decay.spin i - byId l i) * minusOnePow (c.resonance.toP.spin + (byId l 0 + byId l k)) *
      swapSign c = helSign b.decay l * minusOnePow (b.decay.spin j - byId l j) := by
    obtain ⟨-, -, zR, hzR⟩ := hproj
    unfold swapSign helSign
    simp only [← minusOnePow_add]
    rw [← mul_one (minusOnePow (_ + (b.decay.spin j - byId l j))),
      ← minusOnePow_even (zR + t0 + tk - 2 * z0 - 2 * zk - zj), ← minusOnePow_add]
    congr 1
    have e1 : byId l 1 = l 1 := rfl
    have e2 : byId l 2 = l 2 := rfl
    have e3 : byId l 3 = l 3 := rfl
    push_cast
    rw [s0, s3]
    rw [e1, e2, e3] at sumL
    rw [hl0] at *
    linarith
  linear_combination (ε * minusOnePow (b.decay.spin k - byId l k) * line c *
    ι.wig c.resonance.toP.spin (byId l 0 + byId l k) (byId l i - byId l j) (v : ℂ) *
    couplings ι b c uc (byId l 0 + byId l k) (byId l k) (byId l i) (byId l j) *
    decayFactor ι b c (byId l) * productionFactor ι b c (byId l 0 + byId l k) (byId l k)) * hsign

/-- C110: exchanging the IDs 1 and 2 does not change the intensity, if the couplings of each chain get the sign
`(-1)^(J + s₀ + s_k)`, up to a phase `ε` that is the same for all chains, and the two helicities of a decay coupling
are exchanged. The renumbered decay is formulated for
the renumbered reference subsystem and evaluated at the same kinematic point, with masses and Mandelstam variables
renumbered. -/
theorem C110_exchange (hd : Standard b.decay) (hdyn : Lineshapes b dyn) (hdyn' : Lineshapes b' dyn')
    (hb : b'.decay = swapDecay b.decay) (hp : b'.useProdHel = b.useProdHel) (hq : b'.useDecHel = b.useDecHel)
    (hr : RefOk (some r)) (h : b.formulate (some r) cl uc = .ok m)
    (h' : b'.formulate (some (swp r)) cl' uc = .ok m')
    (hfree : ∀ c ∈ b.decay.chains, HelicityFree (dyn c).expression)
    (hfree' : ∀ c ∈ b'.decay.chains, HelicityFree (dyn' c).expression)
    (hres : b.useProdHel = false → ∀ c ∈ b.decay.chains, c.resonance ≠ .state c.spectator)
    (hint : ∀ c ∈ b.decay.chains, IsInteger (c.resonance.toP.spin - c.product1.spin - c.product2.spin))
    (ht : SwappedPoint ι ι') (hw : MirrorsWigner ι) (hsum : SumRule fun s => (ι.sym s).re)
    {ε : ℂ} (hε : ‖ε‖ = 1) (hcou : ∀ c ∈ b.decay.chains, ∀ lR lk li lj,
      couplings ι' b' (swapChain c) uc lR lk lj li = ε * swapSign c * couplings ι b c uc lR lk li lj)
    (ha : ∀ x ∈ m.angleDefs, Computes ι x) (ha' : ∀ x ∈ m'.angleDefs, Computes ι' x) {η : Sym → ℚ}
    (hline : ∀ c ∈ b.decay.chains,
      (dyn' (swapChain c)).expression.eval ι' η = (dyn c).expression.eval ι η) :
    m'.fullExpression.eval ι' η = m.fullExpression.eval ι η := by
  have hd' : Standard b'.decay := by rw [hb]; exact standard_swap hd
  have hr3 : r ∈ ([1, 2, 3] : List ℤ) := by simpa using hr r rfl
  have hr' : RefOk (some (swp r)) := by
    intro x hx
    injection hx with hx
    have := swp_mem.2 hr3
    rw [hx] at this
    simpa using this
  have hres' : b'.useProdHel = false → ∀ c ∈ b'.decay.chains, c.resonance ≠ .state c.spectator := by
    intro h1 c' hc'
    rw [hb] at hc'
    obtain ⟨c, hc, rfl⟩ := List.mem_map.1 hc'
    intro e
    exact hres (hp ▸ h1) c hc (swapObj_inj e)
  obtain ⟨ref, hu, e1⟩ := full_value hd hdyn hr h hfree hres η
  obtain ⟨ref', hu', e2⟩ := full_value hd' hdyn' hr' h' hfree' hres' η
  have hu : r = ref := hu
  have hu' : swp r = ref' := hu'
  subst hu hu'
  rw [e1, e2, hb]
  have hk3 : ∀ {k}, k ∈ subsystems b.decay → k ∈ ([1, 2, 3] : List ℤ) := fun hk =>
    Standard.subsystem hd ((mem_subsystems _ _).1 hk)
  have hk' : ∀ {k}, k ∈ subsystems b.decay → swp k ∈ b'.decay.subsystemIds := by
    intro k hk
    obtain ⟨c, hc, rfl⟩ := List.mem_map.1 (List.mem_toFinset.1 hk)
    rw [hb]
    exact ((C18_partition (valid_swap hd.valid)).1 _).2 ⟨swapChain c, List.mem_map.2 ⟨c, hc, rfl⟩, rfl⟩
  obtain ⟨ref1, P, hu1, -, -, rfl, -⟩ := formulate_inv hd hdyn hr h
  obtain ⟨ref2, P', hu2, -, -, rfl, -⟩ := formulate_inv hd' hdyn' hr' h'
  have hu1 : r = ref1 := hu1
  have hu2 : swp r = ref2 := hu2
  subst hu1 hu2
  refine congrArg _ (intensity_swap hd ht hw hε ?_ ?_)
  · intro k hk i hi
    have hi4 : (i : ℤ) ∈ ([0, 1, 2, 3] : List ℤ) := by fin_cases i <;> decide
    have hci : swp (i : ℤ) ∈ ([0, 1, 2, 3] : List ℤ) := by fin_cases i <;> decide
    obtain ⟨v, g1, g2⟩ := ha _ (PyDict.mem_of_get? (angle_get?_zeta (dyn := dyn) (cl := cl) (uc := uc) (P := P) hd
      hr3 hi4 ((mem_subsystems _ _).1 hk) (by rw [spins_eq _ hi4]; exact hi)))
    obtain ⟨v', g1', g2'⟩ := ha' _ (PyDict.mem_of_get? (angle_get?_zeta (dyn := dyn') (cl := cl') (uc := uc) (P := P')
      hd' (swp_mem.2 hr3) hci (hk' hk) (by
        rw [spins_eq _ hci, hb, spin_swap]
        exact hi)))
    have := zeta_swap (swapped_values ht) hi4 (hk3 hk) hr3
    rw [g1, g1'] at this
    injection this with this
    refine ⟨v, g2, ?_⟩
    rw [← this]
    exact g2'
  · intro k hk l hl
    have h3 := hk3 hk
    have hl' : swapHel l ∈ helicities b'.decay := by rw [hb]; exact (swapHel_mem l).2 hl
    obtain ⟨v, g1, g2⟩ := ha _ (PyDict.mem_of_get? (angle_get?_theta (dyn := dyn) (ref := r) (cl := cl) (uc := uc)
      (P := P) hd (subsystemIds_subset hd ((mem_subsystems _ _).1 hk)) (helicities_tuple hd hl)))
    obtain ⟨v', g1', g2'⟩ := ha' _ (PyDict.mem_of_get? (angle_get?_theta (dyn := dyn') (ref := swp r) (cl := cl')
      (uc := uc) (P := P') hd' (subsystemIds_subset hd' (hk' hk)) (helicities_tuple hd' hl')))
    rw [prodIds_swap h3] at g2'
    have hth := theta_swap (swapped_values ht) hsum h3
    rw [g1, g1'] at hth
    injection hth with hth
    rw [hth] at g2'
    unfold subsystemValue
    rw [hb, show (swapDecay b.decay).chains = b.decay.chains.map swapChain from rfl, List.filter_map,
      List.map_map]
    have hf : (b.decay.chains.filter ((fun c => decide (c.spectator.index = swp k)) ∘ swapChain)) =
        b.decay.chains.filter fun c => decide (c.spectator.index = k) := by
      refine List.filter_congr fun c _ => ?_
      have : swp c.spectator.index = swp k ↔ c.spectator.index = k := ⟨fun e => swp_inj e, fun e => congrArg _ e⟩
      exact decide_eq_decide.2 this
    rw [hf, ← List.sum_map_mul_left]
    refine congrArg List.sum (List.map_congr_left fun c hc => ?_)
    obtain ⟨hc, hck⟩ := List.mem_filter.1 hc
    rw [Function.comp_apply, prodIds_swap h3]
    exact chainValue_swap hd hb hp hq ht hw hc (hint c hc) (hcou c hc) (hline c hc) (by simpa using hck) hl g2 g2'

/-- C110: if the model of a decay can be formulated, so can that of the renumbered decay. -/
theorem C110_formulates (hd : Standard b.decay) (hdyn : Lineshapes b dyn) (hdyn' : Lineshapes b' dyn')
    (hb : b'.decay = swapDecay b.decay) (hp : b'.useProdHel = b.useProdHel) (hq : b'.useDecHel = b.useDecHel)
    (hr : RefOk (some r)) (h : b.formulate (some r) cl uc = .ok m) (cl' uc' : Bool) :
    ∃ m', b'.formulate (some (swp r)) cl' uc' = .ok m' := by
  have hd' : Standard b'.decay := by rw [hb]; exact standard_swap hd
  have hr' : RefOk (some (swp r)) := by
    intro x hx
    injection hx with hx
    have := swp_mem.2 (show r ∈ ([1, 2, 3] : List ℤ) by simpa using hr r rfl)
    rw [hx] at this
    simpa using this
  have key := C36_missing_ls hd' hdyn' hr' (by rintro ⟨⟩) cl' uc'
  refine key.2 fun e => ?_
  obtain ⟨⟨l, hl⟩, c', hc', hm⟩ := key.1.1 e
  have : b.formulate (some r) cl uc = .error .valueError := by
    refine (C36_missing_ls hd hdyn hr (by rintro ⟨⟩) cl uc).1.2 ⟨⟨fun i => l (swp i), fun i hi => ?_⟩, ?_⟩
    · have := hl (swp i) (by
        simp only [List.mem_cons, List.not_mem_nil, or_false] at hi
        rcases hi with rfl | rfl | rfl | rfl <;> decide)
      rwa [hb, spin_swap] at this
    · rw [hb] at hc'
      obtain ⟨c, hc, rfl⟩ := List.mem_map.1 hc'
      refine ⟨c, hc, fun hls => hm ⟨fun e => hls.1 (hp ▸ e), fun e => hls.2 (hq ▸ e)⟩⟩
  rw [h] at this
  cases this

/-- C110: the lineshapes of the Breit-Wigner builder are those that `C110_exchange` asks for, for every setting of
the builder: renumbering the final states does not change them. -/
theorem C110_breit_wigner {bw : BreitWignerBuilder} {c : Chain} {R : Particle} {first : Bool} {e e' : DefExpr}
    (hc : PlainChain c R first) (hid : NumberedFinalState c)
    (he : bw.call c = .ok e) (he' : bw.call (swapChain c) = .ok e') (ht : SwappedPoint ι ι')
    (hpar : ∀ s ∈ [massOfResonance R, widthOfResonance R, resonanceRadius, parentRadius c.parent],
      ι'.sym s = ι.sym s) (η : Sym → ℚ) :
    e'.expression.eval ι' η = e.expression.eval ι η := by
  have hc' : PlainChain (swapChain c) R first := by
    unfold PlainChain at hc ⊢
    show swapNode c.decay = _
    rw [hc]
    cases first <;> rfl
  have hid' : NumberedFinalState (swapChain c) := by
    have : [swp c.product1.index, swp c.product2.index, swp c.spectator.index].Perm [swp 1, swp 2, swp 3] :=
      List.Perm.map swp hid
    exact this.trans (by decide)
  rw [C42_value hc hid he, C42_value hc' hid' he']
  have hin : ∀ s ∈ [c.product1, c.product2, c.spectator], s.index ∈ ([1, 2, 3] : List ℤ) :=
    fun s hs => hid.subset (List.mem_map.2 ⟨s, hs, rfl⟩)
  have hmass : ∀ s ∈ [c.product1, c.product2, c.spectator],
      ι'.sym (massOfState (swp s.index)) = ι.sym (massOfState s.index) :=
    fun s hs => ht.masses _ (mem0 (hin s hs))
  have hσ : ι'.sym (mandelstam (swp c.spectator.index)) = ι.sym (mandelstam c.spectator.index) :=
    ht.mandelstam _ (hin c.spectator (by simp))
  have hm0 : ι'.sym (massOfState 0) = ι.sym (massOfState 0) := ht.masses 0 (by simp)
  have m1 := hmass c.product1 (by simp)
  have m2 := hmass c.product2 (by simp)
  have m3 := hmass c.spectator (by simp)
  have p1 := hpar (massOfResonance R) (by simp)
  have p2 := hpar (widthOfResonance R) (by simp)
  have p3 := hpar resonanceRadius (by simp)
  have p4 : ι'.sym (parentRadius (swapChain c).parent) = ι.sym (parentRadius c.parent) :=
    hpar (parentRadius c.parent) (by simp)
  unfold lineshapeValue
  rw [show (swapChain c).spectator.index = swp c.spectator.index from rfl,
    show (swapChain c).product1.index = swp c.product1.index from rfl,
    show (swapChain c).product2.index = swp c.product2.index from rfl,
    show (swapChain c).incomingLs = c.incomingLs from rfl,
    show (swapChain c).outgoingLs = c.outgoingLs from rfl]
  dsimp only
  rw [hσ, p1, p2, p3, p4, m1, m2, hm0, ← ht.functions.edw, ← ht.functions.ff]
  cases first
  · simp only [Bool.false_eq_true, if_false]
    rw [m3, p1]
  · simp only [if_true]
    rw [m3, p1]

/-! An example: `Λc → p π K` with a `K*`, a `K₀*` and a `Λ*`; the IDs of proton and pion are exchanged. -/

def exThreeDecay : Decay := ⟨exStates, [exChainK, exChainS, exChainL]⟩

theorem exThreeDecay_standard : Standard exThreeDecay := by
  refine ⟨⟨?_, ?_⟩, exDecay_standard.keys, exDecay_standard.3, exDecay_standard.4, ?_⟩
  · obtain ⟨-, s0, h0, h1⟩ := (decayNew_ok _ _ _).1 exDecay_standard.valid.1
    obtain ⟨-, s0', h0', h1'⟩ := (decayNew_ok _ _ _).1 exTwo_standard.valid.1
    have e : s0' = s0 := Option.some.inj (h0'.symm.trans h0)
    subst e
    refine (decayNew_ok _ _ _).2 ⟨rfl, s0', h0, fun c hc => ?_⟩
    simp only [exThreeDecay, List.mem_cons, List.not_mem_nil, or_false] at hc
    rcases hc with rfl | rfl | rfl
    · exact h1 _ (by simp [exDecay])
    · exact h1' _ (by simp [exTwo])
    · exact h1 _ (by simp [exDecay])
  · intro c hc
    simp only [exThreeDecay, List.mem_cons, List.not_mem_nil, or_false] at hc
    rcases hc with rfl | rfl | rfl
    · exact exDecay_standard.valid.2 _ (by simp [exDecay])
    · exact exTwo_standard.valid.2 _ (by simp [exTwo])
    · exact exDecay_standard.valid.2 _ (by simp [exDecay])
  · intro c hc
    simp only [exThreeDecay, List.mem_cons, List.not_mem_nil, or_false] at hc
    rcases hc with rfl | rfl | rfl
    · exact exDecay_standard.resonances _ (by simp [exDecay])
    · exact exTwo_standard.resonances _ (by simp [exTwo])
    · exact exDecay_standard.resonances _ (by simp [exDecay])

def exThree : Builder := ⟨exThreeDecay, Configurator.init exThreeDecay, true, true, false⟩
def exThreeSwapped : Builder := ⟨swapDecay exThreeDecay, Configurator.init (swapDecay exThreeDecay), true, true, false⟩

/-- Couplings that depend on the helicities. -/
noncomputable def exSwapCouplings (_ : String) (_ : Option String) (q : List ℚ) : ℂ := ((q.headD 0 : ℚ) : ℂ) + 2

/-- The couplings for the exchanged IDs: the `K₀*` gets a sign, and the helicities of the decay products are
exchanged. -/
noncomputable def exSwapCouplingsSwapped (n : String) (a : Option String) (q : List ℚ) : ℂ :=
  if n = "\\mathcal{H}^\\mathrm{decay}" then (if a = some "K_0^*" then -1 else 1) * exSwapCouplings n a q.reverse
  else exSwapCouplings n a q

open Classical in
noncomputable def exSwapPoint (s1 s2 s3 : ℝ) (idx : String → Option String → List ℚ → ℂ) : Interp :=
  { bsInterp s1 s2 s3 with
    idx := idx, wig := fun j m m' z => if Projection j m' then (Wigner.wignerD j m m' z.re : ℂ) else 0 }

/-- The signs of the three chains. -/
theorem exThree_signs : swapSign exChainK = 1 ∧ swapSign exChainS = -1 ∧ swapSign exChainL = 1 := by
  have h : ∀ n : ℤ, ∀ x : ℚ, x = n → minusOnePow x = (-1) ^ n := by
    intro n x hx; rw [hx, minusOnePow_int]
  refine ⟨?_, ?_, ?_⟩
  · unfold swapSign
    rw [h 2 _ (by norm_num [exChainK, exState, Obj.toP])]; norm_num
  · unfold swapSign
    rw [h 1 _ (by norm_num [exChainS, exState, Obj.toP])]; norm_num
  · unfold swapSign
    rw [h 2 _ (by norm_num [exChainL, exState, Obj.toP])]; norm_num

/-- Two models that differ by the exchange of two IDs, and a kinematic point for each, with different Mandelstam
variables: the intensities are equal, if the coupling of the scalar resonance gets a sign. -/
example : ∃ m m' ι ι', exThree.formulate (some 1) true false = .ok m ∧
    exThreeSwapped.formulate (some 2) true false = .ok m' ∧ SwappedPoint ι ι' ∧
    (∀ x ∈ m.angleDefs, Computes ι x) ∧ (∀ x ∈ m'.angleDefs, Computes ι' x) ∧
    ι.idx = exSwapCouplings ∧ ι'.idx = exSwapCouplingsSwapped ∧
    ι.sym ⟨"sigma2", .nonneg⟩ = 5 ∧ ι'.sym ⟨"sigma2", .nonneg⟩ = 7 ∧
    ∀ η, m'.fullExpression.eval ι' η = m.fullExpression.eval ι η := by
  have hr : RefOk (some 1) := by simp [RefOk]
  have hr' : RefOk (some 2) := by simp [RefOk]
  have hd : Standard exThree.decay := exThreeDecay_standard
  have hl : Lineshapes exThree fun _ => {} := unit_lineshapes exThreeDecay true true false
  obtain ⟨m, hm, -⟩ := ex_formulate (b := exThree) hd hl rfl rfl 1 (by simp)
  have hd' : Standard exThreeSwapped.decay := standard_swap exThreeDecay_standard
  have hl' : Lineshapes exThreeSwapped fun _ => {} := unit_lineshapes (swapDecay exThreeDecay) true true false
  obtain ⟨m', hm'⟩ := C110_formulates (b := exThree) (b' := exThreeSwapped) hd hl hl' rfl rfl rfl hr hm true false
  have hm' : exThreeSwapped.formulate (some 2) true false = .ok m' := hm'
  have key : ∀ {b : Builder} {dyn r m}, Standard b.decay → Lineshapes b dyn → RefOk (some r) →
      b.formulate (some r) true false = .ok m → ∀ s : Sym, s.asm = .nonneg → s ∉ PyDict.keys m.angleDefs := by
    intro b dyn r m hd hl hr h s hs hmem
    obtain ⟨y, hy, rfl⟩ := List.mem_map.1 hmem
    obtain ⟨ref, P, -, hr', -, rfl, -⟩ := formulate_inv hd hl hr h
    rcases angleDefs_mem hd hr' hy with ⟨k, -, rfl⟩ | ⟨i, -, k, -, rfl⟩
    · simp [thetaSym] at hs
    · simp [ThreeBody.zetaSym] at hs
  have h1 : DalitzInterior fun s => ((exSwapPoint 7 5 7 exSwapCouplings).sym s).re := by
    constructor <;> simp [exSwapPoint, bsInterp, SumRule, BetweenThresholds, lam] <;> norm_num
  have h2 : DalitzInterior fun s => ((exSwapPoint 5 7 7 exSwapCouplingsSwapped).sym s).re := by
    constructor <;> simp [exSwapPoint, bsInterp, SumRule, BetweenThresholds, lam] <;> norm_num
  obtain ⟨ι, f1, i1, s1, a1⟩ := C72_evaluable (b := exThree) hd hl hr hm h1.region
  obtain ⟨ι', f2, i2, s2, a2⟩ := C72_evaluable (b := exThreeSwapped) hd' hl' hr' hm' h2.region
  have v1 : ∀ n, ι.sym ⟨n, .nonneg⟩ = (bsInterp 7 5 7).sym ⟨n, .nonneg⟩ :=
    fun n => s1 _ (key (b := exThree) hd hl hr hm _ rfl)
  have v2 : ∀ n, ι'.sym ⟨n, .nonneg⟩ = (bsInterp 5 7 7).sym ⟨n, .nonneg⟩ := fun n => s2 _ (key hd' hl' hr' hm' _ rfl)
  have t0 : "m" ++ toString (0 : ℤ) = "m0" := by decide +kernel
  have t1 : "m" ++ toString (1 : ℤ) = "m1" := by decide +kernel
  have t2 : "m" ++ toString (2 : ℤ) = "m2" := by decide +kernel
  have t3 : "m" ++ toString (3 : ℤ) = "m3" := by decide +kernel
  have u1 : "sigma" ++ toString (1 : ℤ) = "sigma1" := by decide +kernel
  have u2 : "sigma" ++ toString (2 : ℤ) = "sigma2" := by decide +kernel
  have u3 : "sigma" ++ toString (3 : ℤ) = "sigma3" := by decide +kernel
  have c0 : swp 0 = 0 := by decide
  have c1 : swp 1 = 2 := by decide
  have c2 : swp 2 = 1 := by decide
  have c3 : swp 3 = 3 := by decide
  have ht : SwappedPoint ι ι' := by
    refine ⟨⟨f1.wig.symm.trans f2.wig, f1.cg.symm.trans f2.cg, f1.ff.symm.trans f2.ff,
      f1.edw.symm.trans f2.edw, f1.bmom.symm.trans f2.bmom⟩, ?_, ?_⟩
    · intro i hi
      rw [v1, v2]
      simp only [List.mem_cons, List.not_mem_nil, or_false] at hi
      rcases hi with rfl | rfl | rfl | rfl <;> simp only [c0, c1, c2, c3, t0, t1, t2, t3] <;> simp [bsInterp]
    · intro i hi
      rw [v1, v2]
      simp only [List.mem_cons, List.not_mem_nil, or_false] at hi
      rcases hi with rfl | rfl | rfl <;> simp only [c1, c2, c3, u1, u2, u3] <;> simp [bsInterp]
  have hw : MirrorsWigner ι := C110_wigner fun j m m' z => by rw [← f1.wig]; rfl
  have hsum : SumRule fun s => (ι.sym s).re := by
    unfold SumRule
    simp only [v1]
    simp [bsInterp]
    norm_num
  refine ⟨m, m', ι, ι', hm, hm', ht, a1, a2, i1, i2, ?_, ?_, fun η => ?_⟩
  · rw [v1]; simp [bsInterp]
  · rw [v2]; simp [bsInterp]
  · refine C110_exchange (b := exThree) (b' := exThreeSwapped) hd hl hl'
      rfl rfl rfl hr hm hm' (fun _ _ _ _ _ => rfl) (fun _ _ _ _ _ => rfl) (fun h => by cases h) ?_ ht hw hsum (ε := 1) (by simp) ?_ a1 a2
      fun _ _ => rfl
    · intro c hc
      simp only [exThree, exThreeDecay, List.mem_cons, List.not_mem_nil, or_false] at hc
      rcases hc with rfl | rfl | rfl
      · exact ⟨1, by norm_num [exChainK, exState, Obj.toP]⟩
      · exact ⟨0, by norm_num [exChainS, exState, Obj.toP]⟩
      · exact ⟨1, by norm_num [exChainL, exState, Obj.toP]⟩
    · obtain ⟨k1, k2, k3⟩ := exThree_signs
      have hne : "\\mathcal{H}^\\mathrm{production}" ≠ "\\mathcal{H}^\\mathrm{decay}" := by decide +kernel
      have e1 : couplingName true "production" = "\\mathcal{H}^\\mathrm{production}" := by decide +kernel
      have e2 : couplingName true "decay" = "\\mathcal{H}^\\mathrm{decay}" := by decide +kernel
      intro c hc lR lk li lj
      unfold couplings
      rw [i1, i2]
      dsimp only [exThree, exThreeSwapped, couplingIndices]
      rw [e1, e2]
      simp only [exThree, exThreeDecay, List.mem_cons, List.not_mem_nil, or_false] at hc
      rcases hc with rfl | rfl | rfl
      · rw [k1]
        simp [exSwapPoint, exSwapCouplingsSwapped, exSwapCouplings, hne, swapChain, swapObj, exChainK, Obj.toP]
      · rw [k2]
        simp [exSwapPoint, exSwapCouplingsSwapped, exSwapCouplings, hne, swapChain, swapObj, exChainS, Obj.toP]
        ring
      · rw [k3]
        simp [exSwapPoint, exSwapCouplingsSwapped, exSwapCouplings, hne, swapChain, swapObj, exChainL, Obj.toP]

end Verif.ThreeBody
