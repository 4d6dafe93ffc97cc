import Verif.Proofs.Relabel
import Verif.Props.Superposition
import Verif.Props.Closure
import Verif.Props.Exchange
import Verif.Props.LineshapeBuilder

/-! Property C82: the numbering of the final states, up to cyclic permutations, does not matter. -/
namespace Verif.ThreeBody
open Verif Verif.Spec Verif.Spin Verif.Angles

variable {b b' : Builder} {dyn dyn' : Chain → DefExpr} {cl cl' uc : Bool} {r : ℤ}
  {m m' : AmplitudeModel} {ι ι' : Interp} {ρ ρ' : Sym → ℝ}

theorem cycSym_provided (hm : ∀ i ∈ ([0, 1, 2, 3] : List ℤ),
      ρ' ⟨"m" ++ toString (cyc i), .nonneg⟩ = ρ ⟨"m" ++ toString i, .nonneg⟩)
    (hs : ∀ i ∈ ([1, 2, 3] : List ℤ),
      ρ' ⟨"sigma" ++ toString (cyc i), .nonneg⟩ = ρ ⟨"sigma" ++ toString i, .nonneg⟩) :
    ∀ s ∈ providedSymbols, ρ' (cycSym s) = ρ s := by
  have t0 : "m" ++ toString (0 : ℤ) = "m0" := by decide +kernel
  have t1 : "m" ++ toString (1 : ℤ) = "m1" := by decide +kernel
  have t2 : "m" ++ toString (2 : ℤ) = "m2" := by decide +kernel
  have t3 : "m" ++ toString (3 : ℤ) = "m3" := by decide +kernel
  have u1 : "sigma" ++ toString (1 : ℤ) = "sigma1" := by decide +kernel
  have u2 : "sigma" ++ toString (2 : ℤ) = "sigma2" := by decide +kernel
  have u3 : "sigma" ++ toString (3 : ℤ) = "sigma3" := by decide +kernel
  have c0 : cyc 0 = 0 := by decide
  have c1 : cyc 1 = 2 := by decide
  have c2 : cyc 2 = 3 := by decide
  have c3 : cyc 3 = 1 := by decide
  have m0 := hm 0 (by simp)
  have m1 := hm 1 (by simp)
  have m2 := hm 2 (by simp)
  have m3 := hm 3 (by simp)
  have s1 := hs 1 (by simp)
  have s2 := hs 2 (by simp)
  have s3 := hs 3 (by simp)
  rw [c0, t0] at m0
  rw [c1, t1, t2] at m1
  rw [c2, t2, t3] at m2
  rw [c3, t3, t1] at m3
  rw [c1, u1, u2] at s1
  rw [c2, u2, u3] at s2
  rw [c3, u3, u1] at s3
  intro s hs
  simp only [providedSymbols, List.mem_cons, List.not_mem_nil, or_false] at hs
  rcases hs with rfl | rfl | rfl | rfl | rfl | rfl | rfl
  · exact m0
  · exact m1
  · exact m2
  · exact m3
  · exact s1
  · exact s2
  · exact s3

theorem eval_renumbered {e e' : RExpr} (he : e' = renameR cycSym e)
    (hsym : ∀ s ∈ kinematicSymbols e, s ∈ providedSymbols)
    (h : ∀ s ∈ providedSymbols, ρ' (cycSym s) = ρ s) : e'.eval ρ' = e.eval ρ := by
  rw [he, eval_renameR]
  exact RExpr.eval_congr e fun s hs => h s (hsym s hs)

/-- C82: the alignment angles and the helicity angles of the decay products depend on the numbering of the
final states only through the numbering of masses and Mandelstam variables. -/
theorem C82_angles (hm : ∀ i ∈ ([0, 1, 2, 3] : List ℤ),
      ρ' ⟨"m" ++ toString (cyc i), .nonneg⟩ = ρ ⟨"m" ++ toString i, .nonneg⟩)
    (hs : ∀ i ∈ ([1, 2, 3] : List ℤ),
      ρ' ⟨"sigma" ++ toString (cyc i), .nonneg⟩ = ρ ⟨"sigma" ++ toString i, .nonneg⟩) :
    (∀ i ∈ ([0, 1, 2, 3] : List ℤ), ∀ k ∈ ([1, 2, 3] : List ℤ), ∀ r ∈ ([1, 2, 3] : List ℤ), ∃ s e s' e',
      formulateZetaAngle i k r = .ok (s, e) ∧ formulateZetaAngle (cyc i) (cyc k) (cyc r) = .ok (s', e') ∧
      e'.eval ρ' = e.eval ρ) ∧
    ∀ i j k, EvenPerm i j k → ∃ s e s' e', formulateScatteringAngle i j = .ok (s, e) ∧
      formulateScatteringAngle (cyc i) (cyc j) = .ok (s', e') ∧ e'.eval ρ' = e.eval ρ := by
  have h := cycSym_provided hm hs
  constructor
  · intro i hi k hk r hr
    refine ⟨_, _, _, _, zeta_eq hi hk hr, zeta_eq ?_ (cyc_mem.2 hk) (cyc_mem.2 hr),
      eval_renumbered (zeta_renumber hi hk hr) (zeta_symbols hi hk hr) h⟩
    simp only [List.mem_cons, List.not_mem_nil, or_false] at hi
    rcases hi with rfl | rfl | rfl | rfl <;> decide
  · intro i j k hp
    have hk : k ∈ ([1, 2, 3] : List ℤ) := by
      rcases hp with h | h | h <;> injection h with _ h <;> injection h with _ h <;> rw [h] <;> decide
    have hij : (i, j) = prodIds k := by
      rcases hp with h | h | h <;> injection h with h1 h <;> injection h with h2 h3 <;> rw [h1, h2, h3] <;> decide
    have h1 := theta_eq hk
    have h2 := theta_eq (cyc_mem.2 hk)
    rw [prodIds_renumber hk, ← hij] at h2
    rw [← hij] at h1
    exact ⟨_, _, _, _, h1, h2, eval_renumbered (theta_renumber hk) (theta_symbols hk) h⟩

/-- The renumbering of the states as a permutation. -/
def cycF : Equiv.Perm (Fin 4) := ⟨![0, 2, 3, 1], ![0, 3, 1, 2], by decide, by decide⟩

theorem cycF_cast (i : Fin 4) : ((cycF i : Fin 4) : ℤ) = cyc (i : ℤ) := by
  fin_cases i <;> decide

theorem provided_renumber (h : Renumbered ι ι') : ∀ s ∈ providedSymbols, (ι'.sym (cycSym s)).re = (ι.sym s).re :=
  cycSym_provided (ρ := fun s => (ι.sym s).re) (ρ' := fun s => (ι'.sym s).re)
    (fun i hi => congrArg Complex.re (h.masses i hi)) (fun i hi => congrArg Complex.re (h.mandelstam i hi))

/-- Helicities of the renumbered states. -/
def renumberHel (l : Fin 4 → ℚ) : Fin 4 → ℚ := fun i => l (cycF.symm i)

theorem byId_renumber (l : Fin 4 → ℚ) {x : ℤ} (hx : x ∈ ([0, 1, 2, 3] : List ℤ)) :
    byId (renumberHel l) (cyc x) = byId l x := by
  simp only [List.mem_cons, List.not_mem_nil, or_false] at hx
  rcases hx with rfl | rfl | rfl | rfl <;> rfl

theorem renumberHel_mem {d : Decay} (l : Fin 4 → ℚ) :
    renumberHel l ∈ helicities (renumberDecay d) ↔ l ∈ helicities d := by
  unfold helicities
  rw [Fintype.mem_piFinset, Fintype.mem_piFinset]
  constructor
  · intro h i
    have := h (cycF i)
    rw [cycF_cast, spin_renumber] at this
    simpa [renumberHel] using this
  · intro h i
    obtain ⟨i, rfl⟩ := cycF.surjective i
    rw [cycF_cast, spin_renumber]
    simpa [renumberHel] using h i

theorem sum_helicities {M : Type} [AddCommMonoid M] (d : Decay) (F : (Fin 4 → ℚ) → M) :
    ∑ l ∈ helicities (renumberDecay d), F l = ∑ l ∈ helicities d, F (renumberHel l) := by
  symm
  refine Finset.sum_nbij' renumberHel (fun l i => l (cycF i)) ?_ ?_ ?_ ?_ ?_
  · exact fun l hl => (renumberHel_mem l).2 hl
  · intro l hl
    refine (renumberHel_mem _).1 ?_
    have : renumberHel (fun i => l (cycF i)) = l := by funext i; simp [renumberHel]
    rwa [this]
  · intro l _; funext i; simp [renumberHel]
  · intro l _; funext i; simp [renumberHel]
  · intro l _; rfl

theorem sum_subsystems {M : Type} [AddCommMonoid M] (d : Decay) (F : ℤ → M) :
    ∑ k ∈ subsystems (renumberDecay d), F k = ∑ k ∈ subsystems d, F (cyc k) := by
  have : subsystems (renumberDecay d) = (subsystems d).image cyc := by
    ext k
    simp only [subsystems, renumberDecay, List.map_map, List.mem_toFinset, List.mem_map, Function.comp_apply,
      Finset.mem_image]
    constructor
    · rintro ⟨c, hc, rfl⟩
      exact ⟨_, ⟨c, hc, rfl⟩, rfl⟩
    · rintro ⟨_, ⟨c, hc, rfl⟩, rfl⟩
      exact ⟨c, hc, rfl⟩
  rw [this, Finset.sum_image (fun a _ b _ h => cyc_inj h)]

theorem rotation_renumber (ht : Renumbered ι ι') {d : Decay} {r k : ℤ} {i : Fin 4}
    (hz : d.spin i ≠ 0 → ι'.sym (zetaSymbol (cyc i) (cyc k) (cyc r)) = ι.sym (zetaSymbol i k r)) (a a' : ℚ) :
    rotation ι' (renumberDecay d) (cyc r) (cyc k) (cycF i) a a' = rotation ι d r k i a a' := by
  unfold rotation
  rw [cycF_cast, spin_renumber]
  split_ifs with h
  · rfl
  · rw [hz h, ht.functions.wig]

theorem intensity_renumber (ht : Renumbered ι ι') {d : Decay} {r : ℤ} {A A' : ℤ → (Fin 4 → ℚ) → ℂ}
    (hz : ∀ k ∈ subsystems d, ∀ i : Fin 4, d.spin i ≠ 0 →
      ι'.sym (zetaSymbol (cyc i) (cyc k) (cyc r)) = ι.sym (zetaSymbol i k r))
    (hA : ∀ k ∈ subsystems d, ∀ l ∈ helicities d, A' (cyc k) (renumberHel l) = A k l) :
    Spec.intensity ι' (renumberDecay d) (cyc r) A' = Spec.intensity ι d r A := by
  unfold Spec.intensity
  rw [sum_helicities]
  refine Finset.sum_congr rfl fun l _ => ?_
  have : aligned ι' (renumberDecay d) (cyc r) A' (renumberHel l) = aligned ι d r A l := by
    unfold aligned
    rw [sum_helicities]
    refine Finset.sum_congr rfl fun l' hl' => ?_
    rw [sum_subsystems]
    refine Finset.sum_congr rfl fun k hk => ?_
    have R := fun (i : Fin 4) a a' => rotation_renumber (r := r) (k := k) (i := i) ht (hz k hk i) a a'
    have R0 := R 0
    have R1 := R 1
    have R2 := R 2
    have R3 := R 3
    rw [show cycF 0 = 0 from rfl] at R0
    rw [show cycF 1 = 2 from rfl] at R1
    rw [show cycF 2 = 3 from rfl] at R2
    rw [show cycF 3 = 1 from rfl] at R3
    rw [hA k hk l' hl', R0, R1, R2, R3,
      show renumberHel l 0 = l 0 from rfl, show renumberHel l 1 = l 3 from rfl,
      show renumberHel l 2 = l 1 from rfl, show renumberHel l 3 = l 2 from rfl,
      show renumberHel l' 0 = l' 0 from rfl, show renumberHel l' 1 = l' 3 from rfl,
      show renumberHel l' 2 = l' 1 from rfl, show renumberHel l' 3 = l' 2 from rfl]
    ring
  rw [this]

theorem first_renumber (c : Chain) (hc : Chain.new c.decay = .ok c) :
    ResonanceFirst (renumberChain c) ↔ ResonanceFirst c := by
  obtain ⟨p0, R, c1, c2, s, inc, out, hn⟩ := chain_shape_of_ok hc
  unfold ResonanceFirst
  rcases hn with hn | hn
  · refine iff_of_true ⟨renumberObj p0, renumberObj R, renumberNode c1, renumberNode c2, out,
      .leaf (.state (renumberState s)), inc, ?_⟩ ⟨_, _, _, _, _, _, _, hn⟩
    show renumberNode c.decay = _
    rw [hn]
    rfl
  · refine iff_of_false ?_ ?_
    · rintro ⟨p, r, a1, a2, x, n, y, h⟩
      have h : renumberNode c.decay = _ := h
      rw [hn] at h
      cases h
    · rintro ⟨p, r, a1, a2, x, n, y, h⟩
      rw [hn] at h
      cases h

/-- C82: renumbering the final states `1 → 2 → 3 → 1` does not change the intensity. The renumbered decay is
formulated for the renumbered reference subsystem and evaluated at the same kinematic point, with masses and
Mandelstam variables renumbered. -/
theorem C82_cyclic (hd : Standard b.decay) (hdyn : Lineshapes b dyn) (hdyn' : Lineshapes b' dyn')
    (hb : b'.decay = renumberDecay b.decay) (hp : b'.useProdHel = b.useProdHel) (hq : b'.useDecHel = b.useDecHel)
    (hr : RefOk (some r)) (h : b.formulate (some r) cl uc = .ok m)
    (h' : b'.formulate (some (cyc r)) cl' uc = .ok m')
    (hfree : ∀ c ∈ b.decay.chains, HelicityFree (dyn c).expression)
    (hfree' : ∀ c ∈ b'.decay.chains, HelicityFree (dyn' c).expression)
    (hres : b.useProdHel = false → ∀ c ∈ b.decay.chains, c.resonance ≠ .state c.spectator)
    (ht : Renumbered ι ι')
    (ha : ∀ x ∈ m.angleDefs, Computes ι x) (ha' : ∀ x ∈ m'.angleDefs, Computes ι' x) {η : Sym → ℚ}
    (hline : ∀ c ∈ b.decay.chains,
      (dyn' (renumberChain c)).expression.eval ι' η = (dyn c).expression.eval ι η) :
    m'.fullExpression.eval ι' η = m.fullExpression.eval ι η := by
  have hd' : Standard b'.decay := by rw [hb]; exact standard_renumber hd
  have hr3 : r ∈ ([1, 2, 3] : List ℤ) := by simpa using hr r rfl
  have hr' : RefOk (some (cyc r)) := by
    intro x hx
    injection hx with hx
    have := cyc_mem.2 hr3
    rw [hx] at this
    simpa using this
  have hres' : b'.useProdHel = false → ∀ c ∈ b'.decay.chains, c.resonance ≠ .state c.spectator := by
    intro h1 c' hc'
    rw [hb] at hc'
    obtain ⟨c, hc, rfl⟩ := List.mem_map.1 hc'
    intro e
    exact hres (hp ▸ h1) c hc (renumberObj_inj e)
  obtain ⟨ref, hu, e1⟩ := full_value hd hdyn hr h hfree hres η
  obtain ⟨ref', hu', e2⟩ := full_value hd' hdyn' hr' h' hfree' hres' η
  have hu : r = ref := hu
  have hu' : cyc r = ref' := hu'
  subst hu hu'
  rw [e1, e2, hb]
  have hk3 : ∀ {k}, k ∈ subsystems b.decay → k ∈ ([1, 2, 3] : List ℤ) := fun hk =>
    Standard.subsystem hd ((mem_subsystems _ _).1 hk)
  have hk' : ∀ {k}, k ∈ subsystems b.decay → cyc k ∈ b'.decay.subsystemIds := by
    intro k hk
    obtain ⟨c, hc, rfl⟩ := List.mem_map.1 (List.mem_toFinset.1 hk)
    rw [hb]
    exact ((C18_partition (valid_renumber hd.valid)).1 _).2 ⟨renumberChain c, List.mem_map.2 ⟨c, hc, rfl⟩, rfl⟩
  obtain ⟨ref1, P, hu1, -, -, rfl, -⟩ := formulate_inv hd hdyn hr h
  obtain ⟨ref2, P', hu2, -, -, rfl, -⟩ := formulate_inv hd' hdyn' hr' h'
  have hu1 : r = ref1 := hu1
  have hu2 : cyc r = ref2 := hu2
  subst hu1 hu2
  refine congrArg _ (intensity_renumber ht ?_ ?_)
  · intro k hk i hi
    have hi4 : (i : ℤ) ∈ ([0, 1, 2, 3] : List ℤ) := by fin_cases i <;> decide
    have hci : cyc (i : ℤ) ∈ ([0, 1, 2, 3] : List ℤ) := by fin_cases i <;> decide
    obtain ⟨v, g1, g2⟩ := ha _ (PyDict.mem_of_get? (angle_get?_zeta (dyn := dyn) (cl := cl) (uc := uc) (P := P) hd
      hr3 hi4 ((mem_subsystems _ _).1 hk) (by rw [spins_eq _ hi4]; exact hi)))
    obtain ⟨v', g1', g2'⟩ := ha' _ (PyDict.mem_of_get? (angle_get?_zeta (dyn := dyn') (cl := cl') (uc := uc) (P := P')
      hd' (cyc_mem.2 hr3) hci (hk' hk) (by
        rw [spins_eq _ hci, hb, spin_renumber]
        exact hi)))
    have := eval_renumbered (ρ := fun s => (ι.sym s).re) (ρ' := fun s => (ι'.sym s).re) (zeta_renumber hi4 (hk3 hk) hr3) (zeta_symbols hi4 (hk3 hk) hr3) (provided_renumber ht)
    rw [g1, g1'] at this
    injection this with this
    exact g2'.trans ((congrArg _ this).trans g2.symm)
  · intro k hk l hl
    have h3 := hk3 hk
    have hl' : renumberHel l ∈ helicities b'.decay := by rw [hb]; exact (renumberHel_mem l).2 hl
    have hθ : ι'.sym (thetaSym (cyc (prodIds k).1) (cyc (prodIds k).2)) = ι.sym (thetaSym (prodIds k).1 (prodIds k).2) := by
      obtain ⟨v, g1, g2⟩ := ha _ (PyDict.mem_of_get? (angle_get?_theta (dyn := dyn) (ref := r) (cl := cl) (uc := uc)
        (P := P) hd (subsystemIds_subset hd ((mem_subsystems _ _).1 hk)) (helicities_tuple hd hl)))
      obtain ⟨v', g1', g2'⟩ := ha' _ (PyDict.mem_of_get? (angle_get?_theta (dyn := dyn') (ref := cyc r) (cl := cl')
        (uc := uc) (P := P') hd' (subsystemIds_subset hd' (hk' hk)) (helicities_tuple hd' hl')))
      rw [prodIds_renumber h3] at g2'
      have := eval_renumbered (ρ := fun s => (ι.sym s).re) (ρ' := fun s => (ι'.sym s).re) (theta_renumber h3) (theta_symbols h3) (provided_renumber ht)
      rw [g1, g1'] at this
      injection this with this
      exact g2'.trans ((congrArg _ this).trans g2.symm)
    unfold subsystemValue
    rw [hb, show (renumberDecay b.decay).chains = b.decay.chains.map renumberChain from rfl, List.filter_map,
      List.map_map]
    have hf : (b.decay.chains.filter ((fun c => decide (c.spectator.index = cyc k)) ∘ renumberChain)) =
        b.decay.chains.filter fun c => decide (c.spectator.index = k) := by
      refine List.filter_congr fun c _ => ?_
      have : cyc c.spectator.index = cyc k ↔ c.spectator.index = k := ⟨fun e => cyc_inj e, fun e => congrArg _ e⟩
      exact decide_eq_decide.2 this
    rw [hf]
    refine congrArg List.sum (List.map_congr_left fun c hc => ?_)
    obtain ⟨hc, hck⟩ := List.mem_filter.1 hc
    rw [Function.comp_apply, prodIds_renumber h3]
    have hp4 : (prodIds k).1 ∈ ([0, 1, 2, 3] : List ℤ) ∧ (prodIds k).2 ∈ ([0, 1, 2, 3] : List ℤ) := by
      simp only [List.mem_cons, List.not_mem_nil, or_false] at h3
      rcases h3 with rfl | rfl | rfl <;> decide
    have L0 : byId (renumberHel l) 0 = byId l 0 := byId_renumber l (x := 0) (by simp)
    have Lk := byId_renumber l (mem0 h3)
    have Li := byId_renumber l hp4.1
    have Lj := byId_renumber l hp4.2
    obtain ⟨-, hidx, -⟩ := Standard.chain hd hc
    have L1 := byId_renumber l (mem0 (hidx c.product1 (by simp)).1)
    have L2 := byId_renumber l (mem0 (hidx c.product2 (by simp)).1)
    unfold chainValue
    rw [hb]
    dsimp only
    rw [L0, Lk, Li, Lj, spin_renumber, spin_renumber, hline c hc]
    rw [show (renumberChain c).resonance = renumberObj c.resonance from rfl, renumberObj_toP]
    have hθ' : ι'.sym ⟨"theta_" ++ toString (cyc (prodIds k).1) ++ toString (cyc (prodIds k).2), .real⟩ =
      ι.sym ⟨"theta_" ++ toString (prodIds k).1 ++ toString (prodIds k).2, .real⟩ := hθ
    rw [hθ', ht.functions.wig]
    have f1 : ∀ x y z w, couplings ι' b' (renumberChain c) uc x y z w = couplings ι b c uc x y z w := by
      intro x y z w
      unfold couplings
      rw [show (renumberChain c).resonance = renumberObj c.resonance from rfl, renumberObj_toP, hp, hq, ht.couplings]
      rfl
    have f2 : decayFactor ι' b' (renumberChain c) (byId (renumberHel l)) = decayFactor ι b c (byId l) := by
      unfold decayFactor lsFactor
      rw [show (renumberChain c).resonance = renumberObj c.resonance from rfl, renumberObj_toP, hq,
        ← ht.functions.cg, show (renumberChain c).product1.index = cyc c.product1.index from rfl,
        show (renumberChain c).product2.index = cyc c.product2.index from rfl, L1, L2]
      rfl
    have f3 : ∀ x y, productionFactor ι' b' (renumberChain c) x y = productionFactor ι b c x y := by
      intro x y
      unfold productionFactor lsFactor
      rw [show (renumberChain c).resonance = renumberObj c.resonance from rfl, renumberObj_toP, hp,
        ← ht.functions.cg]
      rw [show (renumberChain c).incomingLs = c.incomingLs from rfl]
      cases b.useProdHel with
      | true => rfl
      | false =>
        cases c.incomingLs with
        | none => rfl
        | some ls =>
          have hiff := first_renumber c (hd.valid.2 c hc)
          dsimp only
          by_cases hR : ResonanceFirst c
          · rw [if_pos hR, if_pos (hiff.2 hR)]
            rfl
          · rw [if_neg hR, if_neg fun e => hR (hiff.1 e)]
            rfl
    rw [f1, f2, f3]

/-- C82: if the model of a decay can be formulated, so can that of the renumbered decay. -/
theorem C82_formulates (hd : Standard b.decay) (hdyn : Lineshapes b dyn) (hdyn' : Lineshapes b' dyn')
    (hb : b'.decay = renumberDecay b.decay) (hp : b'.useProdHel = b.useProdHel) (hq : b'.useDecHel = b.useDecHel)
    (hr : RefOk (some r)) (h : b.formulate (some r) cl uc = .ok m) (cl' uc' : Bool) :
    ∃ m', b'.formulate (some (cyc r)) cl' uc' = .ok m' := by
  have hd' : Standard b'.decay := by rw [hb]; exact standard_renumber hd
  have hr' : RefOk (some (cyc r)) := by
    intro x hx
    injection hx with hx
    have := cyc_mem.2 (show r ∈ ([1, 2, 3] : List ℤ) by simpa using hr r rfl)
    rw [hx] at this
    simpa using this
  have key := C36_missing_ls hd' hdyn' hr' (by rintro ⟨⟩) cl' uc'
  refine key.2 fun e => ?_
  obtain ⟨⟨l, hl⟩, c', hc', hm⟩ := key.1.1 e
  have : b.formulate (some r) cl uc = .error .valueError := by
    refine (C36_missing_ls hd hdyn hr (by rintro ⟨⟩) cl uc).1.2 ⟨⟨fun i => l (cyc i), fun i hi => ?_⟩, ?_⟩
    · have := hl (cyc i) (by
        simp only [List.mem_cons, List.not_mem_nil, or_false] at hi
        rcases hi with rfl | rfl | rfl | rfl <;> decide)
      rwa [hb, spin_renumber] at this
    · rw [hb] at hc'
      obtain ⟨c, hc, rfl⟩ := List.mem_map.1 hc'
      refine ⟨c, hc, fun hls => hm ⟨fun e => hls.1 (hp ▸ e), fun e => hls.2 (hq ▸ e)⟩⟩
  rw [h] at this
  cases this

/-- C82: the lineshapes of the Breit-Wigner builder are those that `C82_cyclic` asks for, for every setting of
the builder: renumbering the final states does not change them. -/
theorem C82_breit_wigner {bw : BreitWignerBuilder} {c : Chain} {R : Particle} {first : Bool} {e e' : DefExpr}
    (hc : PlainChain c R first) (hid : NumberedFinalState c)
    (he : bw.call c = .ok e) (he' : bw.call (renumberChain c) = .ok e') (ht : Renumbered ι ι')
    (hpar : ∀ s ∈ [massOfResonance R, widthOfResonance R, resonanceRadius, parentRadius c.parent],
      ι'.sym s = ι.sym s) (η : Sym → ℚ) :
    e'.expression.eval ι' η = e.expression.eval ι η := by
  have hc' : PlainChain (renumberChain c) R first := by
    unfold PlainChain at hc ⊢
    show renumberNode c.decay = _
    rw [hc]
    cases first <;> rfl
  have hid' : NumberedFinalState (renumberChain c) := by
    have : [cyc c.product1.index, cyc c.product2.index, cyc c.spectator.index].Perm [cyc 1, cyc 2, cyc 3] :=
      List.Perm.map cyc hid
    exact this.trans (by decide)
  rw [C42_value hc hid he, C42_value hc' hid' he']
  have hin : ∀ s ∈ [c.product1, c.product2, c.spectator], s.index ∈ ([1, 2, 3] : List ℤ) :=
    fun s hs => hid.subset (List.mem_map.2 ⟨s, hs, rfl⟩)
  have hmass : ∀ s ∈ [c.product1, c.product2, c.spectator],
      ι'.sym (massOfState (cyc s.index)) = ι.sym (massOfState s.index) :=
    fun s hs => ht.masses _ (mem0 (hin s hs))
  have hσ : ι'.sym (mandelstam (cyc c.spectator.index)) = ι.sym (mandelstam c.spectator.index) :=
    ht.mandelstam _ (hin c.spectator (by simp))
  have hm0 : ι'.sym (massOfState 0) = ι.sym (massOfState 0) := ht.masses 0 (by simp)
  have m1 := hmass c.product1 (by simp)
  have m2 := hmass c.product2 (by simp)
  have m3 := hmass c.spectator (by simp)
  have p1 := hpar (massOfResonance R) (by simp)
  have p2 := hpar (widthOfResonance R) (by simp)
  have p3 := hpar resonanceRadius (by simp)
  have p4 : ι'.sym (parentRadius (renumberChain c).parent) = ι.sym (parentRadius c.parent) :=
    hpar (parentRadius c.parent) (by simp)
  unfold lineshapeValue
  rw [show (renumberChain c).spectator.index = cyc c.spectator.index from rfl,
    show (renumberChain c).product1.index = cyc c.product1.index from rfl,
    show (renumberChain c).product2.index = cyc c.product2.index from rfl,
    show (renumberChain c).incomingLs = c.incomingLs from rfl,
    show (renumberChain c).outgoingLs = c.outgoingLs from rfl]
  dsimp only
  rw [hσ, p1, p2, p3, p4, m1, m2, hm0, ← ht.functions.edw, ← ht.functions.ff]
  cases first
  · simp only [Bool.false_eq_true, if_false]
    rw [m3, p1]
  · simp only [if_true]
    rw [m3, p1]

/-! An example: the decay `Λc → p π K`, renumbered. -/

/-- The chain with the `K*` has a Breit-Wigner lineshape, before and after renumbering. -/
example : ∃ e e', ({} : BreitWignerBuilder).call exChainK = .ok e ∧
    ({} : BreitWignerBuilder).call (renumberChain exChainK) = .ok e' ∧
    (renumberChain exChainK).spectator.index = 2 := by
  obtain ⟨e, he⟩ := exK_lineshape
  have hp : PlainChain (renumberChain exChainK) ⟨"K*", "K^*", 1, some (-1), 9/10, 1/20⟩ true := rfl
  have hn : NumberedFinalState (renumberChain exChainK) := by
    show [(3 : ℤ), 1, 2].Perm [1, 2, 3]
    decide
  have : ∃ e', ({} : BreitWignerBuilder).call (renumberChain exChainK) = .ok e' := by
    refine (C42_missing_ls {} hp hn).2 ?_
    rw [ne_eq, (C42_missing_ls {} hp hn).1]
    simp [exChainK, renumberChain]
  obtain ⟨e', he'⟩ := this
  exact ⟨e, e', he, he', rfl⟩

def exRenumbered (p q a : Bool) : Builder :=
  ⟨renumberDecay exDecay, Configurator.init (renumberDecay exDecay), p, q, a⟩

/-- Two models that differ by the numbering of the final states, and a kinematic point for each, with
different Mandelstam variables: the intensities are equal. -/
example : ∃ m m' ι ι', (exBuilder false true false).formulate (some 1) true false = .ok m ∧
    (exRenumbered false true false).formulate (some 2) true false = .ok m' ∧ Renumbered ι ι' ∧
    (∀ x ∈ m.angleDefs, Computes ι x) ∧ (∀ x ∈ m'.angleDefs, Computes ι' x) ∧
    ι.sym ⟨"sigma2", .nonneg⟩ = 5 ∧ ι'.sym ⟨"sigma2", .nonneg⟩ = 7 ∧
    ∀ η, m'.fullExpression.eval ι' η = m.fullExpression.eval ι η := by
  have hr : RefOk (some 1) := by simp [RefOk]
  have hr' : RefOk (some 2) := by simp [RefOk]
  obtain ⟨m, hm⟩ := exBuilder_ok false true false true false
  have hd' : Standard (exRenumbered false true false).decay := standard_renumber exDecay_standard
  have hl := exBuilder_lineshapes false true false
  have hl' := unit_lineshapes (renumberDecay exDecay) false true false
  obtain ⟨m', hm'⟩ := C82_formulates (b := exBuilder false true false) (b' := exRenumbered false true false)
    exDecay_standard hl hl' rfl rfl rfl hr hm true false
  have hm' : (exRenumbered false true false).formulate (some 2) true false = .ok m' := hm'
  have key : ∀ {b : Builder} {dyn r m}, Standard b.decay → Lineshapes b dyn → RefOk (some r) →
      b.formulate (some r) true false = .ok m → ∀ s : Sym, s.asm = .nonneg → s ∉ PyDict.keys m.angleDefs := by
    intro b dyn r m hd hl hr h s hs hmem
    obtain ⟨y, hy, rfl⟩ := List.mem_map.1 hmem
    obtain ⟨ref, P, -, hr', -, rfl, -⟩ := formulate_inv hd hl hr h
    rcases angleDefs_mem hd hr' hy with ⟨k, -, rfl⟩ | ⟨i, -, k, -, rfl⟩
    · simp [thetaSym] at hs
    · simp [ThreeBody.zetaSym] at hs
  have h1 : DalitzInterior fun s => ((bsInterp 7 5 7).sym s).re := by
    constructor <;> simp [bsInterp, SumRule, BetweenThresholds, lam] <;> norm_num
  have h2 : DalitzInterior fun s => ((bsInterp 7 7 5).sym s).re := by
    constructor <;> simp [bsInterp, SumRule, BetweenThresholds, lam] <;> norm_num
  obtain ⟨ι, f1, i1, s1, a1⟩ := C72_evaluable (b := exBuilder false true false) exDecay_standard hl hr hm h1.region
  obtain ⟨ι', f2, i2, s2, a2⟩ := C72_evaluable (b := exRenumbered false true false) hd' hl' hr' hm' h2.region
  have v1 : ∀ n, ι.sym ⟨n, .nonneg⟩ = (bsInterp 7 5 7).sym ⟨n, .nonneg⟩ :=
    fun n => s1 _ (key (b := exBuilder false true false) exDecay_standard hl hr hm _ rfl)
  have v2 : ∀ n, ι'.sym ⟨n, .nonneg⟩ = (bsInterp 7 7 5).sym ⟨n, .nonneg⟩ := fun n => s2 _ (key hd' hl' hr' hm' _ rfl)
  have t0 : "m" ++ toString (0 : ℤ) = "m0" := by decide +kernel
  have t1 : "m" ++ toString (1 : ℤ) = "m1" := by decide +kernel
  have t2 : "m" ++ toString (2 : ℤ) = "m2" := by decide +kernel
  have t3 : "m" ++ toString (3 : ℤ) = "m3" := by decide +kernel
  have u1 : "sigma" ++ toString (1 : ℤ) = "sigma1" := by decide +kernel
  have u2 : "sigma" ++ toString (2 : ℤ) = "sigma2" := by decide +kernel
  have u3 : "sigma" ++ toString (3 : ℤ) = "sigma3" := by decide +kernel
  have c0 : cyc 0 = 0 := by decide
  have c1 : cyc 1 = 2 := by decide
  have c2 : cyc 2 = 3 := by decide
  have c3 : cyc 3 = 1 := by decide
  have ht : Renumbered ι ι' := by
    refine ⟨⟨f1.wig.symm.trans f2.wig, f1.cg.symm.trans f2.cg, f1.ff.symm.trans f2.ff,
      f1.edw.symm.trans f2.edw, f1.bmom.symm.trans f2.bmom⟩, i2.trans i1.symm, ?_, ?_⟩
    · intro i hi
      rw [v1, v2]
      simp only [List.mem_cons, List.not_mem_nil, or_false] at hi
      rcases hi with rfl | rfl | rfl | rfl <;> simp only [c0, c1, c2, c3, t0, t1, t2, t3] <;> simp [bsInterp]
    · intro i hi
      rw [v1, v2]
      simp only [List.mem_cons, List.not_mem_nil, or_false] at hi
      rcases hi with rfl | rfl | rfl <;> simp only [c1, c2, c3, u1, u2, u3] <;> simp [bsInterp]
  refine ⟨m, m', ι, ι', hm, hm', ht, a1, a2, ?_, ?_, fun η => ?_⟩
  · rw [v1]; simp [bsInterp]
  · rw [v2]; simp [bsInterp]
  · refine C82_cyclic (b := exBuilder false true false) (b' := exRenumbered false true false) exDecay_standard hl hl'
      rfl rfl rfl hr hm hm' (fun _ _ _ _ _ => rfl) (fun _ _ _ _ _ => rfl) ?_ ht a1 a2 fun _ _ => rfl
    intro _ c hc
    simp only [exBuilder, exDecay, List.mem_cons, List.not_mem_nil, or_false] at hc
    rcases hc with rfl | rfl <;> simp [exChainK, exChainL]

end Verif.ThreeBody
