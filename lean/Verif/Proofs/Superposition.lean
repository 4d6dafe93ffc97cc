import Verif.Props.Reference

/-! The value of a formulated model, chain by chain (used for C76-C80). -/
namespace Verif.ThreeBody
open Verif Verif.Spec Verif.Spin Verif.Angles

variable {b b' : Builder} {dyn : Chain → DefExpr} {reference : Option ℤ} {cl cl' uc : Bool}
  {m m' : AmplitudeModel} {ι ι' : Interp}

/-- Helicities by ID. -/
def byId (l : Fin 4 → ℚ) (x : ℤ) : ℚ := if x = 1 then l 1 else if x = 2 then l 2 else if x = 3 then l 3 else l 0

/-- Sum of the chains of subsystem `k`. -/
noncomputable def subsystemValue (ι : Interp) (b : Builder) (uc : Bool) (lineshape : Chain → ℂ) (k : ℤ)
    (l : Fin 4 → ℚ) : ℂ :=
  ((b.decay.chains.filter fun c => c.spectator.index = k).map
    (chainValue ι b uc lineshape (prodIds k).1 (prodIds k).2 k (byId l))).sum

theorem evenPerm_prodIds {k : ℤ} (hk : k ∈ ([1, 2, 3] : List ℤ)) :
    EvenPerm (prodIds k).1 (prodIds k).2 k := by
  simp only [List.mem_cons, List.not_mem_nil, or_false] at hk
  rcases hk with rfl | rfl | rfl <;> simp [EvenPerm, prodIds]

theorem selected_of_chain {k : ℤ} (hd : Standard b.decay) (hk : k ∈ subsystems b.decay) : Selected b k := by
  unfold Selected
  have h3 := Standard.subsystem hd ((mem_subsystems _ _).1 hk)
  split
  · simpa using h3
  · unfold subsystems at hk
    simpa using hk

theorem definedValue_eq (hd : Standard b.decay) (hdyn : Lineshapes b dyn) (hr : RefOk reference)
    (h : b.formulate reference cl uc = .ok m)
    (hfree : ∀ c ∈ b.decay.chains, HelicityFree (dyn c).expression)
    (hres : b.useProdHel = false → ∀ c ∈ b.decay.chains, c.resonance ≠ .state c.spectator)
    (ι : Interp) (η : Sym → ℚ) {k : ℤ} (hk : k ∈ subsystems b.decay) {l : Fin 4 → ℚ}
    (hl : l ∈ helicities b.decay) :
    definedValue m ι η k l = subsystemValue ι b uc (fun c => (dyn c).expression.eval ι η) k l := by
  have h3 := Standard.subsystem hd ((mem_subsystems _ _).1 hk)
  rw [mem_helicities hd] at hl
  obtain ⟨e, he, hv⟩ := C29_amplitude_value hd hdyn hr h hfree hres (evenPerm_prodIds h3)
    (selected_of_chain hd hk) (l := byId l) (by
      intro i hi
      simp only [List.mem_cons, List.not_mem_nil, or_false] at hi
      rcases hi with rfl | rfl | rfl | rfl
      · exact hl 0
      · exact hl 1
      · exact hl 2
      · exact hl 3) ι η
  unfold definedValue
  rw [show amplitudeSymbol k l = ⟨"A^" ++ toString k, none, [.num (byId l 0), .num (byId l 1),
    .num (byId l 2), .num (byId l 3)]⟩ from rfl, he]
  exact hv

/-- The value of a formulated model, chain by chain. -/
theorem full_value (hd : Standard b.decay) (hdyn : Lineshapes b dyn) (hr : RefOk reference)
    (h : b.formulate reference cl uc = .ok m)
    (hfree : ∀ c ∈ b.decay.chains, HelicityFree (dyn c).expression)
    (hres : b.useProdHel = false → ∀ c ∈ b.decay.chains, c.resonance ≠ .state c.spectator)
    (η : Sym → ℚ) : ∃ ref, UsedRef b reference ref ∧ ∀ ι : Interp, m.fullExpression.eval ι η =
      (Spec.intensity ι b.decay ref (subsystemValue ι b uc fun c => (dyn c).expression.eval ι η) : ℂ) := by
  obtain ⟨ref, P, hu, -, -, rfl, -⟩ := formulate_inv hd hdyn hr h
  refine ⟨ref, hu, fun ι => ?_⟩
  rw [eval_full ι η hd dyn ref cl uc P, intensity_congr fun k hk l hl =>
    definedValue_eq hd hdyn hr h hfree hres ι η hk hl]

theorem usedRef_unique {r r' : ℤ} (h : UsedRef b reference r) (h' : UsedRef b reference r') : r = r' := by
  cases reference with
  | none =>
    have := (show b.decay.bestReference = .ok r from h).symm.trans h'
    exact Except.ok.inj this
  | some x => exact (show x = r from h).symm.trans h'



theorem spin_eq {d d' : Decay} (h : d'.states = d.states) (i : ℤ) : d'.spin i = d.spin i := by
  unfold Decay.spin Decay.st; rw [h]

theorem chainValue_builder {L : Chain → ℂ} {i j k : ℤ} {l : ℤ → ℚ} {c : Chain}
    (hs : b'.decay.states = b.decay.states) (hp : b'.useProdHel = b.useProdHel)
    (hq : b'.useDecHel = b.useDecHel) :
    chainValue ι b' uc L i j k l c = chainValue ι b uc L i j k l c := by
  unfold chainValue couplings decayFactor productionFactor
  rw [hp, hq, spin_eq hs, spin_eq hs]

theorem subsystemValue_filter (keep : Chain → Bool) {L : Chain → ℂ}
    (hs : b'.decay.states = b.decay.states) (hc : b'.decay.chains = b.decay.chains.filter keep)
    (hp : b'.useProdHel = b.useProdHel) (hq : b'.useDecHel = b.useDecHel)
    (hoff : ∀ c ∈ b.decay.chains, keep c = false → ∀ lR lk li lj : ℚ,
      couplings ι b c uc lR lk li lj = 0) (k : ℤ) (l : Fin 4 → ℚ) :
    subsystemValue ι b uc L k l = subsystemValue ι b' uc L k l := by
  unfold subsystemValue
  rw [hc]
  rw [show chainValue ι b' uc L (prodIds k).1 (prodIds k).2 k (byId l) =
    chainValue ι b uc L (prodIds k).1 (prodIds k).2 k (byId l) from
    funext fun c => chainValue_builder hs hp hq]
  generalize b.decay.chains = cs at hoff
  induction cs with
  | nil => rfl
  | cons c cs ih =>
    have ih := ih fun c hc => hoff c (List.mem_cons_of_mem _ hc)
    cases hk : keep c with
    | true =>
      rw [List.filter_cons_of_pos (p := keep) hk, List.filter_cons, List.filter_cons]
      split
      · rw [List.map_cons, List.sum_cons, List.map_cons, List.sum_cons, ih]
      · exact ih
    | false =>
      rw [List.filter_cons_of_neg (p := keep) (by simp [hk]), List.filter_cons]
      split
      · rw [List.map_cons, List.sum_cons, ih]
        have : chainValue ι b uc L (prodIds k).1 (prodIds k).2 k (byId l) c = 0 := by
          unfold chainValue
          rw [hoff c List.mem_cons_self hk]
          split <;> ring
        rw [this, zero_add]
      · exact ih

theorem subsystemValue_lineshape {L L' : Chain → ℂ} (h : ∀ c ∈ b.decay.chains, L c = L' c) :
    subsystemValue ι b uc L = subsystemValue ι b uc L' := by
  funext k l
  unfold subsystemValue
  congr 1
  apply List.map_congr_left
  intro c hc
  unfold chainValue
  rw [h c (List.mem_filter.1 hc).1]

theorem subsystemValue_zero {L : Chain → ℂ} {k : ℤ} (l : Fin 4 → ℚ) (hk : k ∉ subsystems b.decay) :
    subsystemValue ι b uc L k l = 0 := by
  unfold subsystemValue
  rw [List.filter_eq_nil_iff.2]
  · rfl
  · intro c hc' h
    apply hk
    unfold subsystems
    rw [List.mem_toFinset]
    exact List.mem_map.2 ⟨c, hc', of_decide_eq_true h⟩

/-- The intensity does not depend on the chains, if subsystems without chains have amplitude zero. -/
theorem intensity_states {d d' : Decay} {ref : ℤ} {A A' : ℤ → (Fin 4 → ℚ) → ℂ}
    (hs : d'.states = d.states) (hss : subsystems d' ⊆ subsystems d)
    (hA : ∀ k, ∀ l ∈ helicities d, A k l = A' k l) (hzero : ∀ k l, k ∉ subsystems d' → A' k l = 0) :
    Spec.intensity ι d ref A = Spec.intensity ι d' ref A' := by
  have hhel : helicities d' = helicities d := by
    unfold helicities
    congr 1
    funext i
    rw [spin_eq hs]
  unfold Spec.intensity
  rw [hhel]
  apply Finset.sum_congr rfl
  intro l _
  congr 2
  unfold aligned
  rw [hhel]
  apply Finset.sum_congr rfl
  intro l' hl'
  rw [← Finset.sum_subset hss]
  · apply Finset.sum_congr rfl
    intro k _
    unfold rotation
    simp only [hA k l' hl', spin_eq hs]
  · intro k _ hk
    rw [hA k l' hl', hzero k l' hk]
    simp

theorem chainValue_linear {L : Chain → ℂ} {i j k : ℤ} {l : ℤ → ℚ} {c : Chain} {ι₀ : Interp} {z z' : ℂ}
    (hw : ι'.wig = ι.wig) (hcg : ι'.cg = ι.cg) (hsy : ι'.sym = ι.sym)
    (hw₀ : ι₀.wig = ι.wig) (hcg₀ : ι₀.cg = ι.cg) (hsy₀ : ι₀.sym = ι.sym)
    (hc : ∀ lR lk li lj : ℚ, couplings ι₀ b c uc lR lk li lj =
      z * couplings ι b c uc lR lk li lj + z' * couplings ι' b c uc lR lk li lj) :
    chainValue ι₀ b uc L i j k l c = z * chainValue ι b uc L i j k l c + z' * chainValue ι' b uc L i j k l c := by
  have hd : ∀ {ι ι' : Interp}, ι'.cg = ι.cg → decayFactor ι' b c l = decayFactor ι b c l := by
    intro ι ι' h
    unfold decayFactor lsFactor
    rw [h]
  have hp : ∀ {ι ι' : Interp}, ι'.cg = ι.cg → ∀ x y, productionFactor ι' b c x y = productionFactor ι b c x y := by
    intro ι ι' h x y
    unfold productionFactor lsFactor
    rw [h]
  unfold chainValue
  rw [hc, hd hcg, hd hcg₀, hp hcg, hp hcg₀, hw, hw₀, hsy, hsy₀]
  split <;> ring

theorem subsystemValue_linear {L : Chain → ℂ} {ι₀ : Interp} {z z' : ℂ}
    (hw : ι'.wig = ι.wig) (hcg : ι'.cg = ι.cg) (hsy : ι'.sym = ι.sym)
    (hw₀ : ι₀.wig = ι.wig) (hcg₀ : ι₀.cg = ι.cg) (hsy₀ : ι₀.sym = ι.sym)
    (hc : ∀ c ∈ b.decay.chains, ∀ lR lk li lj : ℚ, couplings ι₀ b c uc lR lk li lj =
      z * couplings ι b c uc lR lk li lj + z' * couplings ι' b c uc lR lk li lj) (k : ℤ) (l : Fin 4 → ℚ) :
    subsystemValue ι₀ b uc L k l = z * subsystemValue ι b uc L k l + z' * subsystemValue ι' b uc L k l := by
  unfold subsystemValue
  generalize b.decay.chains = cs at hc
  induction cs with
  | nil => simp
  | cons c cs ih =>
    have ih := ih fun c hc' => hc c (List.mem_cons_of_mem _ hc')
    rw [List.filter_cons]
    split
    · rw [List.map_cons, List.sum_cons, ih, List.map_cons, List.sum_cons, List.map_cons, List.sum_cons,
        chainValue_linear hw hcg hsy hw₀ hcg₀ hsy₀ (hc c List.mem_cons_self)]
      ring
    · exact ih

theorem aligned_linear {d : Decay} {ref : ℤ} {A A' A₀ : ℤ → (Fin 4 → ℚ) → ℂ} {z z' : ℂ}
    (h : ∀ k l, A₀ k l = z * A k l + z' * A' k l) (l : Fin 4 → ℚ) :
    aligned ι d ref A₀ l = z * aligned ι d ref A l + z' * aligned ι d ref A' l := by
  unfold aligned
  rw [Finset.mul_sum, Finset.mul_sum, ← Finset.sum_add_distrib]
  apply Finset.sum_congr rfl
  intro l' _
  rw [Finset.mul_sum, Finset.mul_sum, ← Finset.sum_add_distrib]
  apply Finset.sum_congr rfl
  intro k _
  rw [h]
  ring

theorem aligned_interp {d : Decay} {ref : ℤ} {A : ℤ → (Fin 4 → ℚ) → ℂ} (h1 : ι'.sym = ι.sym)
    (h2 : ι'.wig = ι.wig) (l : Fin 4 → ℚ) : aligned ι' d ref A l = aligned ι d ref A l := by
  unfold aligned rotation
  rw [h1, h2]

theorem standard_filter {d d' : Decay} (hd : Standard d) (hs : d'.states = d.states)
    {keep : Chain → Bool} (hc : d'.chains = d.chains.filter keep) : Standard d' := by
  have hsub : ∀ c ∈ d'.chains, c ∈ d.chains := by
    intro c h; rw [hc] at h; exact (List.mem_filter.1 h).1
  refine ⟨⟨?_, fun c h => hd.valid.2 c (hsub c h)⟩, ?_, ?_, ?_, fun c h => hd.resonances c (hsub c h)⟩
  · obtain ⟨-, s0, h0, hall⟩ := (decayNew_ok _ _ _).1 hd.valid.1
    rw [decayNew_ok, hs]
    refine ⟨?_, s0, h0, fun c h => hall c (hsub c h)⟩
    rw [← hs]
  · rw [hs]; exact hd.keys
  · rw [hs]; exact hd.index
  · rw [hs]; exact hd.spins

/-- Regrouping a sum by keys. -/
theorem sum_by_key {α : Type} (key : α → ℤ) (S : Finset ℤ) (f : α → ℂ) (cs : List α)
    (h : ∀ c ∈ cs, key c ∈ S) :
    ∑ k ∈ S, ((cs.filter fun c => key c = k).map f).sum = (cs.map f).sum := by
  induction cs with
  | nil => simp
  | cons c cs ih =>
    have ih := ih fun c hc => h c (List.mem_cons_of_mem _ hc)
    have : ∀ k, (((c :: cs).filter fun c => key c = k).map f).sum =
        (if key c = k then f c else 0) + ((cs.filter fun c => key c = k).map f).sum := by
      intro k
      rw [List.filter_cons]
      by_cases hk : key c = k <;> simp [hk]
    simp only [this, Finset.sum_add_distrib, ih, Finset.sum_ite_eq, h c List.mem_cons_self, if_true,
      List.map_cons, List.sum_cons]

theorem sum_filter {α : Type} (p : α → Prop) [DecidablePred p] (f : α → ℂ) (cs : List α) :
    ((cs.filter p).map f).sum = (cs.map fun c => if p c then f c else 0).sum := by
  induction cs with
  | nil => rfl
  | cons c cs ih =>
    rw [List.filter_cons]
    by_cases hk : p c <;> simp [hk, ih]

end Verif.ThreeBody
