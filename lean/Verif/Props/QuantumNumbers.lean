import Verif.Proofs.QuantumNumbers
import Verif.Props.Couplings

/-! Property C113: what the intensity depends on. -/
namespace Verif.ThreeBody
open Verif Verif.Spec Verif.Spin

variable {b b' : Builder} {dyn dyn' : Chain → DefExpr} {cl cl' uc : Bool} {r : ℤ}
  {m m' : AmplitudeModel} {ι ι' : Interp}

private theorem refOk_given (hr : r = 1 ∨ r = 2 ∨ r = 3) : RefOk (some r) := by
  rintro x ⟨⟩
  exact hr

/-- **C113** Two models have the same intensity, if the spins of their states are the same and their chains can be paired such
that the two chains of each pair have the same quantum numbers (spins, IDs, LS couplings), the same value of the
lineshape and the same values of the couplings. The names and the LaTeX of the particles, their parities, masses and widths, and the
order of the chains have no other influence than through lineshapes and couplings. -/
theorem C113_quantum_numbers (hd : Standard b.decay) (hd' : Standard b'.decay) (hdyn : Lineshapes b dyn)
    (hdyn' : Lineshapes b' dyn') (hp : b'.useProdHel = b.useProdHel) (hq : b'.useDecHel = b.useDecHel)
    (hspin : ∀ i : ℤ, b'.decay.spin i = b.decay.spin i)
    (hfree : ∀ c ∈ b.decay.chains, HelicityFree (dyn c).expression)
    (hfree' : ∀ c ∈ b'.decay.chains, HelicityFree (dyn' c).expression)
    (hres : b.useProdHel = false → ∀ c ∈ b.decay.chains, c.resonance ≠ .state c.spectator)
    (hres' : b'.useProdHel = false → ∀ c ∈ b'.decay.chains, c.resonance ≠ .state c.spectator)
    (hr : r = 1 ∨ r = 2 ∨ r = 3) (h : b.formulate (some r) cl uc = .ok m) (h' : b'.formulate (some r) cl' uc = .ok m')
    (ha : SameAngles ι ι') {η : Sym → ℚ} {cs cs' : List Chain} (hcs : cs.Perm b.decay.chains)
    (hcs' : cs'.Perm b'.decay.chains)
    (hpair : List.Forall₂ (fun c c' => SameQuantumNumbers c c' ∧
      (dyn' c').expression.eval ι' η = (dyn c).expression.eval ι η ∧
      ∀ lR lk li lj, couplings ι' b' c' uc lR lk li lj = couplings ι b c uc lR lk li lj) cs cs') :
    m'.fullExpression.eval ι' η = m.fullExpression.eval ι η := by
  obtain ⟨ref, hu, hv⟩ := full_value hd hdyn (refOk_given hr) h hfree hres η
  obtain ⟨ref', hu', hv'⟩ := full_value hd' hdyn' (refOk_given hr) h' hfree' hres' η
  have e1 : r = ref := hu
  have e2 : r = ref' := hu'
  rw [hv, hv', ← e1, ← e2]
  have hpair : List.Forall₂ (Paired ι ι' b b' uc (fun c => (dyn c).expression.eval ι η)
    fun c => (dyn' c).expression.eval ι' η) cs cs' := hpair
  refine congrArg _ (intensity_same ha hspin ?_ ?_ _)
  · rw [subsystems_perm hcs, subsystems_perm hcs', paired_subsystems hpair]
  · intro k l
    rw [subsystemValue_perm hcs, subsystemValue_perm hcs', paired_sum ha hp hq hspin hpair]

/-- **C113** Two chains with the same quantum numbers and the same lineshape cannot be told apart: the model has the same intensity
as one with a single such chain whose coupling is the sum of the two, so that only the sum can be determined from data. -/
theorem C113_degenerate (hd : Standard b.decay) (hd' : Standard b'.decay) (hdyn : Lineshapes b dyn)
    (hdyn' : Lineshapes b' dyn') (hp : b'.useProdHel = b.useProdHel) (hq : b'.useDecHel = b.useDecHel)
    (hspin : ∀ i : ℤ, b'.decay.spin i = b.decay.spin i)
    (hfree : ∀ c ∈ b.decay.chains, HelicityFree (dyn c).expression)
    (hfree' : ∀ c ∈ b'.decay.chains, HelicityFree (dyn' c).expression)
    (hres : b.useProdHel = false → ∀ c ∈ b.decay.chains, c.resonance ≠ .state c.spectator)
    (hres' : b'.useProdHel = false → ∀ c ∈ b'.decay.chains, c.resonance ≠ .state c.spectator)
    (hr : r = 1 ∨ r = 2 ∨ r = 3) (h : b.formulate (some r) cl uc = .ok m) (h' : b'.formulate (some r) cl' uc = .ok m')
    (ha : SameAngles ι ι') {η : Sym → ℚ} {c₁ c₂ c : Chain} {cs cs' : List Chain}
    (hcs : (c₁ :: c₂ :: cs).Perm b.decay.chains) (hcs' : (c :: cs').Perm b'.decay.chains)
    (h₁ : SameQuantumNumbers c₁ c ∧ (dyn' c).expression.eval ι' η = (dyn c₁).expression.eval ι η)
    (h₂ : SameQuantumNumbers c₂ c ∧ (dyn' c).expression.eval ι' η = (dyn c₂).expression.eval ι η)
    (hsum : ∀ lR lk li lj, couplings ι' b' c uc lR lk li lj =
      couplings ι b c₁ uc lR lk li lj + couplings ι b c₂ uc lR lk li lj)
    (hpair : List.Forall₂ (fun c c' => SameQuantumNumbers c c' ∧
      (dyn' c').expression.eval ι' η = (dyn c).expression.eval ι η ∧
      ∀ lR lk li lj, couplings ι' b' c' uc lR lk li lj = couplings ι b c uc lR lk li lj) cs cs') :
    m'.fullExpression.eval ι' η = m.fullExpression.eval ι η := by
  obtain ⟨ref, hu, hv⟩ := full_value hd hdyn (refOk_given hr) h hfree hres η
  obtain ⟨ref', hu', hv'⟩ := full_value hd' hdyn' (refOk_given hr) h' hfree' hres' η
  have e1 : r = ref := hu
  have e2 : r = ref' := hu'
  rw [hv, hv', ← e1, ← e2]
  have hpair : List.Forall₂ (Paired ι ι' b b' uc (fun c => (dyn c).expression.eval ι η)
    fun c => (dyn' c).expression.eval ι' η) cs cs' := hpair
  refine congrArg _ (intensity_same ha hspin ?_ ?_ _)
  · rw [subsystems_perm hcs, subsystems_perm hcs', List.map_cons, List.map_cons, List.map_cons, paired_subsystems hpair,
      ← h₁.1.spectator.1, ← h₂.1.spectator.1]
    simp only [List.toFinset_cons, Finset.insert_idem]
  · intro k l
    rw [subsystemValue_perm hcs, subsystemValue_perm hcs', degenerate_sum ha hp hq hspin h₁ h₂ hsum hpair]

/-- **C113** If the particles are given other names, LaTeX, parities, masses and widths, but the same spins, the model
can still be formulated, with the same bases of the couplings and any reference subsystem. -/
theorem C113_alter_formulates {φ : Particle → Particle} (hφ : ∀ p, (φ p).spin = p.spin) (hd : Standard b.decay)
    (hdyn : Lineshapes b dyn) (hdyn' : Lineshapes b' dyn') (hb : b'.decay = alterDecay φ b.decay)
    (hp : b'.useProdHel = b.useProdHel) (hq : b'.useDecHel = b.useDecHel) (hr : r = 1 ∨ r = 2 ∨ r = 3)
    (h : b.formulate (some r) cl uc = .ok m) (cl' uc' : Bool) : ∃ m', b'.formulate (some r) cl' uc' = .ok m' := by
  have hd' : Standard b'.decay := by rw [hb]; exact standard_alter hφ hd
  have key := C36_missing_ls hd' hdyn' (refOk_given hr) (by rintro ⟨⟩) cl' uc'
  refine key.2 fun e => ?_
  obtain ⟨⟨l, hl⟩, c', hc', hm⟩ := key.1.1 e
  rw [hb] at hc'
  obtain ⟨c, hc, rfl⟩ := List.mem_map.1 hc'
  have : b.formulate (some r) cl uc = .error .valueError := by
    refine (C36_missing_ls hd hdyn (refOk_given hr) (by rintro ⟨⟩) cl uc).1.2 ⟨⟨l, fun i hi => ?_⟩, c, hc, ?_⟩
    · have := hl i hi
      rwa [hb, spin_alter hφ] at this
    · rintro ⟨h1, h2⟩
      exact hm ⟨fun g => h1 (hp.symm.trans g), fun g => h2 (hq.symm.trans g)⟩
  rw [h] at this
  cases this

/-- **C113** If the particles are given other names, LaTeX, parities, masses and widths, but the same spins, the intensity
is the same for equal values of the lineshapes and equal values of the couplings of each chain. -/
theorem C113_alter {φ : Particle → Particle} (hφ : ∀ p, (φ p).spin = p.spin) (hd : Standard b.decay)
    (hdyn : Lineshapes b dyn) (hdyn' : Lineshapes b' dyn') (hb : b'.decay = alterDecay φ b.decay)
    (hp : b'.useProdHel = b.useProdHel) (hq : b'.useDecHel = b.useDecHel)
    (hfree : ∀ c ∈ b.decay.chains, HelicityFree (dyn c).expression)
    (hfree' : ∀ c ∈ b'.decay.chains, HelicityFree (dyn' c).expression)
    (hres : b.useProdHel = false → ∀ c ∈ b.decay.chains, ∃ p, c.resonance = .particle p)
    (hr : r = 1 ∨ r = 2 ∨ r = 3) (h : b.formulate (some r) cl uc = .ok m) (h' : b'.formulate (some r) cl' uc = .ok m')
    (ha : SameAngles ι ι') {η : Sym → ℚ}
    (hline : ∀ c ∈ b.decay.chains, (dyn' (alterChain φ c)).expression.eval ι' η = (dyn c).expression.eval ι η)
    (hcou : ∀ c ∈ b.decay.chains, ∀ lR lk li lj,
      couplings ι' b' (alterChain φ c) uc lR lk li lj = couplings ι b c uc lR lk li lj) :
    m'.fullExpression.eval ι' η = m.fullExpression.eval ι η := by
  have hd' : Standard b'.decay := by rw [hb]; exact standard_alter hφ hd
  refine C113_quantum_numbers hd hd' hdyn hdyn' hp hq (fun i => by rw [hb, spin_alter hφ]) hfree hfree' ?_ ?_ hr h h' ha
    (List.Perm.refl _) (List.Perm.refl _) ?_
  · intro g c hc e
    obtain ⟨p, hp⟩ := hres g c hc
    rw [hp] at e
    cases e
  · intro g c' hc' e
    rw [hb] at hc'
    obtain ⟨c, hc, rfl⟩ := List.mem_map.1 hc'
    obtain ⟨p, hr⟩ := hres (hp.symm.trans g) c hc
    have e : alterObj φ c.resonance = _ := e
    rw [hr] at e
    cases e
  · rw [hb]
    show List.Forall₂ _ _ (b.decay.chains.map (alterChain φ))
    rw [List.forall₂_map_right_iff, List.forall₂_same]
    exact fun c hc => ⟨same_alter hφ c, hline c hc, hcou c hc⟩

/-- The interpretation for new LaTeX `g R` of the resonances: the couplings with the label `g R` have the values that those with
the label `R` had. -/
noncomputable def relabelled (ι : Interp) (b : Builder) (uc : Bool) (g : String → String) : Interp :=
  open Classical in
  { ι with idx := fun name label ix =>
      if uc then
        if h : ∃ R, name = coefficientName (g R) b.useProdHel b.useDecHel then
          ι.idx (coefficientName h.choose b.useProdHel b.useDecHel) label ix else 0
      else if h : ∃ R, label = some (g R) then ι.idx name (some h.choose) ix else 0 }

/-- **C113** If the resonances are given other LaTeX, such that different ones remain different, then the couplings can be
given values for which the couplings of each chain are the same as before. -/
theorem C113_relabelled {φ : Particle → Particle} {g : String → String} (hg : Function.Injective g)
    (hφ : ∀ p, (φ p).latex = g p.latex) (hp : b'.useProdHel = b.useProdHel) (hq : b'.useDecHel = b.useDecHel)
    (ι : Interp) (c : Chain) (lR lk li lj : ℚ) :
    couplings (relabelled ι b uc g) b' (alterChain φ c) uc lR lk li lj = couplings ι b c uc lR lk li lj := by
  have hl : (alterChain φ c).resonance.toP.latex = g c.resonance.toP.latex := by
    show (alterObj φ c.resonance).toP.latex = _
    cases c.resonance with
    | particle p => exact hφ p
    | state s => exact hφ s.toParticle
  unfold couplings relabelled
  rw [hl, hp, hq]
  cases uc
  · have h : ∃ R, some (g c.resonance.toP.latex) = some (g R) := ⟨_, rfl⟩
    have hc : h.choose = c.resonance.toP.latex := (hg (Option.some.inj h.choose_spec)).symm
    simp only [Bool.false_eq_true, if_false]
    rw [dif_pos h, dif_pos h, hc]
    rfl
  · have h : ∃ R, coefficientName (g c.resonance.toP.latex) b.useProdHel b.useDecHel =
      coefficientName (g R) b.useProdHel b.useDecHel := ⟨_, rfl⟩
    have hc : h.choose = c.resonance.toP.latex := (hg (coefficientName_inj h.choose_spec)).symm
    simp only [if_true]
    rw [dif_pos h, hc]
    rfl

theorem relabelled_angles (ι : Interp) (b : Builder) (uc : Bool) (g : String → String) :
    SameAngles ι (relabelled ι b uc g) := ⟨rfl, rfl, fun _ _ => rfl, fun _ _ _ => rfl⟩

/-! ### Concrete cases -/

/-- Other names and LaTeX, no parities, other masses and widths. -/
def exOther (p : Particle) : Particle := { p with name := p.name ++ "x", latex := p.latex ++ "'", parity := none, mass := 7, width := p.mass }

/-- The example decay with these properties, in every basis and with both kinds of parameters: it can be formulated, and the
intensity is the same for the relabelled couplings. -/
example (p q a uc : Bool) (m : AmplitudeModel) (h : (exBuilder p q a).formulate (some 1) true uc = .ok m) (ι : Interp) (η : Sym → ℚ) :
    let d := alterDecay exOther exDecay
    ∃ m', (⟨d, Configurator.init d, p, q, a⟩ : Builder).formulate (some 1) true uc = .ok m' ∧
      m'.fullExpression.eval (relabelled ι (exBuilder p q a) uc (· ++ "'")) η = m.fullExpression.eval ι η := by
  intro d
  obtain ⟨m', h'⟩ := C113_alter_formulates (b := exBuilder p q a) (b' := ⟨d, Configurator.init d, p, q, a⟩) (φ := exOther)
    (fun _ => rfl) exDecay_standard (exBuilder_lineshapes p q a) (unit_lineshapes _ _ _ _) rfl rfl rfl (.inl rfl) h true uc
  refine ⟨m', h', C113_alter (b := exBuilder p q a) (b' := ⟨d, Configurator.init d, p, q, a⟩) (φ := exOther)
    (fun _ => rfl) exDecay_standard (exBuilder_lineshapes p q a) (unit_lineshapes _ _ _ _) rfl rfl rfl (fun _ _ => exFree)
    (fun _ _ => exFree) ?_ (.inl rfl) h h' (relabelled_angles _ _ _ _) (fun _ _ => rfl) fun c _ =>
      C113_relabelled (b := exBuilder p q a) (b' := ⟨d, Configurator.init d, p, q, a⟩) (g := (· ++ "'"))
        ?_ (fun _ => rfl) rfl rfl ι c⟩
  · intro _ c hc
    simp only [exBuilder, exDecay, List.mem_cons, List.not_mem_nil, or_false] at hc
    rcases hc with rfl | rfl <;> exact ⟨_, rfl⟩
  · intro x y hxy
    have := congrArg String.toList hxy
    simp only [String.toList_append] at this
    exact String.toList_injective (List.append_cancel_right this)

/-- A second resonance with the quantum numbers of the `K*`. -/
def exDegenerateNode : Node :=
  .isobar (.state (exState "Lc" (1/2) 2 0))
    (.isobar (.particle ⟨"K*(1410)", "K^*(1410)", 1, some (-1), 14/10, 1/4⟩)
      (.leaf (.state (exState "pi" 0 (1/7) 2))) (.leaf (.state (exState "K" 0 (1/2) 3))) (some ⟨1, 0⟩))
    (.leaf (.state (exState "p" (1/2) 1 1))) (some ⟨0, 1/2⟩)

def exChainDegenerate : Chain :=
  ⟨exDegenerateNode, exState "Lc" (1/2) 2 0, .particle ⟨"K*(1410)", "K^*(1410)", 1, some (-1), 14/10, 1/4⟩,
    exState "pi" 0 (1/7) 2, exState "K" 0 (1/2) 3, exState "p" (1/2) 1 1, some ⟨0, 1/2⟩, some ⟨1, 0⟩⟩

/-- Both resonances. -/
def exDegenerate (p q a : Bool) : Builder :=
  let d : Decay := ⟨exStates, [exChainL, exChainDegenerate, exChainK]⟩
  ⟨d, Configurator.init d, p, q, a⟩

theorem exDegenerate_valid (p q a : Bool) : (exDegenerate p q a).decay.Valid := by
  refine ⟨?_, ?_⟩
  · have hf : (finalStateDict exStates).map Prod.snd =
        [exState "p" (1/2) 1 1, exState "pi" 0 (1/7) 2, exState "K" 0 (1/2) 3] := rfl
    have : checkChains (exState "Lc" (1/2) 2 0) ((finalStateDict exStates).map Prod.snd)
        (exDegenerate p q a).decay.chains = .ok () := by
      rw [checkChains_ok, hf]
      intro c hc
      simp only [exDegenerate, List.mem_cons, List.not_mem_nil, or_false] at hc
      rcases hc with rfl | rfl | rfl <;>
      · refine ⟨rfl, fun s => ?_⟩
        simp only [exChainK, exChainL, exChainDegenerate, List.mem_cons, List.not_mem_nil, or_false]
        try tauto
    have h0 : initialState (exDegenerate p q a).decay.states = .ok (exState "Lc" (1/2) 2 0) := rfl
    unfold Decay.new
    rw [h0]
    simp only [bind, Except.bind]
    rw [show (exDegenerate p q a).decay.states = exStates from rfl, this]; rfl
  · intro c hc
    simp only [exDegenerate, List.mem_cons, List.not_mem_nil, or_false] at hc
    rcases hc with rfl | rfl | rfl
    · exact exL_ok
    · show Chain.new exDegenerateNode = .ok exChainDegenerate
      rw [chainNew_shape _ _ _ _ _ _ _ exDegenerateNode (.inl rfl)]; rfl
    · exact exK_ok

theorem exDegenerate_standard (p q a : Bool) : Standard (exDegenerate p q a).decay := by
  refine ⟨exDegenerate_valid p q a, exDecay_standard.2, exDecay_standard.3, exDecay_standard.4, ?_⟩
  intro c hc
  simp only [exDegenerate, List.mem_cons, List.not_mem_nil, or_false] at hc
  rcases hc with rfl | rfl | rfl
  · exact ⟨3, by norm_num [exChainL, Obj.toP]⟩
  · exact ⟨2, by norm_num [exChainDegenerate, Obj.toP]⟩
  · exact ⟨2, by norm_num [exChainK, Obj.toP]⟩

/-- The `K*` and its excitation, with the same lineshape, cannot be told apart: for all values of the coefficients there are
values of the coefficients of the example decay, without the excitation, for which the intensity is the same. -/
example (p q a : Bool) (m m' : AmplitudeModel) (h : (exDegenerate p q a).formulate (some 1) true true = .ok m)
    (h' : (exBuilder p q a).formulate (some 1) true true = .ok m') (ι : Interp) :
    ∃ ι' : Interp, ι'.sym = ι.sym ∧ ∀ η, m'.fullExpression.eval ι' η = m.fullExpression.eval ι η := by
  obtain ⟨ι', hf, hsym, hv⟩ := C111_coefficients_free (b := exBuilder p q a) ι fun R ix =>
    ι.idx (coefficientName R p q) none ix + if R = "K^*" then ι.idx (coefficientName "K^*(1410)" p q) none ix else 0
  refine ⟨ι', hsym, fun η => ?_⟩
  have ha : SameAngles ι ι' := ⟨hf.wig.symm, hf.cg.symm, fun _ _ => by rw [hsym], fun _ _ _ => by rw [hsym]⟩
  refine C113_degenerate (b := exDegenerate p q a) (b' := exBuilder p q a) (c₁ := exChainK) (c₂ := exChainDegenerate) (c := exChainK)
    (cs := [exChainL]) (cs' := [exChainL]) (exDegenerate_standard p q a) exDecay_standard (unit_lineshapes _ _ _ _)
    (exBuilder_lineshapes p q a) rfl rfl (fun _ => rfl) (fun _ _ => exFree) (fun _ _ => exFree) ?_ (fun _ => exRes) (.inl rfl)
    h h' ha ?_ (List.Perm.refl _) ⟨⟨rfl, rfl, ⟨rfl, rfl⟩, ⟨rfl, rfl⟩, ⟨rfl, rfl⟩, ⟨rfl, rfl⟩, Iff.rfl⟩, rfl⟩
    ⟨⟨rfl, rfl, ⟨rfl, rfl⟩, ⟨rfl, rfl⟩, ⟨rfl, rfl⟩, ⟨rfl, rfl⟩, ?_⟩, rfl⟩ ?_ ?_
  · intro _ c hc
    simp only [exDegenerate, List.mem_cons, List.not_mem_nil, or_false] at hc
    rcases hc with rfl | rfl | rfl <;> simp [exChainK, exChainL, exChainDegenerate]
  · show [exChainK, exChainDegenerate, exChainL].Perm [exChainL, exChainDegenerate, exChainK]
    exact (List.reverse_perm [exChainL, exChainDegenerate, exChainK])
  · exact ⟨fun _ => ⟨_, _, _, _, _, _, _, rfl⟩, fun _ => ⟨_, _, _, _, _, _, _, rfl⟩⟩
  · intro lR lk li lj
    rw [hv]
    rfl
  · refine .cons ⟨⟨rfl, rfl, ⟨rfl, rfl⟩, ⟨rfl, rfl⟩, ⟨rfl, rfl⟩, ⟨rfl, rfl⟩, Iff.rfl⟩, rfl, ?_⟩ .nil
    intro lR lk li lj
    rw [hv, if_neg (by decide), add_zero]
    rfl

/-- Both can be formulated. -/
example (a : Bool) : ∃ m, (exDegenerate true true a).formulate (some 1) true true = .ok m := by
  refine (C36_missing_ls (exDegenerate_standard true true a) (unit_lineshapes _ _ _ _) (refOk_given (.inl rfl))
    (by rintro ⟨⟩) true true).2 fun e => ?_
  obtain ⟨-, c, -, hc⟩ := (C36_missing_ls (exDegenerate_standard true true a) (unit_lineshapes _ _ _ _)
    (refOk_given (.inl rfl)) (by rintro ⟨⟩) true true).1.1 e
  exact hc ⟨fun h => (by cases h), fun h => (by cases h)⟩


end Verif.ThreeBody
