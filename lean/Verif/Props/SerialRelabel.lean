import Verif.Proofs.SerialRelabel
import Verif.Props.SerialAmplitude
import Verif.Props.SerialDynamics
import Verif.Props.SerialClosure

/-! Property C100: the numbering of the final states of a serialized model, up to cyclic permutations,
does not matter. -/
namespace Verif.Serialization
open Verif Verif.ThreeBody Verif.Spec Verif.Spin Verif.Angles

variable {m : ModelDefinition} {tl : String → String} {add add' : Option (PyDict String PropagatorBuilder)}
  {D : Distribution} {rd : ChainDefinition → Reading} {cl cl' : Bool} {a a' : AmplitudeModel} {ref : ℤ}
  {ι ι' : Interp}

/-- The scattering angle of a renumbered pair. -/
theorem scattering_renumber {i j k : ℤ} (hp : [i, j, k].Perm [1, 2, 3]) {s s' : Sym} {e e' : RExpr}
    (h : formulateScatteringAngle i j = .ok (s, e)) (h' : formulateScatteringAngle (cyc i) (cyc j) = .ok (s', e')) :
    e' = renameR cycSym e ∧ ∀ x ∈ kinematicSymbols e, x ∈ providedSymbols := by
  have key : (formulateScatteringAngle (cyc i) (cyc j)).map Prod.snd =
      ((formulateScatteringAngle i j).map Prod.snd).map (renameR cycSym) ∧
      ∀ x ∈ kinematicSymbols (match formulateScatteringAngle i j with | .ok x => x.2 | .error _ => 0),
        x ∈ providedSymbols := by
    have : (i, j) ∈ [((1 : ℤ), (2 : ℤ)), (2, 1), (1, 3), (3, 1), (2, 3), (3, 2)] := by
      have h1 := hp.subset (List.mem_cons_self ..)
      have h2 := hp.subset (List.mem_cons_of_mem _ (List.mem_cons_self ..))
      have h3 := hp.nodup_iff.2 (by decide)
      simp only [List.mem_cons, List.not_mem_nil, or_false, List.nodup_cons, not_or] at h1 h2 h3
      rcases h1 with rfl | rfl | rfl <;> rcases h2 with rfl | rfl | rfl <;> simp_all
    simp only [List.mem_cons, List.not_mem_nil, or_false, Prod.mk.injEq] at this
    rcases this with ⟨rfl, rfl⟩ | ⟨rfl, rfl⟩ | ⟨rfl, rfl⟩ | ⟨rfl, rfl⟩ | ⟨rfl, rfl⟩ | ⟨rfl, rfl⟩ <;>
      decide +kernel
  rw [h, h'] at key
  exact ⟨Except.ok.inj key.1, key.2⟩

theorem topologySubsystems_renumber (chains : List ChainDefinition) :
    topologySubsystems (chains.map renumberChainDef) = (topologySubsystems chains).image cyc := by
  ext k
  simp only [topologySubsystems, Finset.mem_filter, Finset.mem_image, List.mem_map, exists_exists_and_eq_and]
  constructor
  · rintro ⟨hk, c, hc, hs⟩
    obtain ⟨i, -, he⟩ := id_mem_renumber.1 hs.1
    subst he
    refine ⟨i, ⟨?_, c, hc, spectator_renumber.1 hs⟩, rfl⟩
    have := cyc_mem.1 (show cyc i ∈ ([1, 2, 3] : List ℤ) by simpa using hk)
    simpa using this
  · rintro ⟨i, ⟨hi, c, hc, hs⟩, rfl⟩
    refine ⟨?_, c, hc, spectator_renumber.2 hs⟩
    have := cyc_mem.2 (show i ∈ ([1, 2, 3] : List ℤ) by simpa using hi)
    simpa using this

/-- The intensities of two decays whose spins and angles differ by the numbering. -/
theorem intensityOver_renumber (ht : Renumbered ι ι') {d d' : Decay} (hd : ∀ i, d'.spin (cyc i) = d.spin i)
    {S : Finset ℤ} {r : ℤ} {A A' : ℤ → (Fin 4 → ℚ) → ℂ}
    (hz : ∀ k ∈ S, ∀ i : Fin 4, d.spin i ≠ 0 →
      ι'.sym (zetaSymbol (cyc i) (cyc k) (cyc r)) = ι.sym (zetaSymbol i k r))
    (hA : ∀ k ∈ S, ∀ l ∈ helicities d, A' (cyc k) (renumberHel l) = A k l) :
    intensityOver ι' d' (S.image cyc) (cyc r) A' = intensityOver ι d S r A := by
  have hspin : d'.spin = (renumberDecay d).spin := by
    funext i
    rw [← cyc3 i, hd, spin_renumber]
  have hh : helicities d' = helicities (renumberDecay d) := by
    unfold helicities
    rw [hspin]
  have hrot : ∀ k i x y, rotation ι' d' (cyc r) k i x y = rotation ι' (renumberDecay d) (cyc r) k i x y := by
    intro k i x y
    unfold rotation
    rw [hspin]
  unfold intensityOver alignedOver
  simp only [hh, hrot]
  rw [sum_helicities]
  refine Finset.sum_congr rfl fun l _ => ?_
  refine congrArg (fun x : ℂ => ‖x‖ ^ 2) ?_
  rw [sum_helicities]
  refine Finset.sum_congr rfl fun l' hl' => ?_
  rw [Finset.sum_image (fun a _ b _ h => cyc_inj h)]
  refine Finset.sum_congr rfl fun k hk => ?_
  have R := fun (i : Fin 4) a a' => rotation_renumber (r := r) (k := k) (i := i) ht (hz k hk i) a a'
  have R0 := R 0
  have R1 := R 1
  have R2 := R 2
  have R3 := R 3
  rw [show cycF 0 = 0 from rfl] at R0
  rw [show cycF 1 = 2 from rfl] at R1
  rw [show cycF 2 = 3 from rfl] at R2
  rw [show cycF 3 = 1 from rfl] at R3
  rw [hA k hk l' hl', R0, R1, R2, R3,
    show renumberHel l 0 = l 0 from rfl, show renumberHel l 1 = l 3 from rfl,
    show renumberHel l 2 = l 1 from rfl, show renumberHel l 3 = l 2 from rfl,
    show renumberHel l' 0 = l' 0 from rfl, show renumberHel l' 1 = l' 3 from rfl,
    show renumberHel l' 2 = l' 1 from rfl, show renumberHel l' 3 = l' 2 from rfl]
  ring

/-- C100: renumbering the final states `1 → 2 → 3 → 1` everywhere in a serialized model does not change the
intensity. The renumbered model is evaluated at the same kinematic point, with masses and Mandelstam
variables renumbered, and with the same weights, lineshapes and form factors. -/
theorem C100_cyclic (hm : ReadsModel m D rd) (h0 : NonnegativeSpins D)
    (href : IsSpectator D.referenceTopology ref) (href' : ref ∈ ([1, 2, 3] : List ℤ))
    (h : formulate m cl tl add = .ok a) (h' : formulate (renumberModel m) cl' tl add' = .ok a')
    (ht : Renumbered ι ι') (hw : SameWeights ι ι' tl D.chains rd)
    (ha : ∀ x ∈ a.angleDefs, Computes ι x) (ha' : ∀ x ∈ a'.angleDefs, Computes ι' x)
    {line line' : ChainDefinition → ℂ} {form form' : Vertex → ℂ}
    (hv : DynamicsValues m D.chains tl add ι line form)
    (hv' : DynamicsValues (renumberModel m) (renumberDistribution D).chains tl add' ι' line' form')
    (hline : ∀ c ∈ D.chains, line' (renumberChainDef c) = line c)
    (hform : ∀ c ∈ D.chains, ∀ v ∈ c.vertices, form' (renumberVertex v) = form v) (η : Sym → ℚ) :
    a'.fullExpression.eval ι' η = a.fullExpression.eval ι η := by
  classical
  have hm' := readsModel_renumber hm
  have hsp := spectator_renumber.2 href
  have hr' := cyc_mem.2 href'
  rw [(C70_intensity_value hm h0 href href' h ι η).2,
    (C70_intensity_value hm' (nonneg_renumber h0) hsp hr' h' ι' η).2]
  obtain ⟨hθ, hζ⟩ := C71_angles_defined hm h0 href href' h
  obtain ⟨hθ', hζ'⟩ := C71_angles_defined hm' (nonneg_renumber h0) hsp hr' h'
  have hS : topologySubsystems (renumberDistribution D).chains = (topologySubsystems D.chains).image cyc :=
    topologySubsystems_renumber _
  have hspin : ∀ i, a'.decay.spin (cyc i) = a.decay.spin i := by
    obtain ⟨_, _, _, _, _, _, _, _, hf⟩ := formulate_inv hm.head hm.kinematics h
    obtain ⟨_, _, _, _, _, _, _, _, hf'⟩ := formulate_inv hm'.head hm'.kinematics h'
    exact spin_of_renumbered hm hf.decay hf'.decay
  rw [hS]
  refine congrArg _ (intensityOver_renumber ht hspin ?_ ?_)
  · intro k hk i hi
    have hi4 : (i : ℤ) ∈ ([0, 1, 2, 3] : List ℤ) := by fin_cases i <;> decide
    have hci : cyc (i : ℤ) ∈ ([0, 1, 2, 3] : List ℤ) := by fin_cases i <;> decide
    have hk3 : k ∈ ([1, 2, 3] : List ℤ) := by
      have := (Finset.mem_filter.1 hk).1
      simpa using this
    obtain ⟨e, he, hg⟩ := hζ k hk i hi4 hi
    obtain ⟨e', he', hg'⟩ := hζ' (cyc k) (by rw [hS]; exact Finset.mem_image_of_mem _ hk) (cyc i) hci
      (by rw [hspin]; exact hi)
    obtain ⟨v, g1, g2⟩ := ha _ (PyDict.mem_of_get? hg)
    obtain ⟨v', g1', g2'⟩ := ha' _ (PyDict.mem_of_get? hg')
    have e1 : e = zetaExpr i k ref := by
      have := zeta_eq hi4 hk3 href'
      rw [he] at this
      injection this with this
      exact congrArg Prod.snd this
    have e2 : e' = zetaExpr (cyc i) (cyc k) (cyc ref) := by
      have := zeta_eq hci (cyc_mem.2 hk3) hr'
      rw [he'] at this
      injection this with this
      exact congrArg Prod.snd this
    subst e1 e2
    have := eval_renumbered (ρ := fun s => (ι.sym s).re) (ρ' := fun s => (ι'.sym s).re)
      (zeta_renumber hi4 hk3 href') (zeta_symbols hi4 hk3 href') (provided_renumber ht)
    dsimp only at g1 g1' g2 g2'
    rw [g1, g1'] at this
    injection this with this
    exact g2'.trans ((congrArg _ this).trans g2.symm)
  · intro k hk l hl
    have hl' : renumberHel l ∈ helicities a'.decay := by
      have hh : helicities a'.decay = helicities (renumberDecay a.decay) := by
        unfold helicities
        have : a'.decay.spin = (renumberDecay a.decay).spin := by
          funext i
          rw [← cyc3 i, hspin, spin_renumber]
        rw [this]
      rw [hh]
      exact (renumberHel_mem l).2 hl
    rw [C60_amplitude_value hm h hv η k hl, C60_amplitude_value hm' h' hv' η (cyc k) hl']
    rw [show (renumberDistribution D).chains = D.chains.map renumberChainDef from rfl, List.map_map]
    refine congrArg List.sum (List.map_congr_left fun c hc => ?_)
    rw [Function.comp_apply, show (renumberChainDef c).topology = renumberTrees c.topology from rfl]
    have hiff : IsSpectator (renumberTrees c.topology) (cyc k) ↔ IsSpectator c.topology k := spectator_renumber
    by_cases hs : IsSpectator c.topology k
    swap
    · rw [if_neg hs, if_neg fun e => hs (hiff.1 e)]
    rw [if_pos hs, if_pos (hiff.2 hs), renumberedReadings_eq]
    obtain ⟨hrd, hst⟩ := hm.reads c hc
    unfold serialValue
    rw [hw c hc, hline c hc]
    have hθv : ι'.sym ⟨"theta_" ++ toString (cyc (rd c).i) ++ toString (cyc (rd c).j), .real⟩ =
        ι.sym ⟨"theta_" ++ toString (rd c).i ++ toString (rd c).j, .real⟩ := by
      obtain ⟨e, he, hg⟩ := hθ c hc
      obtain ⟨e', he', hg'⟩ := hθ' (renumberChainDef c) (List.mem_map.2 ⟨c, hc, rfl⟩)
      rw [renumberedReadings_eq] at he' hg'
      obtain ⟨v, g1, g2⟩ := ha _ (PyDict.mem_of_get? hg)
      obtain ⟨v', g1', g2'⟩ := ha' _ (PyDict.mem_of_get? hg')
      obtain ⟨q1, q2⟩ := scattering_renumber hst he he'
      have := eval_renumbered (ρ := fun s => (ι.sym s).re) (ρ' := fun s => (ι'.sym s).re) q1 q2
        (provided_renumber ht)
      dsimp only at g1 g1' g2 g2'
      rw [g1, g1'] at this
      injection this with this
      exact g2'.trans ((congrArg _ this).trans g2.symm)
    have hids : ∀ v ∈ c.vertices, ∀ i, .id i ∈ v.node → i ∈ ([0, 1, 2, 3] : List ℤ) := by
      intro v hv i hi
      exact mem0 (reads_ids hrd hst hv hi)
    have hprod : ((renumberChainDef c).vertices.map fun v =>
          vertexValue v (renumberReading (rd c)).lR (byId (renumberHel l))).prod =
        (c.vertices.map fun v => vertexValue v (rd c).lR (byId l)).prod := by
      rw [show (renumberChainDef c).vertices = c.vertices.map renumberVertex from rfl, List.map_map]
      exact congrArg List.prod (List.map_congr_left fun v hv => vertexValue_renumber _ _ (hids v hv))
    have hforms : ((renumberChainDef c).vertices.map form').prod = (c.vertices.map form).prod := by
      rw [show (renumberChainDef c).vertices = c.vertices.map renumberVertex from rfl, List.map_map]
      exact congrArg List.prod (List.map_congr_left fun v hv => hform c hc v hv)
    have hspinc : chainSpin (renumberChainDef c) = chainSpin c := by
      unfold chainSpin
      rw [show (renumberChainDef c).propagators = c.propagators.map renumberPropagator from rfl]
      cases c.propagators <;> rfl
    rw [hprod, hforms, hspinc]
    simp only [renumberReading]
    rw [hθv, ht.functions.wig]

/-! ### Lineshapes and form factors -/

theorem pair_renumber {node : List Tree} {i j : ℤ} (h : node = [.id i, .id j]) :
    renumberTrees node = [.id (cyc i), .id (cyc j)] := by
  rw [h]
  simp only [renumberTrees, renumberTree]

theorem perm_renumber {i j k : ℤ} (hp : [i, j, k].Perm [1, 2, 3]) : [cyc i, cyc j, cyc k].Perm [1, 2, 3] :=
  (List.Perm.map cyc hp).trans (by decide)

theorem getFunction_renumber (name : String) :
    getFunctionDefinition name (renumberModel m) = getFunctionDefinition name m := rfl

/-- A symbol whose name has `_` or `\\` among its first two characters is no mass of a state and no
Mandelstam variable. -/
theorem parameter_same (hpar : SameLineshapeParameters ι ι') {s : Sym} (hs : s.asm = .nonneg)
    (hn : ∀ x ∈ ["m0", "m1", "m2", "m3", "sigma1", "sigma2", "sigma3"], s.name.toList.take 2 ≠ x.toList.take 2) :
    ι'.sym s = ι.sym s := by
  have t0 : "m" ++ toString (0 : ℤ) = "m0" := by decide +kernel
  have t1 : "m" ++ toString (1 : ℤ) = "m1" := by decide +kernel
  have t2 : "m" ++ toString (2 : ℤ) = "m2" := by decide +kernel
  have t3 : "m" ++ toString (3 : ℤ) = "m3" := by decide +kernel
  have u1 : "sigma" ++ toString (1 : ℤ) = "sigma1" := by decide +kernel
  have u2 : "sigma" ++ toString (2 : ℤ) = "sigma2" := by decide +kernel
  have u3 : "sigma" ++ toString (3 : ℤ) = "sigma3" := by decide +kernel
  refine hpar s hs ?_ ?_
  · intro i hi he
    simp only [List.mem_cons, List.not_mem_nil, or_false] at hi
    rcases hi with rfl | rfl | rfl | rfl
    · exact hn "m0" (by simp) (by rw [he, t0])
    · exact hn "m1" (by simp) (by rw [he, t1])
    · exact hn "m2" (by simp) (by rw [he, t2])
    · exact hn "m3" (by simp) (by rw [he, t3])
  · intro i hi he
    simp only [List.mem_cons, List.not_mem_nil, or_false] at hi
    rcases hi with rfl | rfl | rfl
    · exact hn "sigma1" (by simp) (by rw [he, u1])
    · exact hn "sigma2" (by simp) (by rw [he, u2])
    · exact hn "sigma3" (by simp) (by rw [he, u3])

theorem two_letters {s : Sym} {p t : String} (hs : s.name = p ++ t) {a b : Char} (hp : p.toList.take 2 = [a, b])
    (h : ∀ x ∈ ["m0", "m1", "m2", "m3", "sigma1", "sigma2", "sigma3"], [a, b] ≠ x.toList.take 2) :
    ∀ x ∈ ["m0", "m1", "m2", "m3", "sigma1", "sigma2", "sigma3"], s.name.toList.take 2 ≠ x.toList.take 2 := by
  intro x hx
  have hl : 2 ≤ p.toList.length := by
    have := congrArg List.length hp
    simp only [List.length_take, List.length_cons, List.length_nil] at this
    omega
  rw [hs, String.toList_append, List.take_append_of_le_length hl, hp]
  exact h x hx

/-- The parameters of the built-in lineshapes and form factors. -/
theorem parameters_same (hpar : SameLineshapeParameters ι ι') (R : String) :
    ι'.sym (resonanceMass R) = ι.sym (resonanceMass R) ∧ ι'.sym (resonanceWidth R) = ι.sym (resonanceWidth R) ∧
    ι'.sym resRadius = ι.sym resRadius ∧
    ι'.sym ⟨"R_{" ++ R ++ "}", .nonneg⟩ = ι.sym ⟨"R_{" ++ R ++ "}", .nonneg⟩ ∧
    ∀ n, ι'.sym (channelWidth R n) = ι.sym (channelWidth R n) ∧
      ι'.sym (channelMassA n) = ι.sym (channelMassA n) ∧ ι'.sym (channelMassB n) = ι.sym (channelMassB n) := by
  refine ⟨?_, ?_, ?_, ?_, fun n => ⟨?_, ?_, ?_⟩⟩
  · exact parameter_same hpar rfl (two_letters (p := "m_{") (String.append_assoc ..) (a := 'm') (b := '_') rfl
      (by decide))
  · exact parameter_same hpar rfl (two_letters (p := "\\Gamma_{") (String.append_assoc ..) (a := '\\') (b := 'G') rfl
      (by decide))
  · exact parameter_same hpar rfl (by decide)
  · exact parameter_same hpar rfl (two_letters (p := "R_{") (String.append_assoc ..) (a := 'R') (b := '_') rfl
      (by decide))
  · refine parameter_same hpar rfl (two_letters (p := "\\Gamma_{")
      (t := R ++ "}^\\text{ch. " ++ toString n ++ "}") ?_ (a := '\\') (b := 'G') rfl (by decide))
    simp only [channelWidth, String.append_assoc]
  · exact parameter_same hpar rfl (two_letters (p := "m_{a,") (String.append_assoc ..) (a := 'm') (b := '_') rfl
      (by decide))
  · exact parameter_same hpar rfl (two_letters (p := "m_{b,") (String.append_assoc ..) (a := 'm') (b := '_') rfl
      (by decide))

theorem breitWigner_renumber {p : Propagator} {R : String} (hn : PairNode p.node) {e : DefExpr}
    (h : formulateBreitWigner p R m = .ok e) :
    ∃ e', formulateBreitWigner (renumberPropagator p) R (renumberModel m) = .ok e' ∧
      ∀ ι ι' : Interp, Renumbered ι ι' → SameLineshapeParameters ι ι' → ∀ η,
        e'.expression.eval ι' η = e.expression.eval ι η := by
  obtain ⟨i, j, k, hn, hp⟩ := hn
  obtain ⟨f, i', j', s, m1, m2, L, mass, width, ma, mb, d, h1, h2, h3, h4, h5, h6, h7, h8, h9, h10, h11, rfl⟩ :=
    breitWigner_ok.1 h
  have hn' : (renumberPropagator p).node = [.id (cyc i), .id (cyc j)] := pair_renumber hn
  refine ⟨_, breitWigner_ok.2 ⟨f, _, _, _, _, _, L, mass, width, ma, mb, d, h1, hn',
      mandelstam_of hn' (perm_renumber hp), rfl, rfl, h6, h7, h8, h9, h10, h11, rfl⟩, fun ι ι' ht hpar η => ?_⟩
  rw [hn] at h2
  cases h2
  cases h4
  cases h5
  rw [mandelstam_of hn hp] at h3
  cases h3
  obtain ⟨q1, q2, q3, -⟩ := parameters_same hpar R
  have r1 := ht.masses i (mem0 (hp.subset (by simp)))
  have r2 := ht.masses j (mem0 (hp.subset (by simp)))
  have r3 : ι'.sym (mandelstam (cyc k)) = ι.sym (mandelstam k) := ht.mandelstam k (hp.subset (by simp))
  rw [(C37_closed_form ..).2.2 (by rintro ⟨-, h, -⟩; cases h), (C37_closed_form ..).2.2 (by rintro ⟨-, h, -⟩; cases h)]
  simp only [Expr.eval]
  rw [q1, q2, q3, r1, r2, r3, ht.functions.edw]

theorem channelLoop_renumber {R : String} {s s' mass d : Sym} {n : ℕ} {cs : List (PyDict String ℚ)}
    {ch ch' : List ChannelArguments} {P P' : PyDict Key Val} {r : List ChannelArguments × PyDict Key Val}
    (h : channelLoop R s mass d n cs ch P = .ok r) :
    ∃ r', channelLoop R s' mass d n cs ch' P' = .ok r' ∧
      ∀ ι ι' : Interp, SameFunctions ι ι' → ι'.sym s' = ι.sym s → ι'.sym mass = ι.sym mass →
        ι'.sym d = ι.sym d → SameLineshapeParameters ι ι' → ∀ η,
        ch'.map (ThreeBody.channelWidth ι' η) = ch.map (ThreeBody.channelWidth ι η) →
        r'.1.map (ThreeBody.channelWidth ι' η) = r.1.map (ThreeBody.channelWidth ι η) := by
  induction cs generalizing n ch ch' P P' with
  | nil =>
    cases h
    exact ⟨_, rfl, fun _ _ _ _ _ _ _ _ h => h⟩
  | cons c t ih =>
    unfold channelLoop at h ⊢
    simp only [bind_ok] at h ⊢
    obtain ⟨L, hl, ma, ha, mb, hb, gsq, hg, h⟩ := h
    obtain ⟨r', hr', hv⟩ := ih (ch' := ch' ++ [⟨.sym s', .sym mass, .sym (channelWidth R n), .sym (channelMassA n),
        .sym (channelMassB n), pyInt L, .sym d⟩])
      (P' := PyDict.update P' [(.sym (channelMassA n), .real ma), (.sym (channelMassB n), .real mb),
        (.sym (channelWidth R n), .real gsq)]) h
    refine ⟨r', ⟨L, hl, ma, ha, mb, hb, gsq, hg, hr'⟩, fun ι ι' hf h1 h2 h3 hpar η hch => ?_⟩
    refine hv ι ι' hf h1 h2 h3 hpar η ?_
    obtain ⟨-, -, -, -, q⟩ := parameters_same hpar R
    obtain ⟨q1, q2, q3⟩ := q n
    rw [List.map_append, List.map_append, hch]
    simp only [List.map_cons, List.map_nil, ThreeBody.channelWidth, Expr.eval]
    rw [h1, h2, h3, q1, q2, q3, hf.ff]

theorem multichannel_renumber {p : Propagator} {R : String} (hn : PairNode p.node) {e : DefExpr}
    (h : formulateMultichannelBreitWigner p R m = .ok e) :
    ∃ e', formulateMultichannelBreitWigner (renumberPropagator p) R (renumberModel m) = .ok e' ∧
      ∀ ι ι' : Interp, Renumbered ι ι' → SameLineshapeParameters ι ι' → ∀ η,
        e'.expression.eval ι' η = e.expression.eval ι η := by
  obtain ⟨i, j, k, hn, hp⟩ := hn
  obtain ⟨f, c1, c2, cs, i', j', s, m1, m2, L, mass, gsq, ma, mb, d, r, h1, hc, h2, h3, h4, h5, h6, h7, h8, h9,
    h10, h11, h12, rfl⟩ := multichannel_ok h
  have hn' : (renumberPropagator p).node = [.id (cyc i), .id (cyc j)] := pair_renumber hn
  rw [hn] at h2
  cases h2
  cases h4
  cases h5
  rw [mandelstam_of hn hp] at h3
  cases h3
  obtain ⟨r', hr', hv⟩ := channelLoop_renumber (s' := mandelstam (cyc k))
    (ch' := [⟨.sym (mandelstam (cyc k)), .sym (resonanceMass R), .sym (resonanceWidth R),
      .sym ⟨"m" ++ toString (cyc i), .nonneg⟩, .sym ⟨"m" ++ toString (cyc j), .nonneg⟩, pyInt L,
      .sym ⟨"R_{" ++ R ++ "}", .nonneg⟩⟩])
    (P' := PyDict.ofItems [(.sym (resonanceMass R), .real mass), (.sym (resonanceWidth R), .real gsq),
      (.sym ⟨"m" ++ toString (cyc i), .nonneg⟩, .real ma), (.sym ⟨"m" ++ toString (cyc j), .nonneg⟩, .real mb),
      (.sym ⟨"R_{" ++ R ++ "}", .nonneg⟩, .real d)]) h12
  refine ⟨⟨multichannelBreitWigner (.sym (mandelstam (cyc k))) (.sym (resonanceMass R)) r'.1, r'.2⟩, ?_, ?_⟩
  · unfold formulateMultichannelBreitWigner
    simp only [bind_ok]
    refine ⟨f, h1, ?_⟩
    rw [hc]
    simp only [bind_ok]
    exact ⟨_, unpack2_ok.2 hn', _, mandelstam_of hn' (perm_renumber hp), _, rfl, _, rfl, _, get_ok.2 h6, _,
      get_ok.2 h7, _, get_ok.2 h8, _, get_ok.2 h9, _, get_ok.2 h10, _, get_ok.2 h11, _, hr', rfl⟩
  · intro ι ι' ht hpar η
    obtain ⟨q1, q2, -, q4, -⟩ := parameters_same hpar R
    have r1 := ht.masses i (mem0 (hp.subset (by simp)))
    have r2 := ht.masses j (mem0 (hp.subset (by simp)))
    have r3 : ι'.sym (mandelstam (cyc k)) = ι.sym (mandelstam k) := ht.mandelstam k (hp.subset (by simp))
    rw [C39_sum_of_widths, C39_sum_of_widths, hv ι ι' ht.functions r3 q1 q4 hpar η]
    · simp only [Expr.eval]
      rw [q1, r3]
    · simp only [List.map_cons, List.map_nil, ThreeBody.channelWidth, Expr.eval]
      rw [q1, q2, q4, r1, r2, r3, ht.functions.ff]

/-- C100: the lineshapes of a renumbered chain with the built-in functions are returned, and have the same
values, when masses and Mandelstam variables are renumbered. -/
theorem C100_lineshapes {c : ChainDefinition} (hn : PairNodes c) {e : DefExpr}
    (h : formulateDynamics c m tl none = .ok e) :
    ∃ e', formulateDynamics (renumberChainDef c) (renumberModel m) tl none = .ok e' ∧
      ∀ ι ι' : Interp, Renumbered ι ι' → SameLineshapeParameters ι ι' → ∀ η,
        e'.expression.eval ι' η = e.expression.eval ι η := by
  unfold formulateDynamics at h ⊢
  have key : ∀ (ps : List Propagator), (∀ p ∈ ps, PairNode p.node) → ∀ (x x' e : DefExpr),
      dynamicsLoop (dynamicsDefinitions none) (tl c.name) m ps x = .ok e →
      ∃ e', dynamicsLoop (dynamicsDefinitions none) (tl c.name) (renumberModel m) (ps.map renumberPropagator) x' =
          .ok e' ∧
        ∀ ι ι' : Interp, Renumbered ι ι' → SameLineshapeParameters ι ι' → ∀ η,
          x'.expression.eval ι' η = x.expression.eval ι η →
          e'.expression.eval ι' η = e.expression.eval ι η := by
    intro ps
    induction ps with
    | nil =>
      intro _ x x' e h
      cases h
      exact ⟨x', rfl, fun _ _ _ _ _ h => h⟩
    | cons p t ih =>
      intro hps x x' e h
      rw [List.map_cons]
      unfold dynamicsLoop at h ⊢
      simp only [bind_ok] at h ⊢
      obtain ⟨f, hf, h⟩ := h
      cases hb : PyDict.get? (dynamicsDefinitions none) f.type with
      | none => rw [hb] at h; cases h
      | some b =>
        rw [hb] at h
        simp only [bind_ok] at h
        obtain ⟨y, hy, h⟩ := h
        have hy' : ∃ y', b (renumberPropagator p) (tl c.name) (renumberModel m) = .ok y' ∧
            ∀ ι ι' : Interp, Renumbered ι ι' → SameLineshapeParameters ι ι' → ∀ η,
              y'.expression.eval ι' η = y.expression.eval ι η := by
          rcases builtin_get hb with ⟨-, rfl⟩ | ⟨-, rfl⟩
          · exact breitWigner_renumber (hps p (List.mem_cons_self ..)) hy
          · exact multichannel_renumber (hps p (List.mem_cons_self ..)) hy
        obtain ⟨y', hy', hv⟩ := hy'
        obtain ⟨e', he', hw⟩ := ih (fun q hq => hps q (List.mem_cons_of_mem _ hq)) _ (x'.mul (.defined y')) _ h
        refine ⟨e', ⟨f, hf, ?_⟩, fun ι ι' ht hpar η hx => hw ι ι' ht hpar η ?_⟩
        · rw [hb]
          simp only [bind_ok]
          exact ⟨y', hy', he'⟩
        · rw [eval_mul_defined, eval_mul_defined, hx, hv ι ι' ht hpar η]
  obtain ⟨e', he', hv⟩ := key c.propagators hn.propagators {} {} e h
  exact ⟨e', he', fun ι ι' ht hpar η => hv ι ι' ht hpar η rfl⟩

/-- C100: the same for the form factors. -/
theorem C100_form_factors {v : Vertex} (hn : PairNode v.node ∨
      ∃ i j k, ProductionNode v.node (.id i) (.id j) k ∧ [i, j, k].Perm [1, 2, 3]) {e : DefExpr}
    (h : formulateFormFactor v m = .ok e) :
    ∃ e', formulateFormFactor (renumberVertex v) (renumberModel m) = .ok e' ∧
      ∀ ι ι' : Interp, Renumbered ι ι' → SameLineshapeParameters ι ι' → ∀ η,
        e'.expression.eval ι' η = e.expression.eval ι η := by
  rcases formFactor_ok.1 h with ⟨h1, rfl⟩ | ⟨name, f, s, x, y, m1, m2, R, L, radius, h1, hne, h2, h3, h4, h5, h6, h7,
    h8, h9, h10, rfl⟩
  · exact ⟨{}, formFactor_ok.2 (.inl ⟨h1, rfl⟩), fun _ _ _ _ _ => rfl⟩
  have hR : ∀ ι ι' : Interp, SameLineshapeParameters ι ι' → ι'.sym R = ι.sym R := by
    intro ι ι' hpar
    rcases h8 with ⟨-, rfl⟩ | ⟨-, p0, -, rfl⟩
    · exact (parameters_same hpar "").2.2.1
    · exact (parameters_same hpar _).2.2.2.1
  have hinit : ∀ {p0 : State}, getInitialState m identityFunction = .ok p0 →
      getInitialState (renumberModel m) identityFunction = .ok (renumberState p0) := by
    intro p0 hp
    obtain ⟨D, rest, hD, ht⟩ := getInitialState_ok.1 hp
    exact getInitialState_ok.2 ⟨renumberDistribution D, rest.map renumberDistribution, by simp [renumberModel, hD],
      toParticle_renumber ht⟩
  have hint : allInt (renumberVertex v).node = allInt v.node := by
    show allInt (renumberTrees v.node) = _
    rw [h5]
    cases x <;> cases y <;> simp [renumberTrees, renumberTree, allInt, Tree.isInt]
  have h8' : (allInt (renumberVertex v).node = true ∧ R = resRadius) ∨ allInt (renumberVertex v).node = false ∧
        ∃ p0, getInitialState (renumberModel m) identityFunction = .ok p0 ∧ R = ⟨"R_{" ++ p0.latex ++ "}", .nonneg⟩ := by
    rw [hint]
    rcases h8 with ⟨g1, g2⟩ | ⟨g1, p0, g2, g3⟩
    · exact .inl ⟨g1, g2⟩
    · exact .inr ⟨g1, _, hinit g2, g3⟩
  have hsym : ∃ s' m1' m2', toMandelstamSymbol (renumberVertex v).node = .ok s' ∧
      toMassSymbol (renumberTree x) = .ok m1' ∧ toMassSymbol (renumberTree y) = .ok m2' ∧
      ∀ ι ι' : Interp, Renumbered ι ι' → ι'.sym s' = ι.sym s ∧ ι'.sym m1' = ι.sym m1 ∧ ι'.sym m2' = ι.sym m2 := by
    rcases hn with ⟨i, j, k, hn, hp⟩ | ⟨i, j, k, hn | hn, hp⟩
    · have hn' : (renumberVertex v).node = [.id (cyc i), .id (cyc j)] := pair_renumber hn
      rw [mandelstam_of hn hp] at h4
      rw [hn] at h5
      cases h5
      cases h4
      cases h6
      cases h7
      refine ⟨_, _, _, mandelstam_of hn' (perm_renumber hp), by simp only [renumberTree, toMassSymbol]; rfl,
        by simp only [renumberTree, toMassSymbol]; rfl, fun ι ι' ht => ⟨?_, ?_, ?_⟩⟩
      · exact ht.mandelstam k (hp.subset (by simp))
      · exact ht.masses i (mem0 (hp.subset (by simp)))
      · exact ht.masses j (mem0 (hp.subset (by simp)))
    · have hn' : (renumberVertex v).node = [.seq [.id (cyc i), .id (cyc j)], .id (cyc k)] := by
        show renumberTrees v.node = _
        rw [hn]
        simp only [renumberTrees, renumberTree]
      rw [hn] at h4 h5
      cases h5
      cases h4
      rw [mandelstam_node hp] at h6
      cases h6
      cases h7
      refine ⟨_, _, _, by rw [hn']; rfl, by
        simp only [renumberTree, renumberTrees]
        exact mandelstam_node (perm_renumber hp), by simp only [renumberTree, toMassSymbol]; rfl,
        fun ι ι' ht => ⟨?_, ?_, ?_⟩⟩
      · exact ht.masses 0 (by simp)
      · exact ht.mandelstam k (hp.subset (by simp))
      · exact ht.masses k (mem0 (hp.subset (by simp)))
    · have hn' : (renumberVertex v).node = [.id (cyc k), .seq [.id (cyc i), .id (cyc j)]] := by
        show renumberTrees v.node = _
        rw [hn]
        simp only [renumberTrees, renumberTree]
      rw [hn] at h4 h5
      cases h5
      cases h4
      rw [mandelstam_node hp] at h7
      cases h6
      cases h7
      refine ⟨_, _, _, by rw [hn']; rfl, by simp only [renumberTree, toMassSymbol]; rfl, by
        simp only [renumberTree, renumberTrees]
        exact mandelstam_node (perm_renumber hp),
        fun ι ι' ht => ⟨?_, ?_, ?_⟩⟩
      · exact ht.masses 0 (by simp)
      · exact ht.masses k (mem0 (hp.subset (by simp)))
      · exact ht.mandelstam k (hp.subset (by simp))
  obtain ⟨s', m1', m2', g1, g2, g3, hv⟩ := hsym
  have hnode : (renumberVertex v).node = [renumberTree x, renumberTree y] := by
    show renumberTrees v.node = _
    rw [h5]
    simp only [renumberTrees]
  refine ⟨_, formFactor_ok.2 (.inr ⟨name, f, s', _, _, m1', m2', R, L, radius, h1, hne, h2, h3, g1, hnode, g2, g3, h8',
    h9, h10, rfl⟩), fun ι ι' ht hpar η => ?_⟩
  obtain ⟨v1, v2, v3⟩ := hv ι ι' ht
  simp only [Expr.eval]
  rw [v1, v2, v3, hR ι ι' hpar, ht.functions.ff]

/-- C100: a renumbered chain definition is complete if the original one is. -/
theorem C100_complete {c : ChainDefinition} (hn : PairNodes c) (h : CompleteChain m tl none c) :
    CompleteChain (renumberModel m) tl none (renumberChainDef c) where
  vertices := by
    intro v' hv'
    obtain ⟨v, hv, rfl⟩ := List.mem_map.1 hv'
    exact h.vertices v hv
  weight := h.weight
  spin := by
    obtain ⟨s, ⟨p, rest, hp, hs⟩, hh⟩ := h.spin
    exact ⟨s, ⟨renumberPropagator p, rest.map renumberPropagator, by simp [renumberChainDef, hp], hs⟩, hh⟩
  topology := by
    obtain ⟨k, hk, ht⟩ := h.topology
    exact ⟨cyc k, cyc_mem.2 hk, spectator_renumber.2 ht⟩
  lineshape := by
    obtain ⟨d, hd⟩ := h.lineshape
    obtain ⟨d', hd', -⟩ := C100_lineshapes hn hd
    exact ⟨d', hd'⟩
  formFactors := by
    intro v' hv'
    obtain ⟨v, hv, rfl⟩ := List.mem_map.1 hv'
    obtain ⟨d, hd⟩ := h.formFactors v hv
    obtain ⟨d', hd', -⟩ := C100_form_factors (hn.vertices v hv) hd
    exact ⟨d', hd'⟩

/-- C100: with the built-in lineshapes, renumbering the final states `1 → 2 → 3 → 1` everywhere in a
serialized model does not change the intensity, if masses and Mandelstam variables are renumbered and the
weights and the parameters of the lineshapes have the same values. -/
theorem C100_builtin (hm : ReadsModel m D rd) (h0 : NonnegativeSpins D) (hn : ∀ c ∈ D.chains, PairNodes c)
    (href : IsSpectator D.referenceTopology ref) (href' : ref ∈ ([1, 2, 3] : List ℤ))
    (h : formulate m cl tl none = .ok a) (h' : formulate (renumberModel m) cl' tl none = .ok a')
    (ht : Renumbered ι ι') (hw : SameWeights ι ι' tl D.chains rd) (hpar : SameLineshapeParameters ι ι')
    (ha : ∀ x ∈ a.angleDefs, Computes ι x) (ha' : ∀ x ∈ a'.angleDefs, Computes ι' x) (η : Sym → ℚ) :
    a'.fullExpression.eval ι' η = a.fullExpression.eval ι η := by
  have hfree : ∀ m, FreeBuilders none m := fun _ _ h => by cases h
  have hdata : ∀ c ∈ D.chains, (∃ d, formulateDynamics c m tl none = .ok d) ∧
      ∀ v ∈ c.vertices, ∃ x, formulateFormFactor v m = .ok x := by
    obtain ⟨K, E, P, Θ, ref', ids, zetas, terms, hf⟩ := formulate_inv hm.head hm.kinematics h
    have hd := (toDecay_standard hm.head hm.kinematics hf.decay).1
    intro c hc
    obtain ⟨l, hl⟩ := exists_helicity hd (spins_nonneg hm h0 hf.decay)
    obtain ⟨n, hn, rfl⟩ := List.mem_iff_getElem.1 hc
    have hp : ((l, n) : (ℚ × ℚ × ℚ × ℚ) × ℕ) ∈ serialPairs D a.decay := mem_serialPairs.2 ⟨hl, hn⟩
    obtain ⟨c', hc', hmem, -⟩ := pair_chain hm hf hp
    rw [List.getElem?_eq_getElem hn] at hc'
    injection hc' with hc'
    subst hc'
    obtain ⟨hr, hs⟩ := hm.reads _ hmem
    obtain ⟨d, ds, w, g1, g2, -⟩ :=
      chainData_facts (chains_ok hm.head) (List.getElem?_eq_getElem hn) hr hs (hf.table _ hp).data
    refine ⟨⟨d, g1⟩, fun v hv => ?_⟩
    obtain ⟨x, -, hx⟩ := Qrules.forall₂_mem_left g2 hv
    exact ⟨x, hx⟩
  refine C100_cyclic hm h0 href href' h h' ht hw ha ha' (dynamics_values (hfree m) D.chains ι)
    (dynamics_values (hfree _) _ ι') ?_ ?_ η
  · intro c hc
    obtain ⟨d, hd⟩ := (hdata c hc).1
    obtain ⟨d', hd', hv⟩ := C100_lineshapes (hn c hc) hd
    unfold lineValue
    simp only [hd, hd']
    exact hv ι ι' ht hpar _
  · intro c hc v hv
    obtain ⟨d, hd⟩ := (hdata c hc).2 v hv
    obtain ⟨d', hd', hv⟩ := C100_form_factors ((hn c hc).vertices v hv) hd
    unfold formValue
    simp only [hd, hd']
    exact hv ι ι' ht hpar _

/-! An example: `Λc → p π K`, renumbered. -/

theorem exModel_pairs : ∀ c ∈ exDistribution.chains, PairNodes c := by
  intro c hc
  have hK : PairNodes exKstar := by
    refine ⟨?_, ?_⟩
    · intro p hp
      simp only [exKstar, List.mem_cons, List.not_mem_nil, or_false] at hp
      subst hp
      exact ⟨2, 3, 1, rfl, by decide⟩
    · intro v hv
      simp only [exKstar, List.mem_cons, List.not_mem_nil, or_false] at hv
      rcases hv with rfl | rfl
      · exact .inr ⟨2, 3, 1, .inl rfl, by decide⟩
      · exact .inl ⟨2, 3, 1, rfl, by decide⟩
  have hL : PairNodes exLambda := by
    refine ⟨?_, ?_⟩
    · intro p hp
      simp only [exLambda, List.mem_cons, List.not_mem_nil, or_false] at hp
      subst hp
      exact ⟨3, 1, 2, rfl, by decide⟩
    · intro v hv
      simp only [exLambda, List.mem_cons, List.not_mem_nil, or_false] at hv
      rcases hv with rfl | rfl
      · exact .inl ⟨3, 1, 2, rfl, by decide⟩
      · exact .inr ⟨3, 1, 2, .inr rfl, by decide⟩
  simp only [exDistribution, List.mem_cons, List.not_mem_nil, or_false] at hc
  rcases hc with rfl | rfl | rfl
  · exact hL
  · exact hK
  · exact hK

theorem weight_sym (s1 s2 s3 : ℝ) (c : ChainDefinition) (r : Reading) :
    (bsInterp s1 s2 s3).sym (weightSymbol tl c r) = 1 := by
  have key : ∀ x : String, x.toList.head? ≠ some 'c' → (weightSymbol tl c r).name ≠ x := by
    intro x hx he
    apply hx
    rw [← he]
    simp only [weightSymbol, String.append_assoc, String.toList_append]
    rfl
  simp only [bsInterp]
  rw [if_neg (key _ (by decide)), if_neg (key _ (by decide)), if_neg (key _ (by decide)), if_neg (key _ (by decide))]

/-- Two serialized models that differ by the numbering of the final states, and a kinematic point for each:
the intensities are equal. The spectator of the `K*` has ID 1 in the one and ID 2 in the other. -/
example : ∃ a a' ι ι', formulate exModel true id none = .ok a ∧
    formulate (renumberModel exModel) true id none = .ok a' ∧ Renumbered ι ι' ∧
    (∀ x ∈ a.angleDefs, Computes ι x) ∧ (∀ x ∈ a'.angleDefs, Computes ι' x) ∧
    ι.sym ⟨"sigma2", .nonneg⟩ = 5 ∧ ι'.sym ⟨"sigma2", .nonneg⟩ = 7 ∧
    IsSpectator exKstar.topology 1 ∧ IsSpectator (renumberChainDef exKstar).topology 2 ∧
    ∀ η, a'.fullExpression.eval ι' η = a.fullExpression.eval ι η := by
  have hr3 : (1 : ℤ) ∈ ([1, 2, 3] : List ℤ) := by simp
  have hm' := readsModel_renumber exModel_reads
  have href' : IsSpectator (renumberDistribution exDistribution).referenceTopology 2 :=
    spectator_renumber.2 exModel_reference
  obtain ⟨a, ha⟩ := exModel_ok id true
  obtain ⟨a', ha'⟩ : ∃ a', formulate (renumberModel exModel) true id none = .ok a' := by
    refine C60_returns hm' href' (by simp) ?_ true
    intro c' hc'
    obtain ⟨c, hc, rfl⟩ := List.mem_map.1 hc'
    refine C100_complete (exModel_pairs c hc) ?_
    simp only [exDistribution, List.mem_cons, List.not_mem_nil, or_false] at hc
    rcases hc with rfl | rfl | rfl
    · exact exLambda_complete
    · exact exKstar_complete
    · exact exKstar_complete
  have key : ∀ {m : ModelDefinition} {D rd ref a}, ReadsModel m D rd → IsSpectator D.referenceTopology ref →
      ref ∈ ([1, 2, 3] : List ℤ) → formulate m true id none = .ok a → ∀ s : Sym, s.asm ≠ .real →
      s ∉ PyDict.keys a.angleDefs := by
    intro m D rd ref a hm href hr h s hs hmem
    obtain ⟨y, hy, rfl⟩ := List.mem_map.1 hmem
    rcases serial_angleDefs hm href hr h hy with ⟨c, -, -, h7⟩ | ⟨i, -, k, -, rfl⟩
    · rw [h7] at hs; exact hs rfl
    · exact hs rfl
  have h1 : DalitzInterior fun s => ((bsInterp 7 5 7).sym s).re := by
    constructor <;> simp [bsInterp, SumRule, BetweenThresholds, lam] <;> norm_num
  have h2 : DalitzInterior fun s => ((bsInterp 7 7 5).sym s).re := by
    constructor <;> simp [bsInterp, SumRule, BetweenThresholds, lam] <;> norm_num
  obtain ⟨ι, f1, i1, s1, a1⟩ := C75_evaluable exModel_reads exModel_reference hr3 ha h1.region
  obtain ⟨ι', f2, i2, s2, a2⟩ := C75_evaluable hm' href' (by simp) ha' h2.region
  have v1 : ∀ s : Sym, s.asm ≠ .real → ι.sym s = (bsInterp 7 5 7).sym s :=
    fun s hs => s1 _ (key exModel_reads exModel_reference hr3 ha s hs)
  have v2 : ∀ s : Sym, s.asm ≠ .real → ι'.sym s = (bsInterp 7 7 5).sym s :=
    fun s hs => s2 _ (key hm' href' (by simp) ha' s hs)
  have t0 : "m" ++ toString (0 : ℤ) = "m0" := by decide +kernel
  have t1 : "m" ++ toString (1 : ℤ) = "m1" := by decide +kernel
  have t2 : "m" ++ toString (2 : ℤ) = "m2" := by decide +kernel
  have t3 : "m" ++ toString (3 : ℤ) = "m3" := by decide +kernel
  have u1 : "sigma" ++ toString (1 : ℤ) = "sigma1" := by decide +kernel
  have u2 : "sigma" ++ toString (2 : ℤ) = "sigma2" := by decide +kernel
  have u3 : "sigma" ++ toString (3 : ℤ) = "sigma3" := by decide +kernel
  have c0 : cyc 0 = 0 := by decide
  have c1 : cyc 1 = 2 := by decide
  have c2 : cyc 2 = 3 := by decide
  have c3 : cyc 3 = 1 := by decide
  have ht : Renumbered ι ι' := by
    refine ⟨⟨f1.wig.symm.trans f2.wig, f1.cg.symm.trans f2.cg, f1.ff.symm.trans f2.ff,
      f1.edw.symm.trans f2.edw, f1.bmom.symm.trans f2.bmom⟩, i2.trans i1.symm, ?_, ?_⟩
    · intro i hi
      rw [v1 _ (by simp), v2 _ (by simp)]
      simp only [List.mem_cons, List.not_mem_nil, or_false] at hi
      rcases hi with rfl | rfl | rfl | rfl <;> simp only [c0, c1, c2, c3, t0, t1, t2, t3] <;> simp [bsInterp]
    · intro i hi
      rw [v1 _ (by simp), v2 _ (by simp)]
      simp only [List.mem_cons, List.not_mem_nil, or_false] at hi
      rcases hi with rfl | rfl | rfl <;> simp only [c1, c2, c3, u1, u2, u3] <;> simp [bsInterp]
  have hw : SameWeights ι ι' id exDistribution.chains exReading := by
    intro c _
    rw [v1 _ (by simp [weightSymbol]), v2 _ (by simp [weightSymbol]), weight_sym, weight_sym]
  have hpar : SameLineshapeParameters ι ι' := by
    intro s hs hm hσ
    rw [v1 _ (by simp [hs]), v2 _ (by simp [hs])]
    have g0 := hm 0 (by simp)
    have g1 := hσ 1 (by simp)
    have g2 := hσ 2 (by simp)
    have g3 := hσ 3 (by simp)
    rw [t0] at g0
    rw [u1] at g1
    rw [u2] at g2
    rw [u3] at g3
    simp [bsInterp, g0, g1, g2, g3]
  refine ⟨a, a', ι, ι', ha, ha', ht, a1, a2, ?_, ?_, ⟨by simp [exKstar], by simp [exKstar]⟩,
    (spectator_renumber (k := 1)).2 ⟨by simp [exKstar], by simp [exKstar]⟩, fun η => ?_⟩
  · rw [v1 _ (by simp)]; simp [bsInterp]
  · rw [v2 _ (by simp)]; simp [bsInterp]
  · exact C100_builtin exModel_reads exDistribution_nonneg exModel_pairs exModel_reference hr3 ha ha' ht hw hpar a1 a2 η

end Verif.Serialization
