import Verif.Props.Amplitude

/-!
Property C23 in terms of the formulated amplitudes: which lineshape multiplies the amplitude of a chain,
after any sequence of registrations.
-/
namespace Verif.ThreeBody
open Verif Verif.Spec Verif.Spin

variable {b : Builder} {dyn : Chain → DefExpr} {reference : Option ℤ} {cl uc : Bool}
  {m : AmplitudeModel} {history : List (Ident × DynBuilder)}

/-- Each chain of a decay has a first chain with its resonance name. -/
theorem exists_first (d : Decay) {c : Chain} (hc : c ∈ d.chains) :
    ∃ c', Denotes d (.name c.resonance.toP.name) c' := by
  cases hf : d.findChain c.resonance.toP.name with
  | ok c' =>
    exact ⟨c', (getChain_iff (Configurator.init d : Configurator DynBuilder)
      (.name c.resonance.toP.name) c').1 hf⟩
  | error e =>
    exfalso
    unfold Decay.findChain at hf
    cases hf' : d.chains.find? fun c' => c'.resonance.toP.name = c.resonance.toP.name with
    | some c' => rw [hf'] at hf; cases hf
    | none =>
      rw [List.find?_eq_none] at hf'
      exact hf' c hc (by simp)

/-- What `formulate` does for every decay: the lineshape of a chain is what the builder most recently
registered for the first chain with its resonance name returns for it, or 1 if there is none. -/
theorem lineshapes_by_name (hb : b.dynamics = (Configurator.init b.decay).run history)
    (hdyn : ∀ c ∈ b.decay.chains, ∀ c', Denotes b.decay (.name c.resonance.toP.name) c' →
      (∀ g, LastRegistered b.decay history c' g → g c = .ok (dyn c)) ∧
      ((∀ g, ¬ LastRegistered b.decay history c' g) → dyn c = {})) : Lineshapes b dyn := by
  intro c hc
  obtain ⟨c', hden⟩ := exists_first b.decay hc
  rw [hb]
  by_cases hreg : ∃ g, LastRegistered b.decay history c' g
  · obtain ⟨g, hg⟩ := hreg
    exact ⟨g, (C22_registry b.decay history unitDynamics _ c' hden).1 g hg, (hdyn c hc c' hden).1 g hg⟩
  · push Not at hreg
    refine ⟨unitDynamics, ?_, ?_⟩
    · have hd : ((Configurator.init b.decay : Configurator DynBuilder).run history).decay = b.decay :=
        run_decay _ _
      have hg : ((Configurator.init b.decay : Configurator DynBuilder).run history).getChain
          (.name c.resonance.toP.name) = .ok c' := (getChain_iff _ _ _).2 (by rw [hd]; exact hden)
      unfold Configurator.getBuilder
      rw [hg]
      cases hb : PyDict.get? ((Configurator.init b.decay).run history).builders c' with
      | some g => exact absurd ((run_builders b.decay history c' g).1 hb) (hreg g)
      | none => simp [hb, bind, Except.bind, pure, Except.pure]
    · rw [(hdyn c hc c' hden).2 hreg]; rfl

/-- C23, exact form for every decay: in the amplitudes of the formulated model, the contribution of
each chain is multiplied by what the builder most recently registered for the *first chain with its
resonance name* returns for the chain itself; by 1 if nothing is registered for that first chain. -/
theorem C23_amplitude_by_name (hd : Standard b.decay)
    (hb : b.dynamics = (Configurator.init b.decay).run history)
    (hdyn : ∀ c ∈ b.decay.chains, ∀ c', Denotes b.decay (.name c.resonance.toP.name) c' →
      (∀ g, LastRegistered b.decay history c' g → g c = .ok (dyn c)) ∧
      ((∀ g, ¬ LastRegistered b.decay history c' g) → dyn c = {}))
    (hr : RefOk reference) (h : b.formulate reference cl uc = .ok m)
    (hfree : ∀ c ∈ b.decay.chains, HelicityFree (dyn c).expression)
    (hres : b.useProdHel = false → ∀ c ∈ b.decay.chains, c.resonance ≠ .state c.spectator)
    {i j k : ℤ} (hijk : EvenPerm i j k) (hk : Selected b k)
    {l : ℤ → ℚ} (hl : ∀ i ∈ ([0, 1, 2, 3] : List ℤ), Projection (b.decay.spin i) (l i))
    (ι : Interp) (η : Sym → ℚ) :
    ∃ e, PyDict.get? m.amplitudes
        ⟨"A^" ++ toString k, none, [.num (l 0), .num (l 1), .num (l 2), .num (l 3)]⟩ = some e ∧
      e.eval ι η = ((b.decay.chains.filter fun c => c.spectator.index = k).map
        (chainValue ι b uc (fun c => (dyn c).expression.eval ι η) i j k l)).sum :=
  C29_amplitude_value hd (lineshapes_by_name hb hdyn) hr h hfree hres hijk hk hl ι η

/-- C23 where it holds: if chains with the same resonance name are equal, the contribution of each chain
to the formulated amplitudes is multiplied by what the builder most recently registered *for that chain*
returns for it; by 1 if there is none. Missing: decays in which two different chains have the same
resonance name, for which this is false (`C23_shadowed_chain_ignored`). -/
theorem C23_amplitude_partial (hd : Standard b.decay)
    (hb : b.dynamics = (Configurator.init b.decay).run history)
    (huniq : ∀ c ∈ b.decay.chains, ∀ c' ∈ b.decay.chains,
      c.resonance.toP.name = c'.resonance.toP.name → c = c')
    (hdyn : ∀ c ∈ b.decay.chains, (∀ g, LastRegistered b.decay history c g → g c = .ok (dyn c)) ∧
      ((∀ g, ¬ LastRegistered b.decay history c g) → dyn c = {}))
    (hr : RefOk reference) (h : b.formulate reference cl uc = .ok m)
    (hfree : ∀ c ∈ b.decay.chains, HelicityFree (dyn c).expression)
    (hres : b.useProdHel = false → ∀ c ∈ b.decay.chains, c.resonance ≠ .state c.spectator)
    {i j k : ℤ} (hijk : EvenPerm i j k) (hk : Selected b k)
    {l : ℤ → ℚ} (hl : ∀ i ∈ ([0, 1, 2, 3] : List ℤ), Projection (b.decay.spin i) (l i))
    (ι : Interp) (η : Sym → ℚ) :
    ∃ e, PyDict.get? m.amplitudes
        ⟨"A^" ++ toString k, none, [.num (l 0), .num (l 1), .num (l 2), .num (l 3)]⟩ = some e ∧
      e.eval ι η = ((b.decay.chains.filter fun c => c.spectator.index = k).map
        (chainValue ι b uc (fun c => (dyn c).expression.eval ι η) i j k l)).sum :=
  C29_amplitude_value hd (C23_registered_dynamics_partial ⟨rfl, hb⟩ huniq hdyn) hr h hfree hres hijk hk hl ι η

/-! ### Examples -/

/-- A lineshape with one parameter. -/
def exLine : DynBuilder := fun _ =>
  .ok { expression := .sym ⟨"x", .none⟩, parameters := [(.sym ⟨"x", .none⟩, .real 2)] }

/-- A lineshape for the `K*` that replaces an earlier one. -/
def exHistory : List (Ident × DynBuilder) :=
  [(.name "K*", unitDynamics), (.chain exChainK, exLine)]

theorem lastRegistered_unique {d : Decay} {c : Chain} {g g' : DynBuilder}
    (h : LastRegistered d history c g) (h' : LastRegistered d history c g') : g = g' := by
  have h1 := (run_builders d history c g).2 h
  rw [(run_builders d history c g').2 h'] at h1
  exact (Option.some.inj h1).symm

theorem exL_ne_exK : exChainL ≠ exChainK := fun h => by
  have := congrArg (fun c : Chain => c.spectator.index) h
  simp [exChainL, exChainK, exState] at this

/-- `C23_amplitude_partial`: the `K*` has the lineshape `x`, the `Λ` has none. -/
example : ∃ (b : Builder) (m : AmplitudeModel) (dyn : Chain → DefExpr), Standard b.decay ∧
    b.dynamics = (Configurator.init b.decay).run exHistory ∧
    (∀ c ∈ b.decay.chains, ∀ c' ∈ b.decay.chains,
      c.resonance.toP.name = c'.resonance.toP.name → c = c') ∧
    (∀ c ∈ b.decay.chains, (∀ g, LastRegistered b.decay exHistory c g → g c = .ok (dyn c)) ∧
      ((∀ g, ¬ LastRegistered b.decay exHistory c g) → dyn c = {})) ∧
    b.formulate (some 1) true false = .ok m ∧ (dyn exChainK).expression = .sym ⟨"x", .none⟩ := by
  let dyn : Chain → DefExpr := fun c => if c = exChainK then
    { expression := .sym ⟨"x", .none⟩, parameters := [(.sym ⟨"x", .none⟩, .real 2)] } else {}
  let b : Builder := { exBuilder true false false with dynamics := (Configurator.init exDecay).run exHistory }
  have huniq : ∀ c ∈ b.decay.chains, ∀ c' ∈ b.decay.chains,
      c.resonance.toP.name = c'.resonance.toP.name → c = c' := by
    intro c hc c' hc' h
    simp only [b, exBuilder, exDecay, List.mem_cons, List.not_mem_nil, or_false] at hc hc'
    rcases hc with rfl | rfl <;> rcases hc' with rfl | rfl
    · rfl
    · exact absurd h (by simp [exChainK, exChainL, Obj.toP])
    · exact absurd h (by simp [exChainK, exChainL, Obj.toP])
    · rfl
  have hK : LastRegistered exDecay exHistory exChainK exLine :=
    ⟨[(.name "K*", unitDynamics)], .chain exChainK, [], rfl, .chain _ (by simp [exDecay]), by simp⟩
  have hL : ∀ g, ¬ LastRegistered exDecay exHistory exChainL g := by
    rintro g ⟨before, i, after, h1, h2, -⟩
    have : (i, g) ∈ exHistory := by rw [h1]; simp
    simp only [exHistory, List.mem_cons, List.not_mem_nil, or_false, Prod.mk.injEq] at this
    rcases this with ⟨rfl, -⟩ | ⟨rfl, -⟩
    · generalize hn : "K*" = n at h2
      cases h2
      simp [exChainL, Obj.toP] at hn
    · generalize hx : exChainK = x at h2
      cases h2
      exact exL_ne_exK hx.symm
  have hdyn : ∀ c ∈ b.decay.chains, (∀ g, LastRegistered b.decay exHistory c g → g c = .ok (dyn c)) ∧
      ((∀ g, ¬ LastRegistered b.decay exHistory c g) → dyn c = {}) := by
    intro c hc
    simp only [b, exBuilder, exDecay, List.mem_cons, List.not_mem_nil, or_false] at hc
    rcases hc with rfl | rfl
    · refine ⟨fun g hg => ?_, fun h => absurd hK (h _)⟩
      rw [lastRegistered_unique hg hK]
      simp only [dyn, if_true]; rfl
    · exact ⟨fun g hg => absurd hg (hL g), fun _ => by simp only [dyn, if_neg exL_ne_exK]⟩
  have hM : ¬ Missing b := by
    rw [missing_iff (b := b) exDecay_standard]
    rintro ⟨-, c, hc, h⟩
    exact h (exBuilder_ls true false false hc)
  obtain ⟨P, hP, -⟩ := formulate_ok (b := b) (reference := some 1) exDecay_standard
    (C23_registered_dynamics_partial ⟨rfl, rfl⟩ huniq hdyn) (ref := 1) rfl (by simp) true false hM
  exact ⟨b, _, dyn, exDecay_standard, rfl, huniq, hdyn, hP, by simp only [dyn, if_true]⟩

/-- A second chain of the `K*`, with another coupling at the production vertex. -/
def exK2 : Node :=
  .isobar (.state (exState "Lc" (1/2) 2 0))
    (.isobar (.particle ⟨"K*", "K^*", 1, some (-1), 9/10, 1/20⟩)
      (.leaf (.state (exState "pi" 0 (1/7) 2))) (.leaf (.state (exState "K" 0 (1/2) 3))) (some ⟨1, 0⟩))
    (.leaf (.state (exState "p" (1/2) 1 1))) (some ⟨1, 1/2⟩)

def exChainK2 : Chain := { exChainK with decay := exK2, incomingLs := some ⟨1, 1/2⟩ }

/-- A decay with two chains with the same resonance. -/
def exTwins : Decay := ⟨exStates, [exChainK, exChainK2]⟩

theorem exK2_ok : Chain.new exK2 = .ok exChainK2 := by
  rw [chainNew_shape _ _ _ _ _ _ _ exK2 (.inl rfl)]; rfl

theorem exK2_ne : exChainK2 ≠ exChainK := fun h => by
  have := congrArg Chain.incomingLs h
  simp [exChainK2, exChainK] at this

theorem exTwins_standard : Standard exTwins := by
  have hv : exTwins.Valid := by
    refine ⟨?_, ?_⟩
    · have hf : (finalStateDict exStates).map Prod.snd =
          [exState "p" (1/2) 1 1, exState "pi" 0 (1/7) 2, exState "K" 0 (1/2) 3] := rfl
      have : checkChains (exState "Lc" (1/2) 2 0) ((finalStateDict exStates).map Prod.snd)
          exTwins.chains = .ok () := by
        rw [checkChains_ok, hf]
        intro c hc
        simp only [exTwins, List.mem_cons, List.not_mem_nil, or_false] at hc
        rcases hc with rfl | rfl <;>
        · refine ⟨rfl, fun s => ?_⟩
          simp only [exChainK, exChainK2, List.mem_cons, List.not_mem_nil, or_false]
      have h0 : initialState exTwins.states = .ok (exState "Lc" (1/2) 2 0) := rfl
      unfold Decay.new
      rw [h0]
      simp only [bind, Except.bind]
      rw [show exTwins.states = exStates from rfl, this]; rfl
    · intro c hc
      simp only [exTwins, List.mem_cons, List.not_mem_nil, or_false] at hc
      rcases hc with rfl | rfl
      · exact exK_ok
      · exact exK2_ok
  refine ⟨hv, exDecay_standard.2, exDecay_standard.3, exDecay_standard.4, ?_⟩
  intro c hc
  simp only [exTwins, List.mem_cons, List.not_mem_nil, or_false] at hc
  rcases hc with rfl | rfl <;> exact ⟨2, by norm_num [exChainK, exChainK2, Obj.toP]⟩

/-- `C23_shadowed_chain_ignored` and `C23_amplitude_by_name`: a lineshape registered for the second
chain of the `K*` has no effect, one registered for the first is used for both. -/
example : ∃ (b : Builder) (m : AmplitudeModel) (dyn : Chain → DefExpr), Standard b.decay ∧
    (exChainK2 ∈ b.decay.chains ∧ ¬ Denotes b.decay (.name exChainK2.resonance.toP.name) exChainK2) ∧
    b.dynamics = (Configurator.init b.decay).run exHistory ∧
    (∀ c ∈ b.decay.chains, ∀ c', Denotes b.decay (.name c.resonance.toP.name) c' →
      (∀ g, LastRegistered b.decay exHistory c' g → g c = .ok (dyn c)) ∧
      ((∀ g, ¬ LastRegistered b.decay exHistory c' g) → dyn c = {})) ∧
    b.formulate (some 1) true false = .ok m ∧ (dyn exChainK2).expression = .sym ⟨"x", .none⟩ := by
  let dyn : Chain → DefExpr := fun _ =>
    { expression := .sym ⟨"x", .none⟩, parameters := [(.sym ⟨"x", .none⟩, .real 2)] }
  let b : Builder := ⟨exTwins, (Configurator.init exTwins).run exHistory, true, false, false⟩
  have hfirst : ∀ c ∈ b.decay.chains, ∀ c', Denotes b.decay (.name c.resonance.toP.name) c' → c' = exChainK := by
    intro c hc c' h
    generalize c.resonance.toP.name = n at h
    cases h with
    | name pre _ post h1 h2 =>
      cases pre with
      | nil =>
        simp only [b, exTwins, List.nil_append, List.cons.injEq] at h1
        exact h1.1.symm
      | cons x t =>
        simp only [b, exTwins, List.cons_append, List.cons.injEq] at h1
        have h3 := h2 x (by simp)
        have h4 : c' ∈ [exChainK2] := by rw [h1.2]; simp
        simp only [List.mem_singleton] at h4
        rw [← h1.1, h4] at h3
        exact absurd rfl h3
  have hK : LastRegistered exTwins exHistory exChainK exLine :=
    ⟨[(.name "K*", unitDynamics)], .chain exChainK, [], rfl, .chain _ (by simp [exTwins]), by simp⟩
  have hdyn : ∀ c ∈ b.decay.chains, ∀ c', Denotes b.decay (.name c.resonance.toP.name) c' →
      (∀ g, LastRegistered b.decay exHistory c' g → g c = .ok (dyn c)) ∧
      ((∀ g, ¬ LastRegistered b.decay exHistory c' g) → dyn c = {}) := by
    intro c hc c' hc'
    rw [hfirst c hc c' hc']
    refine ⟨fun g hg => ?_, fun h => absurd hK (h _)⟩
    rw [lastRegistered_unique hg hK]; rfl
  have hM : ¬ Missing b := by
    rw [missing_iff (b := b) exTwins_standard]
    rintro ⟨-, c, hc, h⟩
    simp only [b, exTwins, List.mem_cons, List.not_mem_nil, or_false] at hc
    apply h
    rcases hc with rfl | rfl <;>
      exact ⟨fun _ => by simp [exChainK, exChainK2], fun _ => by simp [exChainK, exChainK2]⟩
  obtain ⟨P, hP, -⟩ := formulate_ok (b := b) (reference := some 1) exTwins_standard
    (lineshapes_by_name rfl hdyn) (ref := 1) rfl (by simp) true false hM
  have hmem : exChainK2 ∈ b.decay.chains := by simp [b, exTwins]
  exact ⟨b, _, dyn, exTwins_standard, ⟨hmem, fun h => exK2_ne (hfirst _ hmem _ h)⟩, rfl, hdyn, hP, rfl⟩

end Verif.ThreeBody
