import Verif.Spec.Couplings
import Verif.Props.Superposition

/-! Property C111: which couplings a model has and which chains they scale. -/
namespace Verif.ThreeBody
open Verif Verif.Spec

variable {b b' : Builder} {dyn : Chain → DefExpr} {reference : Option ℤ} {cl cl' uc : Bool} {m m' : AmplitudeModel}

private theorem coupling_eq {hel : Bool} {R : String} {h1 h2 : ℚ} {ls : Option LS} (typ : String)
    (h : hel = false → ls ≠ none) : couplingOf hel R (.num h1) (.num h2) ls typ =
      ⟨couplingName hel typ, some R, (couplingIndices hel ls h1 h2).map .num⟩ := by
  unfold couplingOf couplingIndices couplingName couplingBase
  cases hel with
  | true => rfl
  | false =>
    cases ls with
    | none => exact absurd rfl (h rfl)
    | some x => rfl

private theorem scaling_keys {c : Chain} (h : HasLS b c) (lR lk li lj : ℚ) :
    (scalingOf b c (.num lR) (.num lk) (.num li) (.num lj) uc).defaults.map Prod.fst =
      (couplingSymbols b c uc lR lk li lj).map .idx := by
  unfold scalingOf couplingSymbols
  simp only [coupling_eq _ h.1, coupling_eq _ h.2, coefficientBase_eq]
  cases uc
  · rfl
  · simp [Scaling.defaults]

/-- C111: the couplings among the parameters of a model are exactly the symbols of its chains for the helicities
that contribute. No symbol is missing, none is superfluous. -/
theorem C111_parameters (hd : Standard b.decay) (hdyn : Lineshapes b dyn) (hr : RefOk reference)
    (h : b.formulate reference cl uc = .ok m)
    (hp : ∀ c ∈ b.decay.chains, ∀ y, Key.idx y ∉ PyDict.keys (dyn c).parameters) (x : Indexed) :
    Key.idx x ∈ PyDict.keys m.parameterDefaults ↔
      ∃ c ∈ b.decay.chains, ∃ l, Contributes b.decay c l ∧ ∃ i j k, k = c.spectator.index ∧
        (i, j, k) ∈ ([(1, 2, 3), (2, 3, 1), (3, 1, 2)] : List (ℤ × ℤ × ℤ)) ∧
        x ∈ couplingSymbols b c uc (l 0 + l k) (l k) (l i) (l j) := by
  obtain ⟨ref, P, -, -, hmiss, rfl, hP⟩ := formulate_inv hd hdyn hr h
  have hkey : Key.idx x ∈ PyDict.keys (result b dyn ref cl uc P).parameterDefaults ↔
      ∃ y ∈ pairs b, Key.idx x ∈ (ampItems b dyn uc y.2 y.1).map Prod.fst := by
    change Key.idx x ∈ PyDict.keys (P.update (massParams (massDict b.decay))) ↔ _
    have h0 := massParams_get?_idx b.decay x
    rw [PyDict.mem_keys_iff, PyDict.get?_update, h0]
    change (∃ v, PyDict.get? P (.idx x) = some v) ↔ _
    rw [hP, ← PyDict.mem_keys_iff, PyDict.ofItems, PyDict.mem_keys_update, PyDict.keys, PyDict.keys, List.map_flatMap,
      List.mem_flatMap]
    simp
  rw [hkey]
  have hls : ∀ c ∈ b.decay.chains, ∀ l, (l, c.spectator.index) ∈ pairs b → HasLS b c := by
    intro c hc l hl
    have := not_not.1 hmiss (l, c.spectator.index) hl c (List.mem_filter.2 ⟨hc, by simp⟩)
    exact this
  constructor
  · rintro ⟨⟨l, k⟩, hy, hx⟩
    obtain ⟨hl, hk⟩ := (mem_pairs _).1 hy
    obtain ⟨⟨_, v⟩, hx, rfl⟩ := List.mem_map.1 hx
    unfold ampItems chainItems lambdaRItems at hx
    rw [List.mem_flatMap] at hx
    obtain ⟨c, hc, hx⟩ := hx
    obtain ⟨hc', rfl⟩ : c ∈ b.decay.chains ∧ c.spectator.index = k := by
      have := List.mem_filter.1 hc
      exact ⟨this.1, by simpa using this.2⟩
    rcases List.mem_append.1 hx with hx | hx
    · exact absurd (List.mem_map.2 ⟨_, hx, rfl⟩) (hp c hc' x)
    rw [List.mem_flatMap] at hx
    obtain ⟨lR, hR, hx⟩ := hx
    obtain ⟨hR, h0⟩ := List.mem_filter.1 hR
    have h0 : lR = lamOf l 0 + lamOf l c.spectator.index := by
      have : lamOf l 0 = lR - lamOf l c.spectator.index := by simpa using h0
      linarith
    subst h0
    have hx := List.mem_map_of_mem (f := Prod.fst) hx
    rw [scaling_keys (hls c hc' l hy)] at hx
    obtain ⟨x', hx, hx'⟩ := List.mem_map.1 hx
    cases hx'
    refine ⟨c, hc', lamOf l, ⟨(mem_helicityTuples hd l).1 hl, ?_⟩, (prodIds c.spectator.index).1,
      (prodIds c.spectator.index).2, _, rfl, ?_, hx⟩
    · exact (mem_spinRange (hd.resonances c hc') _).1 hR
    · have := Standard.subsystems hd hk
      simp only [List.mem_cons, List.not_mem_nil, or_false] at this
      rcases this with h | h | h <;> rw [h] <;> decide
  · rintro ⟨c, hc, l, hl, i, j, k, rfl, hijk, hx⟩
    have hk : c.spectator.index ∈ b.subsystems := subsystemIds_subset hd (((C18_partition hd.valid).1 _).2 ⟨c, hc, rfl⟩)
    let t : ℚ × ℚ × ℚ × ℚ := (l 0, l 1, l 2, l 3)
    have ht : ∀ n ∈ ([0, 1, 2, 3] : List ℤ), lamOf t n = l n := by
      intro n hn
      simp only [List.mem_cons, List.not_mem_nil, or_false] at hn
      rcases hn with rfl | rfl | rfl | rfl <;> rfl
    have htt : t ∈ helicityTuples (spins b.decay) := by
      rw [mem_helicityTuples hd]
      intro n hn
      rw [ht n hn]
      exact hl.states n hn
    have hy : (t, c.spectator.index) ∈ pairs b := (mem_pairs _).2 ⟨htt, hk⟩
    refine ⟨(t, c.spectator.index), hy, ?_⟩
    obtain ⟨hk', hi, hj, hi', hj'⟩ : c.spectator.index ∈ ([0, 1, 2, 3] : List ℤ) ∧
        (prodIds c.spectator.index).1 = i ∧ (prodIds c.spectator.index).2 = j ∧
        i ∈ ([0, 1, 2, 3] : List ℤ) ∧ j ∈ ([0, 1, 2, 3] : List ℤ) := by
      simp only [List.mem_cons, Prod.mk.injEq, List.not_mem_nil, or_false] at hijk
      rcases hijk with ⟨rfl, rfl, h⟩ | ⟨rfl, rfl, h⟩ | ⟨rfl, rfl, h⟩ <;> rw [h] <;> decide
    have hx := List.mem_map_of_mem (f := Key.idx) hx
    rw [← scaling_keys (hls c hc t hy)] at hx
    obtain ⟨⟨_, v⟩, hv, rfl⟩ := List.mem_map.1 hx
    refine List.mem_map.2 ⟨(Key.idx x, v), ?_, rfl⟩
    unfold ampItems chainItems lambdaRItems
    rw [List.mem_flatMap]
    refine ⟨c, List.mem_filter.2 ⟨hc, by simp⟩, List.mem_append_right _ ?_⟩
    rw [List.mem_flatMap]
    refine ⟨l 0 + l c.spectator.index, List.mem_filter.2 ⟨(mem_spinRange (hd.resonances c hc) _).2 hl.resonance, ?_⟩, ?_⟩
    · rw [decide_eq_true_eq, ht 0 (by simp), ht _ hk']; ring
    · rw [hi, hj, ht _ hk', ht _ hi', ht _ hj']
      exact hv

private theorem append_cancel {a R R' b : String} (h : a ++ R ++ b = a ++ R' ++ b) : R = R' := by
  have := congrArg String.toList h
  simp only [String.toList_append] at this
  exact String.toList_inj.1 (List.append_cancel_left (List.append_cancel_right this))

theorem coefficientName_inj {R R' : String} {p q : Bool} (h : coefficientName R p q = coefficientName R' p q) :
    R = R' := by
  cases p <;> cases q <;> exact append_cancel h

private theorem num_inj {p q : List ℚ} (h : p.map Hel.num = q.map Hel.num) : p = q :=
  List.map_injective_iff.2 (fun _ _ h => by injection h) h

/-- C111: chains of resonances with different LaTeX have no coupling in common. -/
theorem C111_distinct {c c' : Chain} (h : c.resonance.toP.latex ≠ c'.resonance.toP.latex) {x : Indexed}
    {lR lk li lj lR' lk' li' lj' : ℚ} (hx : x ∈ couplingSymbols b c uc lR lk li lj) :
    x ∉ couplingSymbols b c' uc lR' lk' li' lj' := by
  intro hx'
  unfold couplingSymbols at hx hx'
  cases uc
  · simp only [Bool.false_eq_true, if_false, List.mem_cons, List.not_mem_nil, or_false] at hx hx'
    rcases hx with rfl | rfl <;> rcases hx' with hx' | hx' <;>
      simp only [Indexed.mk.injEq, Option.some.injEq] at hx' <;> exact h hx'.2.1
  · simp only [if_true, List.mem_cons, List.not_mem_nil, or_false] at hx hx'
    subst hx
    simp only [Indexed.mk.injEq] at hx'
    exact h (coefficientName_inj hx'.1)

/-- C111: chains of resonances with the same LaTeX share a coefficient exactly if they have the same indices. -/
theorem C111_shared {c c' : Chain} (h : c.resonance.toP.latex = c'.resonance.toP.latex)
    {lR lk li lj lR' lk' li' lj' : ℚ} :
    couplingSymbols b c true lR lk li lj = couplingSymbols b c' true lR' lk' li' lj' ↔
      couplingIndices b.useProdHel c.incomingLs lR lk ++ couplingIndices b.useDecHel c.outgoingLs li lj =
      couplingIndices b.useProdHel c'.incomingLs lR' lk' ++ couplingIndices b.useDecHel c'.outgoingLs li' lj' := by
  unfold couplingSymbols
  simp only [if_true, List.cons.injEq, Indexed.mk.injEq, and_true, h, true_and]
  exact ⟨num_inj, fun h => by rw [h]⟩

private theorem couplings_without (ι : Interp) (R : String) (c : Chain) (lR lk li lj : ℚ) :
    couplings (withoutResonance ι b uc R) b c uc lR lk li lj =
      if c.resonance.toP.latex = R then 0 else couplings ι b c uc lR lk li lj := by
  unfold couplings withoutResonance
  cases uc
  · by_cases h : c.resonance.toP.latex = R <;> simp [h]
  · by_cases h : c.resonance.toP.latex = R
    · simp [h]
    · have : coefficientName c.resonance.toP.latex b.useProdHel b.useDecHel ≠
          coefficientName R b.useProdHel b.useDecHel := fun e => h (coefficientName_inj e)
      simp [h, this]

/-- C111: if a model can be formulated, so can the model without the chains of one resonance. -/
theorem C111_without_formulates (R : String) (hd : Standard b.decay)
    (hs : b'.decay.states = b.decay.states)
    (hc : b'.decay.chains = b.decay.chains.filter fun c => c.resonance.toP.latex ≠ R)
    (hp : b'.useProdHel = b.useProdHel) (hq : b'.useDecHel = b.useDecHel)
    (hdyn : Lineshapes b dyn) (hdyn' : Lineshapes b' dyn) {r : ℤ} (hr : r = 1 ∨ r = 2 ∨ r = 3)
    (h : b.formulate (some r) cl uc = .ok m) (cl' uc' : Bool) : ∃ m', b'.formulate (some r) cl' uc' = .ok m' := by
  have hrr : RefOk (some r) := by rintro x ⟨⟩; exact hr
  have key := C36_missing_ls (standard_filter hd hs hc) hdyn' hrr (by rintro ⟨⟩) cl' uc'
  refine key.2 fun e => ?_
  obtain ⟨⟨l, hl⟩, c, hc', hm⟩ := key.1.1 e
  rw [hc, List.mem_filter] at hc'
  have : b.formulate (some r) cl uc = .error .valueError := by
    refine (C36_missing_ls hd hdyn hrr (by rintro ⟨⟩) cl uc).1.2 ⟨⟨l, fun i hi => ?_⟩, c, hc'.1, ?_⟩
    · rw [← spin_eq hs]; exact hl i hi
    · rintro ⟨h1, h2⟩
      exact hm ⟨fun g => h1 (hp.symm.trans g), fun g => h2 (hq.symm.trans g)⟩
  rw [h] at this
  cases this

/-- C111: a resonance is removed from the model by setting the couplings that carry its LaTeX to zero: the value
is that of the model for the decay without the chains of this resonance, with all other parameters unchanged. -/
theorem C111_switch_off (R : String) (hd : Standard b.decay)
    (hs : b'.decay.states = b.decay.states)
    (hc : b'.decay.chains = b.decay.chains.filter fun c => c.resonance.toP.latex ≠ R)
    (hp : b'.useProdHel = b.useProdHel) (hq : b'.useDecHel = b.useDecHel)
    (hdyn : Lineshapes b dyn) (hdyn' : Lineshapes b' dyn)
    (hfree : ∀ c ∈ b.decay.chains, HelicityFree (dyn c).expression)
    (hres : b.useProdHel = false → ∀ c ∈ b.decay.chains, c.resonance ≠ .state c.spectator)
    {r : ℤ} (hr : r = 1 ∨ r = 2 ∨ r = 3)
    (h : b.formulate (some r) cl uc = .ok m) (h' : b'.formulate (some r) cl' uc = .ok m') (ι : Interp) (η : Sym → ℚ)
    (hline : ∀ c ∈ b.decay.chains,
      (dyn c).expression.eval ι η = (dyn c).expression.eval (withoutResonance ι b uc R) η) :
    m.fullExpression.eval (withoutResonance ι b uc R) η = m'.fullExpression.eval ι η := by
  have hsub : ∀ c ∈ b'.decay.chains, c ∈ b.decay.chains ∧ c.resonance.toP.latex ≠ R := by
    intro c h
    rw [hc, List.mem_filter] at h
    exact ⟨h.1, by simpa using h.2⟩
  rw [C76_switch_off _ hd hs hc hp hq hdyn hdyn' hfree hres hr h h' (withoutResonance ι b uc R) ?_ η]
  · have := C77_scale (ι := ι) (ι' := withoutResonance ι b uc R) (η := η) (standard_filter hd hs hc) hdyn'
      (by rintro x ⟨⟩; exact hr) h' (fun c h => hfree c (hsub c h).1)
      (fun g c h => hres (hp.symm.trans g) c (hsub c h).1) ⟨rfl, rfl, rfl, rfl, rfl⟩ rfl
      (fun c h => hline c (hsub c h).1) 1 ?_
    · simpa using this
    · intro c h lR lk li lj
      have e : ∀ κ : Interp, couplings κ b' c uc lR lk li lj = couplings κ b c uc lR lk li lj := by
        intro κ
        unfold couplings
        rw [hp, hq]
      rw [e, e, couplings_without, if_neg (hsub c h).2, one_mul]
  · intro c hc' hk lR lk li lj
    rw [couplings_without, if_pos (by simpa using hk)]

/-- C111: coefficients are free: every choice of complex numbers for the resonances and the indices is the choice
of values of the coefficients. -/
theorem C111_coefficients_free (ι : Interp) (g : String → List ℚ → ℂ) : ∃ ι' : Interp,
    SameFunctions ι ι' ∧ ι'.sym = ι.sym ∧ ∀ (c : Chain) (lR lk li lj : ℚ), couplings ι' b c true lR lk li lj =
      g c.resonance.toP.latex (couplingIndices b.useProdHel c.incomingLs lR lk ++
        couplingIndices b.useDecHel c.outgoingLs li lj) := by
  classical
  refine ⟨{ ι with idx := fun name _ ix =>
    if h : ∃ R, name = coefficientName R b.useProdHel b.useDecHel then g h.choose ix else 0 },
    ⟨rfl, rfl, rfl, rfl, rfl⟩, rfl, fun c lR lk li lj => ?_⟩
  have hex : ∃ R, coefficientName c.resonance.toP.latex b.useProdHel b.useDecHel =
    coefficientName R b.useProdHel b.useDecHel := ⟨_, rfl⟩
  have : hex.choose = c.resonance.toP.latex := (coefficientName_inj hex.choose_spec).symm
  unfold couplings
  simp only [if_true]
  rw [dif_pos hex, this]

/-- C111: without coefficients the scale of a chain is a product of a production and a decay coupling, both shared
with the other chains of the resonance: for four combinations of vertices the products are related. -/
theorem C111_couplings_factorise (ι : Interp) {c₁ c₂ c₁₂ c₂₁ : Chain}
    (hR : ∀ c ∈ [c₂, c₁₂, c₂₁], c.resonance.toP.latex = c₁.resonance.toP.latex)
    (h₁ : c₁₂.incomingLs = c₁.incomingLs ∧ c₁₂.outgoingLs = c₂.outgoingLs)
    (h₂ : c₂₁.incomingLs = c₂.incomingLs ∧ c₂₁.outgoingLs = c₁.outgoingLs) (lR lk li lj lR' lk' li' lj' : ℚ) :
    couplings ι b c₁ false lR lk li lj * couplings ι b c₂ false lR' lk' li' lj' =
      couplings ι b c₁₂ false lR lk li' lj' * couplings ι b c₂₁ false lR' lk' li lj := by
  unfold couplings
  simp only [Bool.false_eq_true, if_false]
  rw [hR c₂ (by simp), hR c₁₂ (by simp), hR c₂₁ (by simp), h₁.1, h₁.2, h₂.1, h₂.2]
  ring

/-- C111: coefficients describe more than couplings: if a resonance has different production vertices and different
decay vertices, coefficients 1, 1, 0, 0 for their four combinations are possible, but no values of the couplings
give these products. -/
theorem C111_coefficients_more (ι : Interp) {c₁ c₂ c₁₂ c₂₁ : Chain}
    (hR : ∀ c ∈ [c₂, c₁₂, c₂₁], c.resonance.toP.latex = c₁.resonance.toP.latex)
    (h₁ : c₁₂.incomingLs = c₁.incomingLs ∧ c₁₂.outgoingLs = c₂.outgoingLs)
    (h₂ : c₂₁.incomingLs = c₂.incomingLs ∧ c₂₁.outgoingLs = c₁.outgoingLs) {lR lk li lj lR' lk' li' lj' : ℚ}
    (hp : couplingIndices b.useProdHel c₁.incomingLs lR lk ≠ couplingIndices b.useProdHel c₂.incomingLs lR' lk')
    (hq : couplingIndices b.useDecHel c₁.outgoingLs li lj ≠ couplingIndices b.useDecHel c₂.outgoingLs li' lj') :
    (∃ ι' : Interp, SameFunctions ι ι' ∧ ι'.sym = ι.sym ∧ couplings ι' b c₁ true lR lk li lj = 1 ∧
      couplings ι' b c₂ true lR' lk' li' lj' = 1 ∧ couplings ι' b c₁₂ true lR lk li' lj' = 0 ∧
      couplings ι' b c₂₁ true lR' lk' li lj = 0) ∧
    ¬ ∃ ι' : Interp, couplings ι' b c₁ false lR lk li lj = 1 ∧
      couplings ι' b c₂ false lR' lk' li' lj' = 1 ∧ couplings ι' b c₁₂ false lR lk li' lj' = 0 ∧
      couplings ι' b c₂₁ false lR' lk' li lj = 0 := by
  classical
  constructor
  · obtain ⟨ι', hf, hsym, hv⟩ := C111_coefficients_free (b := b) ι fun _ ix =>
      if ix = couplingIndices b.useProdHel c₁.incomingLs lR lk ++ couplingIndices b.useDecHel c₁.outgoingLs li lj ∨
        ix = couplingIndices b.useProdHel c₂.incomingLs lR' lk' ++ couplingIndices b.useDecHel c₂.outgoingLs li' lj'
      then 1 else 0
    refine ⟨ι', hf, hsym, ?_, ?_, ?_, ?_⟩
    · rw [hv, if_pos (.inl rfl)]
    · rw [hv, if_pos (.inr rfl)]
    · rw [hv, h₁.1, h₁.2, if_neg]
      rintro (h | h)
      · exact hq (List.append_cancel_left h).symm
      · exact hp (List.append_cancel_right h)
    · rw [hv, h₂.1, h₂.2, if_neg]
      rintro (h | h)
      · exact hp (List.append_cancel_right h).symm
      · exact hq (List.append_cancel_left h)
  · rintro ⟨ι', e1, e2, e3, e4⟩
    have := C111_couplings_factorise (b := b) ι' hR h₁ h₂ lR lk li lj lR' lk' li' lj'
    rw [e1, e2, e3, e4] at this
    norm_num at this

/-- In the helicity basis the example decay has the production coupling of the `K*` with the helicities `1` and
`1/2`, but none with the helicities `1` and `-1/2`, because the initial state would have helicity `3/2`. -/
example (m : AmplitudeModel) (h : (exBuilder true true false).formulate (some 1) true false = .ok m) :
    Key.idx ⟨"\\mathcal{H}^\\mathrm{production}", some "K^*", [.num 1, .num (1/2)]⟩ ∈
      PyDict.keys m.parameterDefaults ∧
    Key.idx ⟨"\\mathcal{H}^\\mathrm{production}", some "K^*", [.num 1, .num (-1/2)]⟩ ∉
      PyDict.keys m.parameterDefaults := by
  have key := C111_parameters exDecay_standard (exBuilder_lineshapes true true false)
    (by rintro x ⟨⟩; exact .inl rfl) h (by intro c _ y; simp [PyDict.keys])
  have s0 : (exBuilder true true false).decay.spin 0 = 1 / 2 := rfl
  have s1 : (exBuilder true true false).decay.spin 1 = 1 / 2 := rfl
  have s2 : (exBuilder true true false).decay.spin 2 = 0 := rfl
  have s3 : (exBuilder true true false).decay.spin 3 = 0 := rfl
  constructor
  · refine (key _).2 ⟨exChainK, by simp [exBuilder, exDecay], fun n => if n = 0 ∨ n = 1 then 1 / 2 else 0, ⟨?_, ?_⟩,
      2, 3, 1, rfl, by decide, ?_⟩
    · intro n hn
      simp only [List.mem_cons, List.not_mem_nil, or_false] at hn
      rcases hn with rfl | rfl | rfl | rfl
      · rw [s0]; exact ⟨by norm_num, by norm_num, 0, by norm_num⟩
      · rw [s1]; exact ⟨by norm_num, by norm_num, 0, by norm_num⟩
      · rw [s2]; exact ⟨by norm_num, by norm_num, 0, by norm_num⟩
      · rw [s3]; exact ⟨by norm_num, by norm_num, 0, by norm_num⟩
    · have hr : exChainK.resonance.toP.spin = 1 := rfl
      have hk : exChainK.spectator.index = 1 := rfl
      rw [hr, hk]
      exact ⟨by norm_num, by norm_num, 0, by norm_num⟩
    · unfold couplingSymbols
      simp [exChainK, Obj.toP, couplingIndices, couplingName, exBuilder]
      norm_num
  · rw [key]
    rintro ⟨c, hc, l, hl, i, j, k, rfl, hijk, hx⟩
    have h0 := hl.states 0 (by simp)
    rw [s0] at h0
    simp only [exBuilder, exDecay, List.mem_cons, List.not_mem_nil, or_false] at hc
    rcases hc with rfl | rfl
    · unfold couplingSymbols at hx
      simp [exChainK, Obj.toP, couplingIndices, couplingName, exBuilder] at hx
      have h1 := h0.2.1
      linarith [hx.1, hx.2]
    · unfold couplingSymbols at hx
      simp [exChainL, Obj.toP, couplingIndices, couplingName, exBuilder] at hx

/-- The example decay without its `Λ*`. -/
example (p q a uc : Bool) (m m' : AmplitudeModel) (h : (exBuilder p q a).formulate (some 1) true uc = .ok m)
    (h' : (exWithoutL p q a).formulate (some 1) true uc = .ok m') (ι : Interp) (η : Sym → ℚ) :
    m.fullExpression.eval (withoutResonance ι (exBuilder p q a) uc "L^*") η = m'.fullExpression.eval ι η :=
  C111_switch_off (b := exBuilder p q a) (b' := exWithoutL p q a) (dyn := fun _ => {}) "L^*" exDecay_standard rfl
    (show [exChainK] = exDecay.chains.filter _ by simp [exDecay, exChainK, exChainL, Obj.toP]) rfl rfl (exBuilder_lineshapes _ _ _)
    (by
      intro c hc
      simp only [exWithoutL, List.mem_cons, List.not_mem_nil, or_false] at hc
      subst hc
      exact ⟨unitDynamics, rfl, rfl⟩)
    (fun _ _ => exFree) (fun _ => exRes) (.inl rfl) h h' ι η (fun _ _ => rfl)

/-- The coefficients of the `K*` with different helicities, in the helicity basis. -/
example (ι : Interp) : ¬ ∃ ι' : Interp, couplings ι' (exBuilder true true false) exChainK false 1 (1/2) 0 0 = 1 ∧
    couplings ι' (exBuilder true true false) exChainK false 0 (1/2) 1 0 = 1 ∧
    couplings ι' (exBuilder true true false) exChainK false 1 (1/2) 1 0 = 0 ∧
    couplings ι' (exBuilder true true false) exChainK false 0 (1/2) 0 0 = 0 :=
  (C111_coefficients_more (b := exBuilder true true false) ι (c₁ := exChainK) (c₂ := exChainK) (c₁₂ := exChainK)
    (c₂₁ := exChainK) (by simp) ⟨rfl, rfl⟩ ⟨rfl, rfl⟩ (by simp [couplingIndices, exBuilder])
    (by simp [couplingIndices, exBuilder])).2

end Verif.ThreeBody
