import Verif.Model.SubIntensities
import Verif.Props.SubIntensity

/-! Property C127: the contribution of selected resonances, as computed in the comparisons with AmpForm. -/
namespace Verif.ThreeBody
open Verif Verif.Spec

variable {b b' : Builder} {dyn : Chain → DefExpr} {cl cl' uc : Bool} {m m' : AmplitudeModel} {names : List String}

/-- The parameters that are couplings for this function: the text begins with `C` or contains `production`. -/
def Selectable (k : String) : Prop := "C".toList <+: k.toList ∨ "production".toList <:+: k.toList

instance (k : String) : Decidable (Selectable k) := inferInstanceAs (Decidable (_ ∨ _))

/-- One of the names is part of the text. -/
def Selected (names : List String) (k : String) : Prop := ∃ r ∈ names, r.toList <:+: k.toList

instance (names : List String) (k : String) : Decidable (Selected names k) :=
  inferInstanceAs (Decidable (∃ r ∈ names, _))

theorem any_selected (names : List String) (k : String) :
    (names.any fun r => textIn r k) = true ↔ Selected names k := by
  simp [Selected, textIn, List.any_eq_true]

theorem get?_toZero {W : Type} [Zero W] (names : List String) (p : PyDict String W) (k : String) :
    PyDict.get? (couplingsToZero p names) k =
      if Selectable k then (PyDict.get? p k).map fun v => if Selected names k then v else 0 else none := by
  have hs : ∀ k : String, (decide ("C".toList <+: k.toList) || textIn "production" k) = true ↔ Selectable k := by
    intro k
    unfold Selectable textIn
    rw [Bool.or_eq_true, decide_eq_true_iff, decide_eq_true_iff]
  unfold couplingsToZero getCouplings
  induction p with
  | nil => simp
  | cons x l ih =>
    obtain ⟨k', v⟩ := x
    rw [List.filter_cons, PyDict.get?_cons]
    by_cases h : k' = k
    · subst h
      by_cases hf : Selectable k'
      · rw [if_pos ((hs k').2 hf), List.map_cons, PyDict.get?_cons, if_pos rfl, if_pos hf, if_pos rfl]
        simp only [Option.map_some, Option.some.injEq]
        by_cases hn : Selected names k'
        · rw [if_pos hn, if_pos ((any_selected _ _).2 hn)]
        · rw [if_neg hn, if_neg (fun h => hn ((any_selected _ _).1 h))]
      · rw [if_neg (fun h => hf ((hs k').1 h)), ih, if_neg hf, if_neg hf]
    · rw [if_neg h, ← ih]
      split
      · rw [List.map_cons, PyDict.get?_cons, if_neg h]
      · rfl

theorem get?_selected {W : Type} [Zero W] {p : PyDict String W} (hp : (PyDict.keys p).Nodup) (k : String) :
    PyDict.get? (p.update (couplingsToZero p names)) k =
      if Selectable k ∧ ¬ Selected names k then (PyDict.get? p k).map fun _ => 0 else PyDict.get? p k := by
  have hn : (PyDict.keys (couplingsToZero p names)).Nodup := by
    unfold couplingsToZero getCouplings PyDict.keys
    rw [List.map_map]
    exact (List.filter_sublist.map Prod.fst).nodup hp
  have hk : PyDict.get? (couplingsToZero p names).reverse k = PyDict.get? (couplingsToZero p names) k := by
    rw [← PyDict.get?_ofItems, PyDict.ofItems_of_nodup hn]
  rw [PyDict.get?_update, hk, get?_toZero]
  by_cases h1 : Selectable k <;> by_cases h2 : Selected names k <;> simp only [h1, h2, if_true, if_false, not_true,
    not_false_iff, and_true, and_false] <;> cases PyDict.get? p k <;> rfl

/-- C127: after a call that returns, the parameters of the function are as before it. -/
theorem C127_restores {W A : Type} [Zero W] (call : PyDict String W → Py A) {p : PyDict String W}
    (hp : (PyDict.keys p).Nodup) {a : A} (h : (computeSubIntensities call p names).1 = .ok a) :
    (computeSubIntensities call p names).2 = p := by
  unfold computeSubIntensities at h ⊢
  simp only at h ⊢
  cases hc : call (p.update (couplingsToZero p names)) with
  | error e => rw [hc] at h; cases h
  | ok a' =>
    simp only
    have h1 : PyDict.keys (p.update (couplingsToZero p names)) = PyDict.keys p := keys_update_of_subset _ fun k hk => by
      simp only [couplingsToZero, getCouplings, PyDict.keys, List.mem_map, List.mem_filter] at hk ⊢
      obtain ⟨_, ⟨y, ⟨hy, -⟩, rfl⟩, rfl⟩ := hk
      exact ⟨y, hy, rfl⟩
    have h2 : PyDict.keys ((p.update (couplingsToZero p names)).update p) = PyDict.keys p := by
      rw [keys_update_of_subset _ (by rw [h1]; exact fun _ h => h), h1]
    refine dict_ext (by rw [h2]; exact hp) h2 fun k => ?_
    rw [PyDict.get?_update]
    have hk : PyDict.get? p.reverse k = PyDict.get? p k := by
      rw [← PyDict.get?_ofItems, PyDict.ofItems_of_nodup hp]
    rw [hk]
    cases hg : PyDict.get? p k with
    | some v => rfl
    | none =>
      rw [get?_selected hp, hg]
      simp

theorem production_key {hel : Bool} {R : String} {ix : List ℚ} :
    Selectable (couplingKey (couplingName hel "production") (some R) ix) := by
  refine .inr (List.IsInfix.trans ?_ base_infix)
  unfold couplingName
  cases hel
  · exact infix_mid
  · exact infix_mid

/-- C127: the value for which the chains `keep` are shown: if one of the names is part of the LaTeX of the resonances of these
chains, and none in the text of a coupling of the others, it is that of the model for the decay with these chains only, with
the same values of the parameters. -/
theorem C127_value (keep : Chain → Bool) (hd : Standard b.decay)
    (hs : b'.decay.states = b.decay.states) (hc : b'.decay.chains = b.decay.chains.filter keep)
    (hp : b'.useProdHel = b.useProdHel) (hq : b'.useDecHel = b.useDecHel)
    (hdyn : Lineshapes b dyn) (hdyn' : Lineshapes b' dyn)
    (hfree : ∀ c ∈ b.decay.chains, HelicityFree (dyn c).expression)
    (hres : b.useProdHel = false → ∀ c ∈ b.decay.chains, c.resonance ≠ .state c.spectator)
    {r : ℤ} (hr : r = 1 ∨ r = 2 ∨ r = 3)
    (h : b.formulate (some r) cl false = .ok m) (h' : b'.formulate (some r) cl' false = .ok m')
    (ι : Interp) (η : Sym → ℚ) {p : PyDict String ℂ} (hn : (PyDict.keys p).Nodup)
    (hline : ∀ c ∈ b.decay.chains, ∀ p', (dyn c).expression.eval (withCouplings ι p') η =
      (dyn c).expression.eval (withCouplings ι p) η)
    (hkeep : ∀ c ∈ b.decay.chains, keep c = true → ∃ n ∈ names, n.toList <:+: c.resonance.toP.latex.toList)
    (hdrop : ∀ c ∈ b.decay.chains, keep c = false → ∀ n ∈ names, ¬ Mentions b c false n) :
    (computeSubIntensities (fun p => .ok (m.fullExpression.eval (withCouplings ι p) η)) p names).1 =
      .ok (m'.fullExpression.eval (withCouplings ι p) η) := by
  have hsub : ∀ c ∈ b'.decay.chains, c ∈ b.decay.chains ∧ keep c = true := by
    intro c h
    rwa [hc, List.mem_filter] at h
  unfold computeSubIntensities
  simp only [Except.ok.injEq]
  rw [C76_switch_off keep hd hs hc hp hq hdyn hdyn' hfree hres hr h h' _ ?_ η]
  · have := C77_scale (ι := withCouplings ι p) (ι' := withCouplings ι (p.update (couplingsToZero p names))) (η := η)
      (standard_filter hd hs hc) hdyn' (by rintro x ⟨⟩; exact hr) h' (fun c h => hfree c (hsub c h).1)
      (fun g c h => hres (hp.symm.trans g) c (hsub c h).1) ⟨rfl, rfl, rfl, rfl, rfl⟩ rfl
      (fun c h => (hline c (hsub c h).1 _).symm) 1 ?_
    · simpa using this
    · intro c h lR lk li lj
      obtain ⟨n, hnm, hi⟩ := hkeep c (hsub c h).1 (hsub c h).2
      have key : ∀ base ix, ¬ (Selectable (couplingKey base (some c.resonance.toP.latex) ix) ∧
          ¬ Selected names (couplingKey base (some c.resonance.toP.latex) ix)) :=
        fun base ix h => h.2 ⟨n, hnm, infix_key hi⟩
      unfold couplings withCouplings
      simp only [Bool.false_eq_true, if_false, one_mul]
      rw [get?_selected hn, get?_selected hn, if_neg (key _ _), if_neg (key _ _)]
  · intro c hc' hk lR lk li lj
    have key : ¬ Selected names (couplingKey (couplingName b.useProdHel "production") (some c.resonance.toP.latex)
        (couplingIndices b.useProdHel c.incomingLs lR lk)) := by
      rintro ⟨n, hnm, hi⟩
      exact hdrop c hc' hk n hnm ⟨lR, lk, li, lj, _, by simp [couplingTexts], hi⟩
    unfold couplings withCouplings
    simp only [Bool.false_eq_true, if_false]
    rw [get?_selected hn, if_pos ⟨production_key, key⟩]
    cases PyDict.get? p _ <;> simp

/-- C127: for LaTeX texts as those of most particles, it is the intensity of all chains with a resonance whose LaTeX
contains one of the texts. -/
theorem C127_selected (hl : ∀ n ∈ names, OrdinaryLatex n) (hd : Standard b.decay)
    (hs : b'.decay.states = b.decay.states)
    (hc : b'.decay.chains = b.decay.chains.filter fun c => ∃ n ∈ names, n.toList <:+: c.resonance.toP.latex.toList)
    (hp : b'.useProdHel = b.useProdHel) (hq : b'.useDecHel = b.useDecHel)
    (hdyn : Lineshapes b dyn) (hdyn' : Lineshapes b' dyn)
    (hfree : ∀ c ∈ b.decay.chains, HelicityFree (dyn c).expression)
    (hres : b.useProdHel = false → ∀ c ∈ b.decay.chains, c.resonance ≠ .state c.spectator)
    {r : ℤ} (hr : r = 1 ∨ r = 2 ∨ r = 3)
    (h : b.formulate (some r) cl false = .ok m) (h' : b'.formulate (some r) cl' false = .ok m')
    (ι : Interp) (η : Sym → ℚ) {p : PyDict String ℂ} (hn : (PyDict.keys p).Nodup)
    (hline : ∀ c ∈ b.decay.chains, ∀ p', (dyn c).expression.eval (withCouplings ι p') η =
      (dyn c).expression.eval (withCouplings ι p) η) :
    (computeSubIntensities (fun p => .ok (m.fullExpression.eval (withCouplings ι p) η)) p names).1 =
      .ok (m'.fullExpression.eval (withCouplings ι p) η) :=
  C127_value _ hd hs hc hp hq hdyn hdyn' hfree hres hr h h' ι η hn hline (fun c _ h => by simpa using h)
    (fun c _ h n hnm => by
      rw [C126_mentions (hl n hnm)]
      intro hi
      have := decide_eq_false_iff_not.1 h
      exact this ⟨n, hnm, hi⟩)

/-- C127: if every resonance is selected, it is the intensity of the model. -/
theorem C127_all (hd : Standard b.decay) (hdyn : Lineshapes b dyn)
    (hfree : ∀ c ∈ b.decay.chains, HelicityFree (dyn c).expression)
    (hres : b.useProdHel = false → ∀ c ∈ b.decay.chains, c.resonance ≠ .state c.spectator)
    {r : ℤ} (hr : r = 1 ∨ r = 2 ∨ r = 3) (h : b.formulate (some r) cl false = .ok m)
    (ι : Interp) (η : Sym → ℚ) {p : PyDict String ℂ} (hn : (PyDict.keys p).Nodup)
    (hline : ∀ c ∈ b.decay.chains, ∀ p', (dyn c).expression.eval (withCouplings ι p') η =
      (dyn c).expression.eval (withCouplings ι p) η)
    (hall : ∀ c ∈ b.decay.chains, c.resonance.toP.latex ∈ names) :
    (computeSubIntensities (fun p => .ok (m.fullExpression.eval (withCouplings ι p) η)) p names).1 =
      .ok (m.fullExpression.eval (withCouplings ι p) η) :=
  C127_value (fun _ => true) hd rfl (List.filter_true _).symm rfl rfl hdyn hdyn hfree hres hr h h ι η hn hline
    (fun c hc _ => ⟨_, hall c hc, List.infix_rfl⟩) (fun _ _ h => by cases h)

/-- C127: if none is selected, it is zero. -/
theorem C127_none (hd : Standard b.decay) (hdyn : Lineshapes b dyn)
    (hfree : ∀ c ∈ b.decay.chains, HelicityFree (dyn c).expression)
    (hres : b.useProdHel = false → ∀ c ∈ b.decay.chains, c.resonance ≠ .state c.spectator)
    {r : ℤ} (hr : r = 1 ∨ r = 2 ∨ r = 3) (h : b.formulate (some r) cl false = .ok m)
    (ι : Interp) (η : Sym → ℚ) {p : PyDict String ℂ} (hn : (PyDict.keys p).Nodup)
    (hline : ∀ c ∈ b.decay.chains, ∀ p', (dyn c).expression.eval (withCouplings ι p') η =
      (dyn c).expression.eval (withCouplings ι p) η) :
    (computeSubIntensities (fun p => .ok (m.fullExpression.eval (withCouplings ι p) η)) p []).1 = .ok 0 := by
  unfold computeSubIntensities
  simp only [Except.ok.injEq]
  have := C77_scale (ι := withCouplings ι p) (ι' := withCouplings ι (p.update (couplingsToZero p []))) (η := η)
    hd hdyn (by rintro x ⟨⟩; exact hr) h hfree hres ⟨rfl, rfl, rfl, rfl, rfl⟩ rfl
    (fun c h => (hline c h _).symm) 0 ?_
  · simpa using this
  · intro c h lR lk li lj
    unfold couplings withCouplings
    simp only [Bool.false_eq_true, if_false, zero_mul]
    rw [get?_selected hn, if_pos ⟨production_key, by simp [Selected]⟩]
    cases PyDict.get? p _ <;> simp

theorem coefficient_production : OrdinaryCoefficient "production" := by
  refine ⟨by decide, ⟨'p', by decide, by decide, by decide, by decide⟩, ⟨by decide, ?_⟩, ?_⟩
  · intro s hs
    have h : ∀ s ∈ "production".toList.inits, s.count '}' ≤ s.count '{' := by decide
    exact h s ((List.mem_inits _ _).2 hs)
  · intro p q
    cases p <;> cases q <;> decide +kernel

/-- C127: with coefficients nothing is left out, whatever is selected, because their names do not contain `production`. -/
theorem C127_coefficients (hR : ∀ c ∈ b.decay.chains, BalancedBraces c.resonance.toP.latex ∧
      ¬ "production".toList <:+: c.resonance.toP.latex.toList) (hd : Standard b.decay) (hdyn : Lineshapes b dyn)
    (hfree : ∀ c ∈ b.decay.chains, HelicityFree (dyn c).expression)
    (hres : b.useProdHel = false → ∀ c ∈ b.decay.chains, c.resonance ≠ .state c.spectator)
    {r : ℤ} (hr : r = 1 ∨ r = 2 ∨ r = 3) (h : b.formulate (some r) cl true = .ok m)
    (ι : Interp) (η : Sym → ℚ) {p : PyDict String ℂ} (hn : (PyDict.keys p).Nodup)
    (hline : ∀ c ∈ b.decay.chains, ∀ p', (dyn c).expression.eval (withCouplings ι p') η =
      (dyn c).expression.eval (withCouplings ι p) η) (names : List String) :
    (computeSubIntensities (fun p => .ok (m.fullExpression.eval (withCouplings ι p) η)) p names).1 =
      .ok (m.fullExpression.eval (withCouplings ι p) η) := by
  unfold computeSubIntensities
  simp only [Except.ok.injEq]
  have := C77_scale (ι := withCouplings ι p) (ι' := withCouplings ι (p.update (couplingsToZero p names))) (η := η)
    hd hdyn (by rintro x ⟨⟩; exact hr) h hfree hres ⟨rfl, rfl, rfl, rfl, rfl⟩ rfl
    (fun c h => (hline c h _).symm) 1 ?_
  · simpa using this
  · intro c hc lR lk li lj
    have key : ∀ ix, ix = couplingIndices b.useProdHel c.incomingLs lR lk ++ couplingIndices b.useDecHel c.outgoingLs li lj →
        ¬ Selectable (couplingKey (coefficientName c.resonance.toP.latex b.useProdHel b.useDecHel) none ix) := by
      rintro ix rfl (h1 | h1)
      · obtain ⟨t, ht⟩ := h1
        have hb : ∃ u, (couplingKey (coefficientName c.resonance.toP.latex b.useProdHel b.useDecHel) none
            (couplingIndices b.useProdHel c.incomingLs lR lk ++ couplingIndices b.useDecHel c.outgoingLs li lj)).toList =
            '\\' :: u := by
          unfold couplingKey
          rw [String.toList_append, String.toList_append, String.toList_append]
          cases b.useProdHel <;> cases b.useDecHel
          · rw [coefficient_ff]; exact ⟨_, rfl⟩
          · rw [coefficient_ft]; exact ⟨_, rfl⟩
          · rw [coefficient_tf]; exact ⟨_, rfl⟩
          · rw [coefficient_tt]; exact ⟨_, rfl⟩
        obtain ⟨u, hu⟩ := hb
        rw [hu] at ht
        have := congrArg List.head? ht
        revert this
        simp
      · refine (hR c hc).2 ((C126_mentions_coefficients (b := b) coefficient_production c (hR c hc).1 ?_).1
          ⟨lR, lk, li, lj, _, by simp only [couplingTexts, if_true, List.mem_singleton], h1⟩)
        intro hi
        have : '{' ∈ "production".toList := hi.subset (by simp)
        revert this
        decide
    unfold couplings withCouplings
    simp only [if_true, one_mul]
    rw [get?_selected hn, if_neg fun g => key _ rfl g.1]

/-! Concrete cases of the theorems. -/

theorem ordinary_rho : OrdinaryLatex "\\rho" := by
  refine ⟨by decide, ⟨'r', by decide, by decide, by decide, by decide⟩, ?_⟩
  intro hel v hv
  simp only [List.mem_cons, List.not_mem_nil, or_false] at hv
  cases hel <;> rcases hv with rfl | rfl <;> decide +kernel

theorem ordinary_kstar2 : OrdinaryLatex "K^*_2" := by
  refine ⟨by decide, ⟨'K', by decide, by decide, by decide, by decide⟩, ?_⟩
  intro hel v hv
  simp only [List.mem_cons, List.not_mem_nil, or_false] at hv
  cases hel <;> rcases hv with rfl | rfl <;> decide +kernel

def spRestDecay : Decay := ⟨spStates, [spChainRho, spChainK2]⟩

theorem spRestDecay_chains : spRestDecay.chains = spTwoDecay.chains.filter fun c =>
    ∃ n ∈ ["\\rho", "K^*_2"], n.toList <:+: c.resonance.toP.latex.toList := by
  have h1 : ∃ n ∈ ["\\rho", "K^*_2"], n.toList <:+: spChainRho.resonance.toP.latex.toList :=
    ⟨"\\rho", by simp, List.infix_rfl⟩
  have h2 : ¬ ∃ n ∈ ["\\rho", "K^*_2"], n.toList <:+: spChainK.resonance.toP.latex.toList := by
    have a1 : ¬ "\\rho".toList <:+: "K^*".toList := by decide +kernel
    have a2 : ¬ "K^*_2".toList <:+: "K^*".toList := by decide +kernel
    rintro ⟨n, hn, h⟩
    simp only [List.mem_cons, List.not_mem_nil, or_false] at hn
    rcases hn with rfl | rfl
    · exact a1 h
    · exact a2 h
  have h3 : ∃ n ∈ ["\\rho", "K^*_2"], n.toList <:+: spChainK2.resonance.toP.latex.toList :=
    ⟨"K^*_2", by simp, List.infix_rfl⟩
  rw [show spTwoDecay.chains = [spChainRho, spChainK, spChainK2] from rfl, List.filter_cons, List.filter_cons,
    List.filter_cons, List.filter_nil, if_pos (decide_eq_true h1), if_neg (by rw [decide_eq_true_iff]; exact h2),
    if_pos (decide_eq_true h3)]
  rfl

theorem spRestDecay_standard : Standard spRestDecay := standard_filter spTwoDecay_standard rfl spRestDecay_chains

/-- The resonances `\rho` and `K^*_2` are selected: the intensity is that of the model without the chain of `K^*`. -/
example (p : PyDict String ℂ) (hp : (PyDict.keys p).Nodup) :
    ∃ m m', (spHel spTwoDecay).formulate (some 1) true false = .ok m ∧
      (spHel spRestDecay).formulate (some 1) true false = .ok m' ∧
      (computeSubIntensities (fun p => .ok (m.fullExpression.eval (withCouplings constInterp p) fun _ => 0)) p
        ["\\rho", "K^*_2"]).1 = .ok (m'.fullExpression.eval (withCouplings constInterp p) fun _ => 0) := by
  obtain ⟨m, hm⟩ := spHel_ok spTwoDecay_standard true false
  obtain ⟨m', hm'⟩ := spHel_ok spRestDecay_standard true false
  refine ⟨m, m', hm, hm', C127_selected (b := spHel spTwoDecay) (b' := spHel spRestDecay) (dyn := fun _ => {})
    ?_ spTwoDecay_standard rfl spRestDecay_chains rfl rfl (unit_lineshapes _ _ _ _)
    (unit_lineshapes _ _ _ _) (fun _ _ => exFree) (by simp [spHel]) (.inl rfl) hm hm' constInterp (fun _ => 0) hp
    fun _ _ _ => rfl⟩
  intro n hn
  simp only [List.mem_cons, List.not_mem_nil, or_false] at hn
  rcases hn with rfl | rfl
  · exact ordinary_rho
  · exact ordinary_kstar2

/-- All are selected, or none. -/
example (p : PyDict String ℂ) (hp : (PyDict.keys p).Nodup) : ∃ m, (spHel spTwoDecay).formulate (some 1) true false = .ok m ∧
    (computeSubIntensities (fun p => .ok (m.fullExpression.eval (withCouplings constInterp p) fun _ => 0)) p
      ["K^*", "K^*_2", "\\rho"]).1 = .ok (m.fullExpression.eval (withCouplings constInterp p) fun _ => 0) ∧
    (computeSubIntensities (fun p => .ok (m.fullExpression.eval (withCouplings constInterp p) fun _ => 0)) p []).1 =
      .ok 0 := by
  obtain ⟨m, hm⟩ := spHel_ok spTwoDecay_standard true false
  refine ⟨m, hm, C127_all (b := spHel spTwoDecay) (dyn := fun _ => {}) spTwoDecay_standard (unit_lineshapes _ _ _ _)
    (fun _ _ => exFree) (by simp [spHel]) (.inl rfl) hm constInterp (fun _ => 0) hp (fun _ _ _ => rfl) ?_,
    C127_none (b := spHel spTwoDecay) (dyn := fun _ => {}) spTwoDecay_standard (unit_lineshapes _ _ _ _)
    (fun _ _ => exFree) (by simp [spHel]) (.inl rfl) hm constInterp (fun _ => 0) hp (fun _ _ _ => rfl)⟩
  simp [spHel, spTwoDecay, spChainRho, spChainK, spChainK2, Obj.toP]

example : (computeSubIntensities (fun p => .ok (p.map Prod.snd).sum) spCouplings ["K^*"]).2 = spCouplings :=
  C127_restores (fun p => (.ok (p.map Prod.snd).sum : Py ℂ)) spCouplings_nodup rfl

/-- With coefficients the intensity of the model is returned, although nothing is selected. -/
example (p : PyDict String ℂ) (hp : (PyDict.keys p).Nodup) : ∃ m, (spHel spDecay).formulate (some 1) true true = .ok m ∧
    (computeSubIntensities (fun p => .ok (m.fullExpression.eval (withCouplings constInterp p) fun _ => 0)) p []).1 =
      .ok (m.fullExpression.eval (withCouplings constInterp p) fun _ => 0) := by
  obtain ⟨m, hm⟩ := spHel_ok spDecay_standard true true
  refine ⟨m, hm, C127_coefficients (b := spHel spDecay) (dyn := fun _ => {}) ?_ spDecay_standard (unit_lineshapes _ _ _ _)
    (fun _ _ => exFree) (by simp [spHel]) (.inl rfl) hm constInterp (fun _ => 0) hp (fun _ _ _ => rfl) []⟩
  have a1 : ¬ "production".toList <:+: "\\rho".toList := by decide +kernel
  have a2 : ¬ "production".toList <:+: "K^*".toList := by decide +kernel
  intro c hc
  simp only [spHel, spDecay, List.mem_cons, List.not_mem_nil, or_false] at hc
  rcases hc with rfl | rfl
  · exact ⟨balanced_rho, a1⟩
  · exact ⟨balanced_kstar, a2⟩

end Verif.ThreeBody
