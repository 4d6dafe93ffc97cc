import Verif.Spec.SubIntensity
import Verif.Props.Couplings
import Verif.Props.Bound
import Verif.Proofs.QrulesIds

/-! Property C126: the contribution of one resonance, as computed in the documentation. -/
namespace Verif.ThreeBody
open Verif Verif.Spec

variable {b b' : Builder} {dyn : Chain → DefExpr} {cl cl' uc : Bool} {m m' : AmplitudeModel} {latex : String}

theorem get?_zero {W : Type} [Zero W] (f : String → Bool) (p : PyDict String W) (k : String) :
    PyDict.get? ((p.filter fun x => f x.1).map fun x => (x.1, (0 : W))) k =
      if f k = true then (PyDict.get? p k).map fun _ => 0 else none := by
  induction p with
  | nil => simp
  | cons x l ih =>
    obtain ⟨k', v⟩ := x
    rw [List.filter_cons, PyDict.get?_cons]
    by_cases h : k' = k
    · subst h
      by_cases hf : f k' = true
      · simp [hf, PyDict.get?_cons]
      · simp only [hf, Bool.false_eq_true, if_false] at ih ⊢
        exact ih
    · rw [if_neg h, ← ih]
      by_cases hf : f k' = true
      · simp [hf, PyDict.get?_cons, h]
      · simp [hf]

theorem get?_zeroParameters {W : Type} [Zero W] {p : PyDict String W} (hp : (PyDict.keys p).Nodup) (k : String) :
    PyDict.get? (p.update (zeroParameters p latex)) k =
      if textIn "\\mathcal{H}" k = true ∧ textIn latex k = false then (PyDict.get? p k).map fun _ => 0
      else PyDict.get? p k := by
  have hn : (PyDict.keys (zeroParameters p latex)).Nodup := by
    unfold zeroParameters PyDict.keys
    rw [List.map_map]
    exact (List.filter_sublist.map Prod.fst).nodup hp
  have hk : PyDict.get? (zeroParameters p latex).reverse k = PyDict.get? (zeroParameters p latex) k := by
    rw [← PyDict.get?_ofItems, PyDict.ofItems_of_nodup hn]
  rw [PyDict.get?_update, hk, zeroParameters, get?_zero (fun s => textIn "\\mathcal{H}" s && !textIn latex s)]
  simp only [Bool.and_eq_true, Bool.not_eq_true']
  split_ifs with h
  · cases PyDict.get? p k <;> rfl
  · rfl

theorem keys_update_of_subset {κ ν : Type} [DecidableEq κ] (e : PyDict κ ν) : ∀ {d : PyDict κ ν},
    (∀ k ∈ PyDict.keys e, k ∈ PyDict.keys d) → PyDict.keys (d.update e) = PyDict.keys d := by
  induction e with
  | nil => intro d _; rfl
  | cons x e ih =>
    intro d h
    have h1 : PyDict.keys (d.set x.1 x.2) = PyDict.keys d := by
      rw [PyDict.keys_set, if_pos (h _ (by simp [PyDict.keys]))]
    change PyDict.keys (PyDict.update (d.set x.1 x.2) e) = _
    rw [ih, h1]
    intro k hk
    rw [h1]
    exact h k (by simp only [PyDict.keys, List.map_cons, List.mem_cons] at hk ⊢; exact .inr hk)

theorem dict_ext {κ ν : Type} [DecidableEq κ] : ∀ {d e : PyDict κ ν}, (PyDict.keys d).Nodup →
    PyDict.keys d = PyDict.keys e → (∀ k, PyDict.get? d k = PyDict.get? e k) → d = e
  | [], [], _, _, _ => rfl
  | [], _ :: _, _, h, _ => by cases h
  | _ :: _, [], _, h, _ => by cases h
  | (k, v) :: d, (k', v') :: e, hd, hk, hg => by
    simp only [PyDict.keys, List.map_cons, List.cons.injEq, List.nodup_cons] at hd hk
    obtain ⟨rfl, hk⟩ := hk
    have hv : v = v' := by
      have := hg k
      simpa [PyDict.get?_cons] using this
    subst hv
    refine congrArg _ (dict_ext hd.2 hk fun x => ?_)
    by_cases hx : k = x
    · subst hx
      rw [PyDict.get?_eq_none.2 hd.1, PyDict.get?_eq_none.2]
      change k ∉ e.map Prod.fst
      rw [← hk]
      exact hd.1
    · have := hg x
      rwa [PyDict.get?_cons, PyDict.get?_cons, if_neg hx, if_neg hx] at this

/-- C126: after a call that returns, the function has the parameters it had before. -/
theorem C126_restores {W A : Type} [Zero W] (call : PyDict String W → Py A) {p : PyDict String W}
    (hp : (PyDict.keys p).Nodup) {a : A} (h : (computeSubIntensity call p latex).1 = .ok a) :
    (computeSubIntensity call p latex).2 = p := by
  unfold computeSubIntensity at h ⊢
  simp only at h ⊢
  cases hc : call (p.update (zeroParameters p latex)) with
  | error e => rw [hc] at h; cases h
  | ok a' =>
    simp only
    have h1 : PyDict.keys (p.update (zeroParameters p latex)) = PyDict.keys p := keys_update_of_subset _ fun k hk => by
      simp only [zeroParameters, PyDict.keys, List.mem_map, List.mem_filter] at hk ⊢
      obtain ⟨_, ⟨y, ⟨hy, -⟩, rfl⟩, rfl⟩ := hk
      exact ⟨y, hy, rfl⟩
    have h2 : PyDict.keys ((p.update (zeroParameters p latex)).update p) = PyDict.keys p := by
      rw [keys_update_of_subset _ (by rw [h1]; exact fun _ h => h), h1]
    refine dict_ext (by rw [h2]; exact hp) h2 fun k => ?_
    rw [PyDict.get?_update]
    have hk : PyDict.get? p.reverse k = PyDict.get? p k := by
      rw [← PyDict.get?_ofItems, PyDict.ofItems_of_nodup hp]
    rw [hk]
    cases hg : PyDict.get? p k with
    | some v => rfl
    | none =>
      rw [get?_zeroParameters hp, hg]
      simp

/-- C126: if the numerical function raises an exception, the couplings that do not contain the LaTeX of the resonance
stay zero. -/
theorem C126_exception {W A : Type} [Zero W] (call : PyDict String W → Py A) {p : PyDict String W}
    (hp : (PyDict.keys p).Nodup) {e : PyErr} (h : (computeSubIntensity call p latex).1 = .error e) (k : String) :
    PyDict.get? (computeSubIntensity call p latex).2 k =
      if textIn "\\mathcal{H}" k = true ∧ textIn latex k = false then (PyDict.get? p k).map fun _ => 0
      else PyDict.get? p k := by
  unfold computeSubIntensity at h ⊢
  simp only at h ⊢
  cases hc : call (p.update (zeroParameters p latex)) with
  | error e' => exact get?_zeroParameters hp k
  | ok a' => rw [hc] at h; cases h

/-- C126: in a loop over resonances every sub-intensity is that of a first call; the loop raises exactly if one of these
raises. -/
theorem C126_loop {W A : Type} [Zero W] (call : PyDict String W → Py A) {p : PyDict String W}
    (hp : (PyDict.keys p).Nodup) : ∀ (latexes : List String) (results : List A),
    (subIntensityLoop call p latexes).1 = .ok results ↔
      List.Forall₂ (fun latex a => (computeSubIntensity call p latex).1 = .ok a) latexes results
  | [], results => by
    simp only [subIntensityLoop, Except.ok.injEq, List.forall₂_nil_left_iff]
    exact eq_comm
  | latex :: rest, results => by
    have ih := C126_loop call hp rest
    have hr := fun a => C126_restores (latex := latex) call hp (a := a)
    unfold subIntensityLoop
    cases h : computeSubIntensity call p latex with
    | mk o p' =>
      cases o with
      | error e =>
        simp only [reduceCtorEq, false_iff]
        rintro (_ | ⟨h1, -⟩)
        rw [h] at h1
        cases h1
      | ok a =>
        have hp' : p' = p := by
          have := hr a (by rw [h])
          rwa [h] at this
        subst hp'
        cases h' : subIntensityLoop call p' rest with
        | mk o' p'' =>
          rw [h'] at ih
          simp only [h']
          cases o' with
          | error e =>
            simp only [reduceCtorEq, false_iff] at ih ⊢
            rintro (_ | ⟨-, h2⟩)
            exact ih _ h2
          | ok l =>
            simp only [Except.ok.injEq] at ih ⊢
            constructor
            · rintro rfl
              exact .cons (by rw [h]) ((ih l).1 rfl)
            · rintro (_ | ⟨h1, h2⟩)
              rw [h] at h1
              cases h1
              rw [(ih _).2 h2]

/-- C126: after such a loop the parameters are unchanged. -/
theorem C126_loop_restores {W A : Type} [Zero W] (call : PyDict String W → Py A) {p : PyDict String W}
    (hp : (PyDict.keys p).Nodup) : ∀ (latexes : List String) {results : List A},
    (subIntensityLoop call p latexes).1 = .ok results → (subIntensityLoop call p latexes).2 = p
  | [], _, _ => rfl
  | latex :: rest, results, h => by
    have ih := fun l => C126_loop_restores call hp rest (results := l)
    have hr := fun a => C126_restores (latex := latex) call hp (a := a)
    unfold subIntensityLoop at h ⊢
    cases h1 : computeSubIntensity call p latex with
    | mk o p' =>
      rw [h1] at h hr
      cases o with
      | error e => cases h
      | ok a =>
        have hp' : p' = p := hr a rfl
        subst hp'
        simp only at h ⊢
        cases h' : subIntensityLoop call p' rest with
        | mk o' p'' =>
          rw [h'] at h ih
          cases o' with
          | error e => cases h
          | ok l => exact ih l rfl

theorem infix_left {a b : String} : a.toList <:+: (a ++ b).toList := by
  rw [String.toList_append]
  exact (List.prefix_append _ _).isInfix

theorem infix_mid {a b c : String} : b.toList <:+: (a ++ b ++ c).toList := by
  rw [String.toList_append, String.toList_append]
  exact List.infix_append _ _ _

theorem coefficient_infix {R : String} {p q : Bool} : R.toList <:+: (coefficientName R p q).toList := by
  unfold coefficientName
  cases p <;> cases q
  · exact infix_mid
  · exact infix_mid
  · exact infix_mid
  · exact infix_mid

theorem base_infix {base : String} {res : Option String} {ix : List ℚ} :
    base.toList <:+: (couplingKey base res ix).toList :=
  (infix_left.trans infix_left).trans infix_left

theorem infix_key {base R : String} {ix : List ℚ} (h : latex.toList <:+: R.toList) :
    latex.toList <:+: (couplingKey base (some R) ix).toList := by
  refine (h.trans ?_).trans infix_mid
  cases ix with
  | nil => exact List.infix_rfl
  | cons a l => exact infix_left.trans infix_left

theorem infix_coefficient {R : String} {p q : Bool} {ix : List ℚ} (h : latex.toList <:+: R.toList) :
    latex.toList <:+: (couplingKey (coefficientName R p q) none ix).toList :=
  (h.trans coefficient_infix).trans base_infix

theorem script_key {base : String} {res : Option String} {ix : List ℚ} (h : "\\mathcal{H}".toList <:+: base.toList) :
    textIn "\\mathcal{H}" (couplingKey base res ix) = true :=
  decide_eq_true (h.trans base_infix)

theorem script_coupling (hel : Bool) (v : String) : "\\mathcal{H}".toList <:+: (couplingName hel v).toList := by
  have h1 : "\\mathcal{H}".toList <:+: "\\mathcal{H}^\\mathrm{LS,".toList := ⟨[], "^\\mathrm{LS,".toList, by decide⟩
  have h2 : "\\mathcal{H}".toList <:+: "\\mathcal{H}^\\mathrm{".toList := ⟨[], "^\\mathrm{".toList, by decide⟩
  unfold couplingName
  cases hel
  · exact (h1.trans infix_left).trans infix_left
  · exact (h2.trans infix_left).trans infix_left

theorem script_coefficient (R : String) (p q : Bool) : "\\mathcal{H}".toList <:+: (coefficientName R p q).toList := by
  have h1 : "\\mathcal{H}".toList <:+: "\\mathcal{H}^\\mathrm{LS,".toList := ⟨[], "^\\mathrm{LS,".toList, by decide⟩
  have h2 : "\\mathcal{H}".toList <:+: "\\mathcal{H}^\\mathrm{".toList := ⟨[], "^\\mathrm{".toList, by decide⟩
  have h3 : "\\mathcal{H}".toList <:+: "\\mathcal{H}^\\mathrm{LS,\\lambda,".toList :=
    ⟨[], "^\\mathrm{LS,\\lambda,".toList, by decide⟩
  have h4 : "\\mathcal{H}".toList <:+: "\\mathcal{H}^\\mathrm{\\lambda,LS,".toList :=
    ⟨[], "^\\mathrm{\\lambda,LS,".toList, by decide⟩
  unfold coefficientName
  cases p <;> cases q
  · exact (h1.trans infix_left).trans infix_left
  · exact (h4.trans infix_left).trans infix_left
  · exact (h3.trans infix_left).trans infix_left
  · exact (h2.trans infix_left).trans infix_left

theorem couplings_zeroed (ι : Interp) {p : PyDict String ℂ} (hp : (PyDict.keys p).Nodup) {c : Chain}
    (h : ¬ Mentions b c uc latex) (lR lk li lj : ℚ) :
    couplings (withCouplings ι (p.update (zeroParameters p latex))) b c uc lR lk li lj = 0 := by
  have key : ∀ t ∈ couplingTexts b c uc lR lk li lj, textIn latex t = false := fun t ht => by
    unfold textIn
    rw [decide_eq_false_iff_not]
    exact fun h' => h ⟨_, _, _, _, t, ht, h'⟩
  unfold couplings withCouplings
  unfold couplingTexts at key
  cases uc with
  | true =>
    simp only [if_true, List.mem_singleton, forall_eq] at key ⊢
    rw [get?_zeroParameters hp, if_pos ⟨script_key (script_coefficient _ _ _), key⟩]
    cases PyDict.get? p _ <;> rfl
  | false =>
    simp only [Bool.false_eq_true, if_false, List.mem_cons, List.not_mem_nil, or_false, forall_eq_or_imp, forall_eq] at key ⊢
    rw [get?_zeroParameters hp, if_pos ⟨script_key (script_coupling _ _), key.1⟩]
    cases PyDict.get? p _ <;> simp

theorem couplings_kept (ι : Interp) {p : PyDict String ℂ} (hp : (PyDict.keys p).Nodup) {c : Chain}
    (h : latex.toList <:+: c.resonance.toP.latex.toList) (lR lk li lj : ℚ) :
    couplings (withCouplings ι (p.update (zeroParameters p latex))) b c uc lR lk li lj =
      couplings (withCouplings ι p) b c uc lR lk li lj := by
  have key : ∀ t : String, latex.toList <:+: t.toList → ¬ (textIn "\\mathcal{H}" t = true ∧ textIn latex t = false) := by
    rintro t ht ⟨-, h'⟩
    unfold textIn at h'
    exact (decide_eq_false_iff_not.1 h') ht
  unfold couplings withCouplings
  cases uc with
  | true =>
    simp only [if_true]
    rw [get?_zeroParameters hp, if_neg (key _ (infix_coefficient h))]
  | false =>
    simp only [Bool.false_eq_true, if_false]
    rw [get?_zeroParameters hp, get?_zeroParameters hp, if_neg (key _ (infix_key h)), if_neg (key _ (infix_key h))]

/-- C126: the value for which the chains `keep` are shown: if the LaTeX is part of the LaTeX of the resonances of these
chains, and not in the text of a coupling of the others, it is that of the model for the decay with these chains only, with
the same values of the parameters. -/
theorem C126_value (keep : Chain → Bool) (hd : Standard b.decay)
    (hs : b'.decay.states = b.decay.states) (hc : b'.decay.chains = b.decay.chains.filter keep)
    (hp : b'.useProdHel = b.useProdHel) (hq : b'.useDecHel = b.useDecHel)
    (hdyn : Lineshapes b dyn) (hdyn' : Lineshapes b' dyn)
    (hfree : ∀ c ∈ b.decay.chains, HelicityFree (dyn c).expression)
    (hres : b.useProdHel = false → ∀ c ∈ b.decay.chains, c.resonance ≠ .state c.spectator)
    {r : ℤ} (hr : r = 1 ∨ r = 2 ∨ r = 3)
    (h : b.formulate (some r) cl uc = .ok m) (h' : b'.formulate (some r) cl' uc = .ok m')
    (ι : Interp) (η : Sym → ℚ) {p : PyDict String ℂ} (hn : (PyDict.keys p).Nodup)
    (hline : ∀ c ∈ b.decay.chains, ∀ p', (dyn c).expression.eval (withCouplings ι p') η =
      (dyn c).expression.eval (withCouplings ι p) η)
    (hkeep : ∀ c ∈ b.decay.chains, keep c = true → latex.toList <:+: c.resonance.toP.latex.toList)
    (hdrop : ∀ c ∈ b.decay.chains, keep c = false → ¬ Mentions b c uc latex) :
    (computeSubIntensity (fun p => .ok (m.fullExpression.eval (withCouplings ι p) η)) p latex).1 =
      .ok (m'.fullExpression.eval (withCouplings ι p) η) := by
  have hsub : ∀ c ∈ b'.decay.chains, c ∈ b.decay.chains ∧ keep c = true := by
    intro c h
    rwa [hc, List.mem_filter] at h
  unfold computeSubIntensity
  simp only [Except.ok.injEq]
  rw [C76_switch_off keep hd hs hc hp hq hdyn hdyn' hfree hres hr h h' _ ?_ η]
  · have := C77_scale (ι := withCouplings ι p) (ι' := withCouplings ι (p.update (zeroParameters p latex))) (η := η)
      (standard_filter hd hs hc) hdyn' (by rintro x ⟨⟩; exact hr) h' (fun c h => hfree c (hsub c h).1)
      (fun g c h => hres (hp.symm.trans g) c (hsub c h).1) ⟨rfl, rfl, rfl, rfl, rfl⟩ rfl
      (fun c h => (hline c (hsub c h).1 _).symm) 1 ?_
    · simpa using this
    · intro c h lR lk li lj
      have e : ∀ κ : Interp, couplings κ b' c uc lR lk li lj = couplings κ b c uc lR lk li lj := by
        intro κ
        unfold couplings
        rw [hp, hq]
      rw [e, e, couplings_kept ι hn (hkeep c (hsub c h).1 (hsub c h).2), one_mul]
  · intro c hc' hk lR lk li lj
    exact couplings_zeroed ι hn (hdrop c hc' hk) lR lk li lj

/-! ### Which couplings contain the LaTeX of a resonance -/

theorem infix_split {z : Char} {R a b : List Char} (hz : z ∉ R) (h : R <:+: a ++ z :: b) : R <:+: a ∨ R <:+: b := by
  obtain ⟨s, t, e⟩ := h
  rcases List.append_eq_append_iff.1 e with ⟨a', h1, h2⟩ | ⟨c, h1, h2⟩
  · exact .inl ⟨s, a', h1.symm⟩
  · cases c with
    | nil => exact .inl ⟨s, [], by simpa using h1⟩
    | cons y c =>
      simp only [List.cons_append, List.cons.injEq] at h2
      obtain ⟨rfl, h2⟩ := h2
      rcases List.append_eq_append_iff.1 h1 with ⟨a', h3, h4⟩ | ⟨d, h3, h4⟩
      · exact absurd (by rw [h4]; simp) hz
      · cases d with
        | nil => exact absurd (by rw [List.nil_append] at h4; rw [← h4]; simp) hz
        | cons w d =>
          simp only [List.cons_append, List.cons.injEq] at h4
          exact .inr ⟨d, t, by rw [h2, h4.2]⟩

theorem infix_join {R : List Char} (h0 : R ≠ []) (h1 : ',' ∉ R) (h2 : ' ' ∉ R) : ∀ l : List String,
    R <:+: (joinComma l).toList → ∃ x ∈ l, R <:+: x.toList
  | [], h => absurd (List.infix_nil.1 h) h0
  | [a], h => ⟨a, by simp, h⟩
  | a :: b :: l, h => by
    have e : (joinComma (a :: b :: l)).toList = a.toList ++ ',' :: ([] ++ ' ' :: (joinComma (b :: l)).toList) := by
      simp only [joinComma, String.toList_append, List.append_assoc]
      rfl
    rw [e] at h
    rcases infix_split h1 h with h | h
    · exact ⟨a, by simp, h⟩
    · rcases infix_split h2 h with h | h
      · exact absurd (List.infix_nil.1 h) h0
      · obtain ⟨x, hx, h⟩ := infix_join h0 h1 h2 (b :: l) h
        exact ⟨x, List.mem_cons_of_mem _ hx, h⟩

theorem ratStr_no {x : Char} (h1 : x.isDigit = false) (h2 : x ≠ '-') (h3 : x ≠ '/') (q : ℚ) :
    x ∉ (Serialization.ratStr q).toList := by
  unfold Serialization.ratStr
  have hn : ∀ n : ℕ, x ∉ (toString n).toList := fun n => int_name_no (i := n) h1 h2
  split
  · exact int_name_no h1 h2
  · simp only [String.toList_append, List.mem_append, not_or]
    exact ⟨⟨int_name_no h1 h2, by simpa using h3⟩, hn _⟩

/-- C126: couplings (without `use_coefficients`) contain the LaTeX exactly if that of their resonance does. -/
theorem C126_mentions (h : OrdinaryLatex latex) (c : Chain) :
    Mentions b c false latex ↔ latex.toList <:+: c.resonance.toP.latex.toList := by
  have h0 : latex.toList ≠ [] := by
    obtain ⟨x, hx, -⟩ := h.letter
    exact List.ne_nil_of_mem hx
  have key : ∀ hel, ∀ v ∈ ["production", "decay"], ∀ ix : List ℚ,
      latex.toList <:+: (couplingKey (couplingName hel v) (some c.resonance.toP.latex) ix).toList →
      latex.toList <:+: c.resonance.toP.latex.toList := by
    intro hel v hv ix hi
    have e : (couplingKey (couplingName hel v) (some c.resonance.toP.latex) ix).toList = (couplingName hel v).toList ++
        '[' :: ((joinComma (c.resonance.toP.latex :: ix.map Serialization.ratStr)).toList ++ ']' :: []) := by
      unfold couplingKey
      simp only [String.toList_append, List.append_assoc]
      rfl
    rw [e] at hi
    rcases infix_split (h.chars _ (by simp)) hi with hi | hi
    · exact absurd hi (h.names hel v hv)
    rcases infix_split (h.chars _ (by simp)) hi with hi | hi
    · obtain ⟨x, hx, hi⟩ := infix_join h0 (h.chars _ (by simp)) (h.chars _ (by simp)) _ hi
      rcases List.mem_cons.1 hx with rfl | hx
      · exact hi
      · obtain ⟨q, -, rfl⟩ := List.mem_map.1 hx
        obtain ⟨y, hy, h1, h2, h3⟩ := h.letter
        exact absurd (hi.subset hy) (ratStr_no h1 h2 h3 q)
    · exact absurd (List.infix_nil.1 hi) h0
  constructor
  · rintro ⟨lR, lk, li, lj, t, ht, hi⟩
    simp only [couplingTexts, Bool.false_eq_true, if_false, List.mem_cons, List.not_mem_nil, or_false] at ht
    rcases ht with rfl | rfl
    · exact key _ _ (by simp) _ hi
    · exact key _ _ (by simp) _ hi
  · intro hi
    exact ⟨0, 0, 0, 0, _, by simp only [couplingTexts, Bool.false_eq_true, if_false]; exact .head _, infix_key hi⟩

/-- C126: what is shown for the resonance with the LaTeX `latex` is the intensity of the model for the decay with all
resonances whose LaTeX contains `latex`: with that resonance, but also, for example, with `K^*_2` if `latex` is `K^*`. -/
theorem C126_contains (hl : OrdinaryLatex latex) (hd : Standard b.decay)
    (hs : b'.decay.states = b.decay.states)
    (hc : b'.decay.chains = b.decay.chains.filter fun c => latex.toList <:+: c.resonance.toP.latex.toList)
    (hp : b'.useProdHel = b.useProdHel) (hq : b'.useDecHel = b.useDecHel)
    (hdyn : Lineshapes b dyn) (hdyn' : Lineshapes b' dyn)
    (hfree : ∀ c ∈ b.decay.chains, HelicityFree (dyn c).expression)
    (hres : b.useProdHel = false → ∀ c ∈ b.decay.chains, c.resonance ≠ .state c.spectator)
    {r : ℤ} (hr : r = 1 ∨ r = 2 ∨ r = 3)
    (h : b.formulate (some r) cl false = .ok m) (h' : b'.formulate (some r) cl' false = .ok m')
    (ι : Interp) (η : Sym → ℚ) {p : PyDict String ℂ} (hn : (PyDict.keys p).Nodup)
    (hline : ∀ c ∈ b.decay.chains, ∀ p', (dyn c).expression.eval (withCouplings ι p') η =
      (dyn c).expression.eval (withCouplings ι p) η) :
    (computeSubIntensity (fun p => .ok (m.fullExpression.eval (withCouplings ι p) η)) p latex).1 =
      .ok (m'.fullExpression.eval (withCouplings ι p) η) :=
  C126_value _ hd hs hc hp hq hdyn hdyn' hfree hres hr h h' ι η hn hline (fun c _ h => by simpa using h)
    (fun c _ h => by rw [C126_mentions hl]; simpa using h)

/-- C126: it is the intensity of that resonance alone if its LaTeX is not part of the LaTeX of another one. -/
theorem C126_alone_partial (hl : OrdinaryLatex latex) (hd : Standard b.decay)
    (hother : ∀ c ∈ b.decay.chains, c.resonance.toP.latex ≠ latex →
      ¬ latex.toList <:+: c.resonance.toP.latex.toList)
    (hs : b'.decay.states = b.decay.states)
    (hc : b'.decay.chains = b.decay.chains.filter fun c => c.resonance.toP.latex = latex)
    (hp : b'.useProdHel = b.useProdHel) (hq : b'.useDecHel = b.useDecHel)
    (hdyn : Lineshapes b dyn) (hdyn' : Lineshapes b' dyn)
    (hfree : ∀ c ∈ b.decay.chains, HelicityFree (dyn c).expression)
    (hres : b.useProdHel = false → ∀ c ∈ b.decay.chains, c.resonance ≠ .state c.spectator)
    {r : ℤ} (hr : r = 1 ∨ r = 2 ∨ r = 3)
    (h : b.formulate (some r) cl false = .ok m) (h' : b'.formulate (some r) cl' false = .ok m')
    (ι : Interp) (η : Sym → ℚ) {p : PyDict String ℂ} (hn : (PyDict.keys p).Nodup)
    (hline : ∀ c ∈ b.decay.chains, ∀ p', (dyn c).expression.eval (withCouplings ι p') η =
      (dyn c).expression.eval (withCouplings ι p) η) :
    (computeSubIntensity (fun p => .ok (m.fullExpression.eval (withCouplings ι p) η)) p latex).1 =
      .ok (m'.fullExpression.eval (withCouplings ι p) η) := by
  refine C126_contains hl hd hs (hc.trans (List.filter_congr fun c hc => ?_)) hp hq hdyn hdyn' hfree hres hr h h' ι η hn hline
  by_cases e : c.resonance.toP.latex = latex
  · simp [e]
  · simp [e, hother c hc e]

/-! ### Coefficients -/

theorem infix_closing {L R : String} (hL : BalancedBraces L) (hR : BalancedBraces R)
    (h : L.toList <:+: R.toList ++ ['}']) : L.toList <:+: R.toList := by
  rcases List.infix_concat_iff.1 h with h | h
  · rcases List.suffix_concat_iff.1 h with h | ⟨s, h, u, hs⟩
    · rw [h]; exact List.nil_infix
    · have h1 := hR.opened u ⟨s, hs⟩
      have h2 := hR.closed
      have h3 := hL.closed
      rw [← hs, List.count_append, List.count_append] at h2
      rw [h, List.count_append, List.count_append] at h3
      simp at h3
      omega
  · exact h

theorem infix_opening {L R : String} {a : List Char} (hL : BalancedBraces L) (hR : BalancedBraces R)
    (hno : ¬ ("{" ++ R ++ "}").toList <:+: L.toList) (h : L.toList <:+: a ++ '{' :: (R.toList ++ ['}'])) :
    L.toList <:+: a ∨ L.toList <:+: R.toList := by
  obtain ⟨s, t, e⟩ := h
  rcases List.append_eq_append_iff.1 e with ⟨a', h1, h2⟩ | ⟨c, h1, h2⟩
  · exact .inl ⟨s, a', h1.symm⟩
  · cases c with
    | nil => exact .inl ⟨s, [], by simpa using h1⟩
    | cons y c =>
      simp only [List.cons_append, List.cons.injEq] at h2
      obtain ⟨rfl, h2⟩ := h2
      rcases List.append_eq_append_iff.1 h1 with ⟨a', h3, h4⟩ | ⟨d, h3, h4⟩
      · -- the brace is in `L`
        exfalso
        rcases List.prefix_concat_iff.1 (⟨t, h2.symm⟩ : c <+: R.toList ++ ['}']) with h5 | h5
        · refine hno ⟨a', [], ?_⟩
          rw [h4, h5]
          simp only [String.toList_append, List.append_assoc, List.append_nil]
          rfl
        · have k1 := hL.opened a' ⟨_, h4.symm⟩
          have k2 := hR.opened c h5
          have k3 := hL.closed
          rw [h4, List.count_append, List.count_append] at k3
          simp at k3
          omega
      · cases d with
        | nil =>
          exfalso
          rw [List.nil_append] at h4
          rcases List.prefix_concat_iff.1 (⟨t, h2.symm⟩ : c <+: R.toList ++ ['}']) with h5 | h5
          · refine hno ⟨[], [], ?_⟩
            rw [← h4, h5]
            simp only [String.toList_append, List.append_assoc, List.append_nil]
            rfl
          · have k2 := hR.opened c h5
            have k3 := hL.closed
            rw [← h4] at k3
            simp at k3
            omega
        | cons w d =>
          simp only [List.cons_append, List.cons.injEq] at h4
          exact .inr (infix_closing hL hR ⟨d, t, by rw [h2, h4.2]⟩)

theorem coefficient_ff (R : String) : (coefficientName R false false).toList =
    "\\mathcal{H}^\\mathrm{LS".toList ++ ',' :: (R.toList ++ ['}']) := by
  have h : "\\mathcal{H}^\\mathrm{LS,".toList = "\\mathcal{H}^\\mathrm{LS".toList ++ [','] := by decide
  show ("\\mathcal{H}^\\mathrm{LS," ++ R ++ "}").toList = _
  rw [String.toList_append, String.toList_append, h, List.append_assoc, List.append_assoc]
  rfl

theorem coefficient_ft (R : String) : (coefficientName R false true).toList =
    "\\mathcal{H}^\\mathrm{\\lambda,LS".toList ++ ',' :: (R.toList ++ ['}']) := by
  have h : "\\mathcal{H}^\\mathrm{\\lambda,LS,".toList = "\\mathcal{H}^\\mathrm{\\lambda,LS".toList ++ [','] := by decide
  show ("\\mathcal{H}^\\mathrm{\\lambda,LS," ++ R ++ "}").toList = _
  rw [String.toList_append, String.toList_append, h, List.append_assoc, List.append_assoc]
  rfl

theorem coefficient_tf (R : String) : (coefficientName R true false).toList =
    "\\mathcal{H}^\\mathrm{LS,\\lambda".toList ++ ',' :: (R.toList ++ ['}']) := by
  have h : "\\mathcal{H}^\\mathrm{LS,\\lambda,".toList = "\\mathcal{H}^\\mathrm{LS,\\lambda".toList ++ [','] := by decide
  show ("\\mathcal{H}^\\mathrm{LS,\\lambda," ++ R ++ "}").toList = _
  rw [String.toList_append, String.toList_append, h, List.append_assoc, List.append_assoc]
  rfl

theorem coefficient_tt (R : String) : (coefficientName R true true).toList =
    "\\mathcal{H}^\\mathrm".toList ++ '{' :: (R.toList ++ ['}']) := by
  have h : "\\mathcal{H}^\\mathrm{".toList = "\\mathcal{H}^\\mathrm".toList ++ ['{'] := by decide
  show ("\\mathcal{H}^\\mathrm{" ++ R ++ "}").toList = _
  rw [String.toList_append, String.toList_append, h, List.append_assoc, List.append_assoc]
  rfl

/-- C126: the same for coefficients, if braces are balanced and the text is not LaTeX that contains the LaTeX of the
resonance in braces (such as `\mathrm{K}` for the resonance `K`). -/
theorem C126_mentions_coefficients (h : OrdinaryCoefficient latex) (c : Chain)
    (hR : BalancedBraces c.resonance.toP.latex)
    (hno : ¬ ("{" ++ c.resonance.toP.latex ++ "}").toList <:+: latex.toList) :
    Mentions b c true latex ↔ latex.toList <:+: c.resonance.toP.latex.toList := by
  have h0 : latex.toList ≠ [] := by
    obtain ⟨x, hx, -⟩ := h.letter
    exact List.ne_nil_of_mem hx
  have hcomma : ∀ {a : List Char}, latex.toList <:+: a ++ ',' :: (c.resonance.toP.latex.toList ++ ['}']) →
      (∃ p q, a <:+: (coefficientName "" p q).toList) → latex.toList <:+: c.resonance.toP.latex.toList := by
    rintro a hi ⟨p, q, ha⟩
    rcases infix_split (h.chars _ (by simp)) hi with hi | hi
    · exact absurd (hi.trans ha) (h.names p q)
    · exact infix_closing h.braces hR hi
  have hname : ∀ p q, latex.toList <:+: (coefficientName c.resonance.toP.latex p q).toList →
      latex.toList <:+: c.resonance.toP.latex.toList := by
    intro p q hi
    cases p <;> cases q
    · exact hcomma (a := "\\mathcal{H}^\\mathrm{LS".toList) (by rw [coefficient_ff] at hi; exact hi)
        ⟨false, false, by rw [coefficient_ff]; exact (List.prefix_append _ _).isInfix⟩
    · exact hcomma (a := "\\mathcal{H}^\\mathrm{\\lambda,LS".toList) (by rw [coefficient_ft] at hi; exact hi)
        ⟨false, true, by rw [coefficient_ft]; exact (List.prefix_append _ _).isInfix⟩
    · exact hcomma (a := "\\mathcal{H}^\\mathrm{LS,\\lambda".toList) (by rw [coefficient_tf] at hi; exact hi)
        ⟨true, false, by rw [coefficient_tf]; exact (List.prefix_append _ _).isInfix⟩
    · rw [coefficient_tt] at hi
      rcases infix_opening h.braces hR hno hi with hi | hi
      · refine absurd (hi.trans ?_) (h.names true true)
        rw [coefficient_tt]
        exact (List.prefix_append _ _).isInfix
      · exact hi
  constructor
  · rintro ⟨lR, lk, li, lj, t, ht, hi⟩
    simp only [couplingTexts, if_true, List.mem_singleton] at ht
    subst ht
    have e : ∀ (base : String) (ix : List ℚ), (couplingKey base none ix).toList = base.toList ++
        '[' :: ((joinComma (ix.map Serialization.ratStr)).toList ++ ']' :: []) := by
      intro base ix
      unfold couplingKey
      simp only [String.toList_append, List.append_assoc, Option.toList_none, List.nil_append]
      rfl
    rw [e] at hi
    rcases infix_split (h.chars _ (by simp)) hi with hi | hi
    · exact hname _ _ hi
    rcases infix_split (h.chars _ (by simp)) hi with hi | hi
    · obtain ⟨x, hx, hi⟩ := infix_join h0 (h.chars _ (by simp)) (h.chars _ (by simp)) _ hi
      obtain ⟨q, -, rfl⟩ := List.mem_map.1 hx
      obtain ⟨y, hy, h1, h2, h3⟩ := h.letter
      exact absurd (hi.subset hy) (ratStr_no h1 h2 h3 q)
    · exact absurd (List.infix_nil.1 hi) h0
  · intro hi
    exact ⟨0, 0, 0, 0, _, by simp only [couplingTexts, if_true, List.mem_singleton]; rfl, infix_coefficient hi⟩

/-- C126: the sub-intensity of a model with coefficients. -/
theorem C126_contains_coefficients (hl : OrdinaryCoefficient latex)
    (hR : ∀ c ∈ b.decay.chains, BalancedBraces c.resonance.toP.latex)
    (hno : ∀ c ∈ b.decay.chains, ¬ ("{" ++ c.resonance.toP.latex ++ "}").toList <:+: latex.toList)
    (hd : Standard b.decay) (hs : b'.decay.states = b.decay.states)
    (hc : b'.decay.chains = b.decay.chains.filter fun c => latex.toList <:+: c.resonance.toP.latex.toList)
    (hp : b'.useProdHel = b.useProdHel) (hq : b'.useDecHel = b.useDecHel)
    (hdyn : Lineshapes b dyn) (hdyn' : Lineshapes b' dyn)
    (hfree : ∀ c ∈ b.decay.chains, HelicityFree (dyn c).expression)
    (hres : b.useProdHel = false → ∀ c ∈ b.decay.chains, c.resonance ≠ .state c.spectator)
    {r : ℤ} (hr : r = 1 ∨ r = 2 ∨ r = 3)
    (h : b.formulate (some r) cl true = .ok m) (h' : b'.formulate (some r) cl' true = .ok m')
    (ι : Interp) (η : Sym → ℚ) {p : PyDict String ℂ} (hn : (PyDict.keys p).Nodup)
    (hline : ∀ c ∈ b.decay.chains, ∀ p', (dyn c).expression.eval (withCouplings ι p') η =
      (dyn c).expression.eval (withCouplings ι p) η) :
    (computeSubIntensity (fun p => .ok (m.fullExpression.eval (withCouplings ι p) η)) p latex).1 =
      .ok (m'.fullExpression.eval (withCouplings ι p) η) :=
  C126_value _ hd hs hc hp hq hdyn hdyn' hfree hres hr h h' ι η hn hline (fun c _ h => by simpa using h)
    (fun c hc h => by rw [C126_mentions_coefficients hl c (hR c hc) (hno c hc)]; simpa using h)

/-- C126: the last hypothesis is needed: the coefficients of the resonance `K` contain the text `\mathrm{K}`, although the
LaTeX `K` does not. -/
theorem C126_braces_fail {c : Chain} (h : c.resonance.toP.latex = "K") (hp : b.useProdHel = true)
    (hq : b.useDecHel = true) : Mentions b c true "\\mathrm{K}" ∧ ¬ "\\mathrm{K}".toList <:+: c.resonance.toP.latex.toList := by
  constructor
  · refine ⟨0, 0, 0, 0, _, by simp only [couplingTexts, if_true, List.mem_singleton]; rfl, ?_⟩
    rw [h, hp, hq]
    refine List.IsInfix.trans ?_ base_infix
    rw [coefficient_tt]
    exact ⟨"\\mathcal{H}^".toList, [], by decide⟩
  · rw [h]
    decide +kernel

/-- The chain of `spChainK` with a further resonance, whose LaTeX begins with that of the first. -/
def spKstar2 : Node :=
  .isobar (.state (exState "D" 0 2 0))
    (.isobar (.particle ⟨"K*_2", "K^*_2", 1, some (-1), 7/5, 1/10⟩)
      (.leaf (.state (exState "pi" 0 (1/7) 2))) (.leaf (.state (exState "K" 0 (1/2) 3))) (some ⟨1, 0⟩))
    (.leaf (.state (exState "pi" 0 (1/7) 1))) (some ⟨1, 1⟩)

def spChainK2 : Chain :=
  ⟨spKstar2, exState "D" 0 2 0, .particle ⟨"K*_2", "K^*_2", 1, some (-1), 7/5, 1/10⟩,
    exState "pi" 0 (1/7) 2, exState "K" 0 (1/2) 3, exState "pi" 0 (1/7) 1, some ⟨1, 1⟩, some ⟨1, 0⟩⟩

def spTwoDecay : Decay := ⟨spStates, [spChainRho, spChainK, spChainK2]⟩

def spOneDecay : Decay := ⟨spStates, [spChainK]⟩

def spHel (d : Decay) : Builder := ⟨d, Configurator.init d, true, true, false⟩

theorem spTwoDecay_standard : Standard spTwoDecay := by
  refine ⟨⟨?_, ?_⟩, by decide, spDecay_standard.3, spDecay_standard.4, ?_⟩
  · have hf : (finalStateDict spStates).map Prod.snd =
        [exState "pi" 0 (1/7) 1, exState "pi" 0 (1/7) 2, exState "K" 0 (1/2) 3] := rfl
    have : checkChains (exState "D" 0 2 0) ((finalStateDict spStates).map Prod.snd) spTwoDecay.chains = .ok () := by
      rw [checkChains_ok, hf]
      intro c hc
      simp only [spTwoDecay, List.mem_cons, List.not_mem_nil, or_false] at hc
      rcases hc with rfl | rfl | rfl
      · refine ⟨rfl, fun s => ?_⟩
        simp only [spChainRho, List.mem_cons, List.not_mem_nil, or_false]
        tauto
      · refine ⟨rfl, fun s => ?_⟩
        simp only [spChainK, List.mem_cons, List.not_mem_nil, or_false]
      · refine ⟨rfl, fun s => ?_⟩
        simp only [spChainK2, List.mem_cons, List.not_mem_nil, or_false]
    have h0 : initialState spTwoDecay.states = .ok (exState "D" 0 2 0) := rfl
    unfold Decay.new
    rw [h0]
    simp only [bind, Except.bind]
    rw [show spTwoDecay.states = spStates from rfl, this]; rfl
  · intro c hc
    simp only [spTwoDecay, List.mem_cons, List.not_mem_nil, or_false] at hc
    rcases hc with rfl | rfl | rfl
    · exact (chainNew_shape _ _ _ _ _ _ _ spRho (.inl rfl)).trans rfl
    · exact (chainNew_shape _ _ _ _ _ _ _ spKstar (.inl rfl)).trans rfl
    · exact (chainNew_shape _ _ _ _ _ _ _ spKstar2 (.inl rfl)).trans rfl
  · intro c hc
    simp only [spTwoDecay, List.mem_cons, List.not_mem_nil, or_false] at hc
    rcases hc with rfl | rfl | rfl <;> exact ⟨2, by norm_num [spChainRho, spChainK, spChainK2, Obj.toP]⟩

theorem spOneDecay_chains :
    spOneDecay.chains = spTwoDecay.chains.filter fun c => c.resonance.toP.latex = "K^*" := by
  simp [spOneDecay, spTwoDecay, spChainRho, spChainK, spChainK2, Obj.toP]

theorem spOneDecay_standard : Standard spOneDecay :=
  standard_filter (d := spTwoDecay) (keep := fun c => c.resonance.toP.latex = "K^*") spTwoDecay_standard rfl
    spOneDecay_chains

theorem spHel_ok {d : Decay} (hd : Standard d) (cl uc : Bool) :
    ∃ m, (spHel d).formulate (some 1) cl uc = .ok m := by
  obtain ⟨P, hP, -⟩ := formulate_ok (b := spHel d) (reference := some 1) hd (unit_lineshapes d _ _ _) (ref := 1) rfl
    (by simp) cl uc (by
      rw [missing_iff (b := spHel d) hd]
      rintro ⟨-, c, hc, h⟩
      exact h ⟨fun g => by simp [spHel] at g, fun g => by simp [spHel] at g⟩)
  exact ⟨_, hP⟩

theorem ordinary_kstar : OrdinaryLatex "K^*" := by
  refine ⟨by decide, ⟨'K', by decide, by decide, by decide, by decide⟩, ?_⟩
  intro hel v hv
  simp only [List.mem_cons, List.not_mem_nil, or_false] at hv
  cases hel <;> rcases hv with rfl | rfl <;> decide +kernel

/-- Both couplings of the second resonance are one, those of the others zero. -/
def spCouplings : PyDict String ℂ :=
  [("\\mathcal{H}^\\mathrm{production}[\\rho, 0, 0]", 0), ("\\mathcal{H}^\\mathrm{decay}[\\rho, 0, 0]", 0),
    ("\\mathcal{H}^\\mathrm{production}[K^*, 0, 0]", 0), ("\\mathcal{H}^\\mathrm{decay}[K^*, 0, 0]", 0),
    ("\\mathcal{H}^\\mathrm{production}[K^*_2, 0, 0]", 1), ("\\mathcal{H}^\\mathrm{decay}[K^*_2, 0, 0]", 1)]

theorem spCouplings_nodup : (PyDict.keys spCouplings).Nodup := by decide

theorem sp_key (R : String) (v : String) :
    couplingKey (couplingName true v) (some R) [0, 0] =
      "\\mathcal{H}^\\mathrm{" ++ v ++ "}" ++ "[" ++ (R ++ ", " ++ ("0" ++ ", " ++ "0")) ++ "]" := by
  have : Serialization.ratStr 0 = "0" := by decide +kernel
  simp [couplingKey, couplingName, joinComma, this]

theorem sp_value {d : Decay} (hd : Standard d) (h0 : d.states = spStates) (h1 : ∀ c ∈ d.chains, c.resonance.toP.spin = 1)
    {cl : Bool} {m : AmplitudeModel} (h : (spHel d).formulate (some 1) cl false = .ok m) (p : PyDict String ℂ) :
    m.fullExpression.eval (withCouplings constInterp p) (fun _ => 0) = (‖(d.chains.map fun c =>
      couplings (withCouplings constInterp p) (spHel d) c false 0 0 0 0).sum‖ ^ 2 : ℝ) := by
  classical
  have hspin : ∀ i ∈ ([0, 1, 2, 3] : List ℤ), d.spin i = 0 := by
    intro i hi
    have := spDecay_spinless i hi
    unfold Decay.spin Decay.st at this ⊢
    rw [h0]; exact this
  rw [C78_spinless (b := spHel d) hd (unit_lineshapes _ _ _ _) (by rintro x ⟨⟩; simp) h (fun _ _ => exFree)
    (by simp [spHel]) hspin]
  refine (fun (x y : ℂ) (h : x = y) => (by rw [h] : ((‖x‖ ^ 2 : ℝ) : ℂ) = (‖y‖ ^ 2 : ℝ))) _ _ ?_
  rw [List.filter_eq_self.2]
  · refine congrArg List.sum (List.map_congr_left fun c _ => ?_)
    have o : (({} : DefExpr).expression).eval (withCouplings constInterp p) (fun _ => 0) = 1 := by
      show ((1 : ℚ) : ℂ) = 1
      norm_num
    have d1 : ∀ c l, decayFactor (withCouplings constInterp p) (spHel d) c l = 1 := fun _ _ => rfl
    have d2 : ∀ c x y, productionFactor (withCouplings constInterp p) (spHel d) c x y = 1 := fun _ _ _ => rfl
    have w : ∀ j m m' z, (withCouplings constInterp p).wig j m m' z = 1 := fun _ _ _ _ => rfl
    rw [o, d1, d2, w]
    ring
  · intro c hc
    have : IsInteger 1 := ⟨1, by norm_num⟩
    simp [h1 c hc, this]

/-- C126 does not hold in full: a decay with the resonances `K^*` and `K^*_2` (and `\rho`). With the couplings of `K^*`
zero, the intensity of `K^*` alone is zero, but the sub-intensity computed for `K^*` is one, because the text `K^*` is also
part of the couplings of `K^*_2`. -/
theorem C126_alone_fails : ∃ m m', (spHel spTwoDecay).formulate (some 1) true false = .ok m ∧
    (spHel spOneDecay).formulate (some 1) true false = .ok m' ∧
    spOneDecay.chains = (spTwoDecay.chains.filter fun c => c.resonance.toP.latex = "K^*") ∧
    m'.fullExpression.eval (withCouplings constInterp spCouplings) (fun _ => 0) = 0 ∧
    (computeSubIntensity (fun p => .ok (m.fullExpression.eval (withCouplings constInterp p) fun _ => 0)) spCouplings
      "K^*").1 = .ok 1 := by
  obtain ⟨m, hm⟩ := spHel_ok spTwoDecay_standard true false
  obtain ⟨m', hm'⟩ := spHel_ok spOneDecay_standard true false
  have hz : ∀ p : PyDict String ℂ, ∀ d, couplings (withCouplings constInterp p) (spHel d) spChainRho false 0 0 0 0 =
      (p.get? "\\mathcal{H}^\\mathrm{production}[\\rho, 0, 0]").getD 0 *
      (p.get? "\\mathcal{H}^\\mathrm{decay}[\\rho, 0, 0]").getD 0 := by
    intro p d
    show (p.get? (couplingKey (couplingName true "production") (some "\\rho") [0, 0])).getD 0 *
      (p.get? (couplingKey (couplingName true "decay") (some "\\rho") [0, 0])).getD 0 = _
    rw [sp_key, sp_key]; rfl
  have hk : ∀ p : PyDict String ℂ, ∀ d, couplings (withCouplings constInterp p) (spHel d) spChainK false 0 0 0 0 =
      (p.get? "\\mathcal{H}^\\mathrm{production}[K^*, 0, 0]").getD 0 *
      (p.get? "\\mathcal{H}^\\mathrm{decay}[K^*, 0, 0]").getD 0 := by
    intro p d
    show (p.get? (couplingKey (couplingName true "production") (some "K^*") [0, 0])).getD 0 *
      (p.get? (couplingKey (couplingName true "decay") (some "K^*") [0, 0])).getD 0 = _
    rw [sp_key, sp_key]; rfl
  have hk2 : ∀ p : PyDict String ℂ, ∀ d, couplings (withCouplings constInterp p) (spHel d) spChainK2 false 0 0 0 0 =
      (p.get? "\\mathcal{H}^\\mathrm{production}[K^*_2, 0, 0]").getD 0 *
      (p.get? "\\mathcal{H}^\\mathrm{decay}[K^*_2, 0, 0]").getD 0 := by
    intro p d
    show (p.get? (couplingKey (couplingName true "production") (some "K^*_2") [0, 0])).getD 0 *
      (p.get? (couplingKey (couplingName true "decay") (some "K^*_2") [0, 0])).getD 0 = _
    rw [sp_key, sp_key]; rfl
  refine ⟨m, m', hm, hm', spOneDecay_chains, ?_, ?_⟩
  · rw [sp_value spOneDecay_standard rfl (by simp [spOneDecay, spChainK, Obj.toP]) hm']
    simp only [spOneDecay, List.map_cons, List.map_nil, List.sum_cons, List.sum_nil, hk]
    simp [spCouplings, PyDict.get?_cons]
  · unfold computeSubIntensity
    simp only [Except.ok.injEq]
    rw [sp_value spTwoDecay_standard rfl (by simp [spTwoDecay, spChainRho, spChainK, spChainK2, Obj.toP]) hm]
    have hzero : ∀ k, (PyDict.get? spCouplings k).getD 0 = 0 →
        (PyDict.get? (spCouplings.update (zeroParameters spCouplings "K^*")) k).getD 0 = 0 := by
      intro k h
      rw [get?_zeroParameters spCouplings_nodup]
      split
      · cases PyDict.get? spCouplings k <;> rfl
      · exact h
    have hone : ∀ k, textIn "K^*" k = true →
        (PyDict.get? (spCouplings.update (zeroParameters spCouplings "K^*")) k) = PyDict.get? spCouplings k := by
      intro k h
      rw [get?_zeroParameters spCouplings_nodup, h]
      simp
    rw [show spTwoDecay.chains = [spChainRho, spChainK, spChainK2] from rfl, List.map_cons, List.map_cons, List.map_cons,
      List.map_nil, List.sum_cons, List.sum_cons, List.sum_cons, List.sum_nil, hz, hk, hk2]
    rw [hzero "\\mathcal{H}^\\mathrm{production}[\\rho, 0, 0]" (by simp [spCouplings, PyDict.get?_cons]),
      hzero "\\mathcal{H}^\\mathrm{production}[K^*, 0, 0]" (by simp [spCouplings, PyDict.get?_cons]),
      hone "\\mathcal{H}^\\mathrm{production}[K^*_2, 0, 0]" (by decide +kernel),
      hone "\\mathcal{H}^\\mathrm{decay}[K^*_2, 0, 0]" (by decide +kernel)]
    simp [spCouplings, PyDict.get?_cons]

/-! Concrete cases of the theorems. -/

/-- The call returns and the couplings are as before it. -/
example : (computeSubIntensity (fun p => .ok (p.map Prod.snd).sum) spCouplings "K^*").2 = spCouplings :=
  C126_restores (fun p => (.ok (p.map Prod.snd).sum : Py ℂ)) spCouplings_nodup rfl

/-- The call raises an exception (a data column is missing, say): the coupling of `K^*_2` is still zero after it. -/
example : PyDict.get? (computeSubIntensity (fun _ => (.error .keyError : Py ℂ)) spCouplings "\\rho").2
    "\\mathcal{H}^\\mathrm{decay}[K^*_2, 0, 0]" = some 0 := by
  rw [C126_exception (fun _ => (.error .keyError : Py ℂ)) spCouplings_nodup rfl,
    if_pos ⟨by decide +kernel, by decide +kernel⟩]
  simp [spCouplings, PyDict.get?_cons]

/-- `K^*` is in the couplings of `K^*` and `K^*_2`, not in those of `\rho`. -/
example : ¬ Mentions (spHel spTwoDecay) spChainRho false "K^*" ∧ Mentions (spHel spTwoDecay) spChainK false "K^*" ∧
    Mentions (spHel spTwoDecay) spChainK2 false "K^*" := by
  rw [C126_mentions ordinary_kstar, C126_mentions ordinary_kstar, C126_mentions ordinary_kstar]
  exact ⟨by decide +kernel, by decide +kernel, by decide +kernel⟩

/-- Decay with `\rho` and `K^*`: the sub-intensity of `K^*` is that of the decay with `K^*` only, for all couplings. -/
example (p : PyDict String ℂ) (hp : (PyDict.keys p).Nodup) :
    ∃ m m', (spHel spDecay).formulate (some 1) true false = .ok m ∧
      (spHel spOneDecay).formulate (some 1) true false = .ok m' ∧
      (computeSubIntensity (fun p => .ok (m.fullExpression.eval (withCouplings constInterp p) fun _ => 0)) p "K^*").1 =
        .ok (m'.fullExpression.eval (withCouplings constInterp p) fun _ => 0) := by
  obtain ⟨m, hm⟩ := spHel_ok spDecay_standard true false
  obtain ⟨m', hm'⟩ := spHel_ok spOneDecay_standard true false
  refine ⟨m, m', hm, hm', C126_alone_partial (b := spHel spDecay) (b' := spHel spOneDecay) (dyn := fun _ => {})
    ordinary_kstar spDecay_standard ?_ rfl ?_ rfl rfl (unit_lineshapes _ _ _ _)
    (unit_lineshapes _ _ _ _) (fun _ _ => exFree) (by simp [spHel]) (.inl rfl) hm hm' constInterp (fun _ => 0) hp
    fun _ _ _ => rfl⟩
  · intro c hc
    simp only [spHel, spDecay, List.mem_cons, List.not_mem_nil, or_false] at hc
    rcases hc with rfl | rfl
    · exact fun _ => by decide +kernel
    · exact fun h => absurd rfl h
  · simp [spHel, spOneDecay, spDecay, spChainRho, spChainK, Obj.toP]

theorem balanced_kstar : BalancedBraces "K^*" := ⟨by decide, by
  intro s hs
  have h : ∀ s ∈ "K^*".toList.inits, s.count '}' ≤ s.count '{' := by decide
  exact h s ((List.mem_inits _ _).2 hs)⟩

theorem balanced_rho : BalancedBraces "\\rho" := ⟨by decide, by
  intro s hs
  have h : ∀ s ∈ "\\rho".toList.inits, s.count '}' ≤ s.count '{' := by decide
  exact h s ((List.mem_inits _ _).2 hs)⟩

theorem coefficient_kstar : OrdinaryCoefficient "K^*" := by
  refine ⟨by decide, ⟨'K', by decide, by decide, by decide, by decide⟩, balanced_kstar, ?_⟩
  intro p q
  cases p <;> cases q <;> decide +kernel

/-- The same with coefficients. -/
example (p : PyDict String ℂ) (hp : (PyDict.keys p).Nodup) :
    ∃ m m', (spHel spDecay).formulate (some 1) true true = .ok m ∧
      (spHel spOneDecay).formulate (some 1) true true = .ok m' ∧
      (computeSubIntensity (fun p => .ok (m.fullExpression.eval (withCouplings constInterp p) fun _ => 0)) p "K^*").1 =
        .ok (m'.fullExpression.eval (withCouplings constInterp p) fun _ => 0) := by
  obtain ⟨m, hm⟩ := spHel_ok spDecay_standard true true
  obtain ⟨m', hm'⟩ := spHel_ok spOneDecay_standard true true
  have a : ¬ "K^*".toList <:+: spChainRho.resonance.toP.latex.toList := by decide +kernel
  have a' : "K^*".toList <:+: spChainK.resonance.toP.latex.toList := List.infix_rfl
  refine ⟨m, m', hm, hm', C126_contains_coefficients (b := spHel spDecay) (b' := spHel spOneDecay) (dyn := fun _ => {})
    coefficient_kstar ?_ ?_ spDecay_standard rfl ?_ rfl rfl (unit_lineshapes _ _ _ _)
    (unit_lineshapes _ _ _ _) (fun _ _ => exFree) (by simp [spHel]) (.inl rfl) hm hm' constInterp (fun _ => 0) hp
    fun _ _ _ => rfl⟩
  · intro c hc
    simp only [spHel, spDecay, List.mem_cons, List.not_mem_nil, or_false] at hc
    rcases hc with rfl | rfl
    · exact balanced_rho
    · exact balanced_kstar
  · intro c hc
    simp only [spHel, spDecay, List.mem_cons, List.not_mem_nil, or_false] at hc
    rcases hc with rfl | rfl <;> decide +kernel
  · rw [show (spHel spDecay).decay.chains = [spChainRho, spChainK] from rfl, List.filter_cons, List.filter_cons,
      List.filter_nil, if_neg (by rw [decide_eq_true_iff]; exact a), if_pos (decide_eq_true a')]
    rfl

/-- A loop over two resonances. -/
example (call : PyDict String ℂ → ℂ) : ∃ x y,
    (subIntensityLoop (fun p => .ok (call p)) spCouplings ["K^*", "\\rho"]).1 = .ok [x, y] ∧
    (computeSubIntensity (fun p => .ok (call p)) spCouplings "\\rho").1 = .ok y ∧
    (subIntensityLoop (fun p => .ok (call p)) spCouplings ["K^*", "\\rho"]).2 = spCouplings := by
  have h := (C126_loop (fun p => (.ok (call p) : Py ℂ)) spCouplings_nodup ["K^*", "\\rho"] _).2
    (.cons rfl (.cons rfl .nil))
  exact ⟨_, _, h, rfl, C126_loop_restores _ spCouplings_nodup _ h⟩

end Verif.ThreeBody
