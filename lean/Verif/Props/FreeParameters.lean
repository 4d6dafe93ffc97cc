import Verif.Proofs.FreeParameters
import Verif.Props.DalitzGrid
import Verif.Props.SubIntensities

/-! Property C130: the numerical intensity function of the notebooks, with free and fixed parameters. -/
namespace Verif.ThreeBody
open Verif Verif.Spec

variable {b : Builder} {dyn : Chain → DefExpr} {reference : Option ℤ} {cl uc : Bool} {m : AmplitudeModel}

theorem mem_keys_free {k : Key} : k ∈ PyDict.keys (freeParameters m) ↔ k ∈ PyDict.keys m.parameterDefaults ∧ isFree k = true := by
  simp only [freeParameters, PyDict.keys, List.mem_map, List.mem_filter]
  constructor
  · rintro ⟨x, ⟨h1, h2⟩, rfl⟩
    exact ⟨⟨x, h1, rfl⟩, h2⟩
  · rintro ⟨⟨x, h1, rfl⟩, h2⟩
    exact ⟨x, ⟨h1, h2⟩, rfl⟩

theorem mem_keys_fixed {k : Key} :
    k ∈ PyDict.keys (fixedParameters m) ↔ k ∈ PyDict.keys m.parameterDefaults ∧ k ∉ PyDict.keys (freeParameters m) := by
  simp only [fixedParameters, PyDict.keys, List.mem_map, List.mem_filter, decide_eq_true_eq]
  constructor
  · rintro ⟨x, ⟨h1, h2⟩, rfl⟩
    exact ⟨⟨x, h1, rfl⟩, h2⟩
  · rintro ⟨⟨x, h1, rfl⟩, h2⟩
    exact ⟨x, ⟨h1, h2⟩, rfl⟩

/-- C130: every parameter is either free or fixed, with its default value. -/
theorem C130_split (k : Key) :
    (k ∈ PyDict.keys m.parameterDefaults ↔ k ∈ PyDict.keys (freeParameters m) ∨ k ∈ PyDict.keys (fixedParameters m)) ∧
    ¬ (k ∈ PyDict.keys (freeParameters m) ∧ k ∈ PyDict.keys (fixedParameters m)) ∧
    (∀ v, PyDict.get? m.parameterDefaults k = some v ↔
      PyDict.get? (freeParameters m) k = some v ∨ PyDict.get? (fixedParameters m) k = some v) := by
  have hget : ∀ (d : PyDict Key Val) (p : Key → Bool), PyDict.get? (d.filter fun x => p x.1) k =
      if p k then PyDict.get? d k else none := by
    intro d p
    induction d with
    | nil => cases p k <;> rfl
    | cons x d ih =>
      rw [List.filter_cons]
      split
      · rw [PyDict.get?_cons, PyDict.get?_cons, ih]
        rename_i hx
        split
        · rename_i e; subst e; rw [if_pos hx]
        · rfl
      · rw [ih, PyDict.get?_cons]
        rename_i hx
        split
        · rename_i hk
          rw [if_neg]
          intro e; subst e; exact hx hk
        · rfl
  have h1 : PyDict.get? (freeParameters m) k = if isFree k then PyDict.get? m.parameterDefaults k else none := hget _ isFree
  have h2 : PyDict.get? (fixedParameters m) k =
      if k ∉ PyDict.keys (freeParameters m) then PyDict.get? m.parameterDefaults k else none := by
    have := hget m.parameterDefaults fun k => decide (k ∉ PyDict.keys (freeParameters m))
    simp only [decide_eq_true_eq] at this
    exact this
  refine ⟨?_, ?_, fun v => ?_⟩
  · rw [mem_keys_fixed]
    by_cases hk : k ∈ PyDict.keys (freeParameters m)
    · simp [hk, (mem_keys_free.1 hk).1]
    · simp [hk]
  · rw [mem_keys_fixed]
    exact fun h => h.2.2 h.1
  · rw [h1, h2]
    by_cases hk : k ∈ PyDict.keys (freeParameters m)
    · simp [hk, (mem_keys_free.1 hk).2]
    · rw [if_pos hk]
      by_cases hf : isFree k = true
      · simp [hf]
      · simp [hf]

theorem coupling_free {b : Builder} {c : Chain} {lR lk li lj : ℚ} {x : Indexed} (hx : x ∈ couplingSymbols b c false lR lk li lj) :
    isFree (.idx x) = true := by
  have hprod : ∀ hel, "production".toList <:+: (couplingName hel "production").toList := by decide +kernel
  have hdec : ∀ hel, "decay".toList <:+: (couplingName hel "decay").toList := by decide +kernel
  unfold couplingSymbols at hx
  simp only [Bool.false_eq_true, if_false, List.mem_cons, List.not_mem_nil, or_false] at hx
  simp only [isFree, textIn, Bool.or_eq_true, decide_eq_true_eq]
  rcases hx with rfl | rfl
  · exact .inl ((hprod _).trans base_infix)
  · exact .inr ((hdec _).trans base_infix)

/-- C130: in a model with couplings, the free parameters are exactly the couplings, the fixed ones are the masses, widths and
other parameters of the lineshapes. -/
theorem C130_couplings (hd : Standard b.decay) (hdyn : Lineshapes b dyn) (hr : RefOk reference)
    (h : b.formulate reference cl false = .ok m)
    (ho : ∀ c ∈ b.decay.chains, OrdinaryLineshape (dyn c)) (k : Key) :
    (k ∈ PyDict.keys (freeParameters m) ↔ ∃ c ∈ b.decay.chains, ∃ l, Contributes b.decay c l ∧ ∃ i j n, n = c.spectator.index ∧
        (i, j, n) ∈ ([(1, 2, 3), (2, 3, 1), (3, 1, 2)] : List (ℤ × ℤ × ℤ)) ∧
        ∃ x ∈ couplingSymbols b c false (l 0 + l n) (l n) (l i) (l j), k = .idx x) ∧
    (k ∈ PyDict.keys (fixedParameters m) ↔ k ∈ PyDict.keys m.parameterDefaults ∧ ∃ s, k = .sym s) := by
  have hall : ∀ x, Key.idx x ∈ PyDict.keys m.parameterDefaults → isFree (.idx x) = true := by
    intro x hx
    obtain ⟨c, -, l, -, i, j, n, -, -, hx⟩ := (C111_parameters hd hdyn hr h (fun c hc => (ho c hc).indexed) x).1 hx
    exact coupling_free hx
  constructor
  · rw [mem_keys_free]
    constructor
    · rintro ⟨hk, hf⟩
      cases k with
      | sym s => cases hf
      | idx x =>
        obtain ⟨c, hc, l, hl, i, j, n, hn, hi, hx⟩ := (C111_parameters hd hdyn hr h (fun c hc => (ho c hc).indexed) x).1 hk
        exact ⟨c, hc, l, hl, i, j, n, hn, hi, x, hx, rfl⟩
    · rintro ⟨c, hc, l, hl, i, j, n, hn, hi, x, hx, rfl⟩
      exact ⟨(C111_parameters hd hdyn hr h (fun c hc => (ho c hc).indexed) x).2 ⟨c, hc, l, hl, i, j, n, hn, hi, hx⟩, coupling_free hx⟩
  · rw [mem_keys_fixed, mem_keys_free]
    constructor
    · rintro ⟨hk, hf⟩
      refine ⟨hk, ?_⟩
      cases k with
      | sym s => exact ⟨s, rfl⟩
      | idx x => exact absurd ⟨hk, hall x hk⟩ hf
    · rintro ⟨hk, s, rfl⟩
      exact ⟨hk, fun h => by cases h.2⟩

theorem get?_none_of_not_key {d : PyDict Key Val} {k : Key} (h : k ∉ PyDict.keys d) : PyDict.get? d k = none := by
  cases hg : PyDict.get? d k with
  | none => rfl
  | some v => exact absurd (PyDict.mem_keys_iff.2 ⟨v, hg⟩) h

theorem wigner_termBody {c : Chain} {e : Expr} {lam spin : ℤ → ℚ} {i j k : ℤ} {θ : Sym} {s : Sym}
    (h : s ∈ (termBody b c e lam spin i j k θ uc).wignerAngles) : s = θ ∨ s ∈ e.wignerAngles := by
  have h1 : (decCG c lam).wignerAngles = [] := rfl
  have h2 : (prodCG c lam k).wignerAngles = [] := by unfold prodCG; simp only; split <;> rfl
  have h3 : ∀ sc : Scaling, sc.product.wignerAngles = [] := by intro sc; cases sc <;> rfl
  unfold termBody at h
  simp only [mul_def] at h
  cases e1 : b.useDecHel <;> cases e2 : b.useProdHel <;>
    simpa [subAmpExpr, Expr.wignerAngles, h1, h2, h3, e1, e2, or_comm] using h

/-- The angles of the Wigner functions of a model are the angles with a definition. -/
theorem wigner_angles (hd : Standard b.decay) (hdyn : Lineshapes b dyn) (hr : RefOk reference)
    (h : b.formulate reference cl uc = .ok m) (hw : ∀ c ∈ b.decay.chains, (dyn c).expression.wignerAngles = []) :
    ∀ s ∈ m.fullExpression.wignerAngles, s ∈ PyDict.keys m.angleDefs := by
  obtain ⟨ref, P, -, hr', -, rfl, hP⟩ := formulate_inv hd hdyn hr h
  intro s hs
  unfold AmplitudeModel.fullExpression at hs
  rcases Expr.mem_wigner_xreplace _ _ s hs with hs | ⟨y, hy, v, hv, hs⟩
  · have hs := Expr.mem_syms_doit _ _ _ (Expr.wignerAngles_subset _ s hs)
    rw [intensity_eq] at hs
    simp only [Expr.syms] at hs
    have hs' : s ∈ (alignedExpr b ref fun i => .sym (lambdaSym i)).syms := by
      cases cl
      · simpa using hs
      · simpa [Expr.syms_cleanup] using hs
    simp only [alignedExpr, Expr.syms] at hs'
    rw [Expr.mem_syms_addAll] at hs'
    obtain ⟨e, he, hs'⟩ := hs'
    obtain ⟨k, hk, rfl⟩ := List.mem_map.1 he
    obtain ⟨i, hi, hj, rfl⟩ := syms_alignTerm hs'
    exact PyDict.mem_keys_iff.2 ⟨_, angle_get?_zeta hd hr' hi hk hj⟩
  · obtain ⟨k, hk, l, hl', rfl⟩ := intensity_indexeds hy
    rw [get?_map_snd, amp_get? ref P (subsystemIds_subset hd hk) hl'] at hv
    obtain rfl := (Option.some.inj hv)
    have hs := Expr.mem_wigner_doit _ _ _ hs
    unfold ampExpr at hs
    rw [Expr.mem_wigner_addAll] at hs
    obtain ⟨e, he, hs⟩ := hs
    obtain ⟨c, hc, rfl⟩ := List.mem_map.1 he
    have hk' := subsystemIds_subset hd hk
    rcases wigner_termBody hs with rfl | hs
    · exact PyDict.mem_keys_iff.2 ⟨_, angle_get?_theta hd hk' hl'⟩
    · rw [hw c (List.mem_filter.1 hc).1] at hs
      cases hs

/-- No parameter is an angle, if the parameters of the lineshapes are not declared real. -/
theorem parameter_not_angle (hd : Standard b.decay) (hdyn : Lineshapes b dyn) (hr : RefOk reference)
    (h : b.formulate reference cl uc = .ok m)
    (hreal : ∀ c ∈ b.decay.chains, ∀ s, Key.sym s ∈ PyDict.keys (dyn c).parameters → s.asm ≠ .real) :
    ∀ s ∈ PyDict.keys m.angleDefs, Key.sym s ∉ PyDict.keys m.parameterDefaults := by
  intro s hs hk
  have hs' := (plotReady hd hdyn hr h).keys s hs
  obtain ⟨ref, P, -, hr', -, rfl, hP⟩ := formulate_inv hd hdyn hr h
  change Key.sym s ∈ PyDict.keys (P.update (massParams (massDict b.decay))) at hk
  rw [PyDict.mem_keys_update] at hk
  rcases hk with hk | hk
  · obtain ⟨v, hv⟩ := PyDict.mem_keys_iff.1 hk
    rw [hP] at hv
    have := PyDict.mem_ofItems (PyDict.mem_of_get? hv)
    rw [List.mem_flatMap] at this
    obtain ⟨y, hy, hx⟩ := this
    unfold ampItems chainItems lambdaRItems at hx
    rw [List.mem_flatMap] at hx
    obtain ⟨c, hc, hx⟩ := hx
    rcases List.mem_append.1 hx with hx | hx
    · exact hreal c (List.mem_filter.1 hc).1 s (List.mem_map.2 ⟨_, hx, rfl⟩) hs'
    · rw [List.mem_flatMap] at hx
      obtain ⟨lR, -, hx⟩ := hx
      have hno : ∀ sc : Scaling, (Key.sym s, v) ∉ sc.defaults := by
        intro sc
        cases sc <;> simp [Scaling.defaults]
      exact hno _ hx
  · have hno : ∀ k ∈ PyDict.keys (massParams (massDict b.decay)), ∀ t, k = Key.sym t → t.asm = .nonneg := by
      intro k hk t e
      simp only [massParams, massDict, PyDict.keys, List.map_cons, List.map_nil, List.mem_cons, List.not_mem_nil, or_false] at hk
      rcases hk with rfl | rfl | rfl | rfl <;> (cases e; rfl)
    rw [hno _ hk s rfl] at hs'
    cases hs'

/-- C130: the value of the function is the value of the model when the fixed parameters have their default values and all else is
as in the arguments of the function. -/
theorem C130_value (hd : Standard b.decay) (hdyn : Lineshapes b dyn) (hr : RefOk reference)
    (h : b.formulate reference cl false = .ok m)
    (ho : ∀ c ∈ b.decay.chains, OrdinaryLineshape (dyn c)) (ι : Interp) (η : Sym → ℚ) :
    (intensityExpression m).eval ι η = m.fullExpression.eval
      { ι with sym := fun s => ((PyDict.get? m.parameterDefaults (.sym s)).map Val.toC).getD (ι.sym s) } η := by
  have hget : ∀ s, PyDict.get? (fixedParameters m) (.sym s) = PyDict.get? m.parameterDefaults (.sym s) := by
    intro s
    have hf : PyDict.get? (freeParameters m) (.sym s) = none :=
      get?_none_of_not_key fun hk => by cases (mem_keys_free.1 hk).2
    cases hg : PyDict.get? m.parameterDefaults (.sym s) with
    | none =>
      refine get?_none_of_not_key fun hk => ?_
      obtain ⟨v, hv⟩ := PyDict.mem_keys_iff.1 (mem_keys_fixed.1 hk).1
      rw [hg] at hv; cases hv
    | some v =>
      rcases ((C130_split (.sym s)).2.2 v).1 hg with h | h
      · rw [hf] at h; cases h
      · exact h
  refine Expr.eval_insertValues (ι := ι) (ι' := { ι with
    sym := fun s => ((PyDict.get? m.parameterDefaults (.sym s)).map Val.toC).getD (ι.sym s) }) (η := η)
    ⟨rfl, rfl, rfl, rfl, rfl⟩ _ (Expr.flat_full m) ?_ ?_ ?_
  · intro s _
    rw [hget]
  · intro x _
    have : PyDict.get? (fixedParameters m) (.idx x) = none := by
      refine get?_none_of_not_key fun hk => ?_
      obtain ⟨-, s, hs⟩ := ((C130_couplings hd hdyn hr h ho _).2).1 hk
      cases hs
    rw [this]
    rfl
  · intro s hs
    rw [hget]
    exact get?_none_of_not_key (parameter_not_angle hd hdyn hr h (fun c hc => (ho c hc).real) s
      (wigner_angles hd hdyn hr h (fun c hc => (ho c hc).wigner) s hs))

/-- C130: the arguments of the function: angles and Mandelstam variables, which the grid of C129 provides, and the free
parameters. No mass, no parameter of a lineshape and no helicity is left. -/
theorem C130_symbols (hd : Standard b.decay) (hdyn : Lineshapes b dyn) (hr : RefOk reference)
    (h : b.formulate reference cl uc = .ok m) (hl : ∀ c ∈ b.decay.chains, ClosedLineshape (dyn c))
    (ho : ∀ c ∈ b.decay.chains, OrdinaryLineshape (dyn c)) :
    (∀ s ∈ (intensityExpression m).syms, s ∈ PyDict.keys m.angleDefs ∨
      s ∈ [⟨"sigma1", .nonneg⟩, ⟨"sigma2", .nonneg⟩, ⟨"sigma3", .nonneg⟩]) ∧
    ∀ x ∈ (intensityExpression m).indexeds, Key.idx x ∈ PyDict.keys (freeParameters m) := by
  have hc := C72_closed hd hdyn hr h hl
  have hinv : PyDict.keys m.invariants = [⟨"sigma1", .nonneg⟩, ⟨"sigma2", .nonneg⟩, ⟨"sigma3", .nonneg⟩] := by
    rw [(plotReady hd hdyn hr h).invariants]; rfl
  have hfix : ∀ {k : Key}, PyDict.get? (fixedParameters m) k = none → k ∉ PyDict.keys (fixedParameters m) := by
    intro k hk hm
    obtain ⟨v, hv⟩ := PyDict.mem_keys_iff.1 hm
    rw [hk] at hv; cases hv
  constructor
  · intro s hs
    obtain ⟨h1, h2⟩ := (Expr.syms_insertValues _ (fun s hs => get?_none_of_not_key fun hk =>
      parameter_not_angle hd hdyn hr h (fun c hc => (ho c hc).real) s
      (wigner_angles hd hdyn hr h (fun c hc => (ho c hc).wigner) s hs) (mem_keys_fixed.1 hk).1) s).1 hs
    rcases hc.symbols s h1 with h' | h' | h'
    · exact .inl h'
    · exact .inr (hinv ▸ h')
    · exact absurd (mem_keys_fixed.2 ⟨h', fun hk => by cases (mem_keys_free.1 hk).2⟩) (hfix h2)
  · intro x hx
    obtain ⟨h1, h2⟩ := (Expr.indexeds_insertValues _ x).1 hx
    have h3 := hc.indexed x h1
    by_contra hk
    exact hfix h2 (mem_keys_fixed.2 ⟨h3, hk⟩)

/-- C130: with coefficients there are no free parameters, because the names of coefficients contain neither `production` nor
`decay`. -/
theorem C130_coefficients (hd : Standard b.decay) (hdyn : Lineshapes b dyn) (hr : RefOk reference)
    (h : b.formulate reference cl true = .ok m) (ho : ∀ c ∈ b.decay.chains, OrdinaryLineshape (dyn c))
    (hR : ∀ c ∈ b.decay.chains, BalancedBraces c.resonance.toP.latex ∧
      ¬ "production".toList <:+: c.resonance.toP.latex.toList ∧ ¬ "decay".toList <:+: c.resonance.toP.latex.toList) :
    freeParameters m = [] ∧ fixedParameters m = m.parameterDefaults := by
  have hdecay : OrdinaryCoefficient "decay" := by
    refine ⟨by decide, ⟨'d', by decide, by decide, by decide, by decide⟩, ⟨by decide, ?_⟩, ?_⟩
    · intro s hs
      have h : ∀ s ∈ "decay".toList.inits, s.count '}' ≤ s.count '{' := by decide
      exact h s ((List.mem_inits _ _).2 hs)
    · intro p q
      cases p <;> cases q <;> decide +kernel
  have hbrace : ∀ {R w : String}, '{' ∉ w.toList → ¬ ("{" ++ R ++ "}").toList <:+: w.toList := by
    intro R w hw hi
    refine hw (hi.subset ?_)
    rw [String.toList_append, String.toList_append]
    simp
  have hnot : ∀ x ∈ m.parameterDefaults, isFree x.1 = false := by
    intro x hx
    cases hk : x.1 with
    | sym s => rfl
    | idx y =>
      have hy : Key.idx y ∈ PyDict.keys m.parameterDefaults := List.mem_map.2 ⟨x, hx, hk⟩
      obtain ⟨c, hc, l, -, i, j, n, -, -, hy⟩ := (C111_parameters hd hdyn hr h (fun c hc => (ho c hc).indexed) y).1 hy
      unfold couplingSymbols at hy
      simp only [if_true, List.mem_singleton] at hy
      have hmen : ∀ w, w.toList <:+: (indexedText y).toList → Mentions b c true w := by
        intro w hw
        refine ⟨l 0 + l n, l n, l i, l j, indexedText y, ?_, hw⟩
        unfold couplingTexts
        simp only [if_true, List.mem_singleton]
        rw [hy]
        unfold indexedText
        simp only [List.map_map]
        congr 1
        exact List.map_id' _
      obtain ⟨h1, h2, h3⟩ := hR c hc
      simp only [isFree, textIn, Bool.or_eq_false_iff, decide_eq_false_iff_not]
      exact ⟨fun hi => h2 ((C126_mentions_coefficients coefficient_production c h1 (hbrace (by decide))).1 (hmen _ hi)),
        fun hi => h3 ((C126_mentions_coefficients hdecay c h1 (hbrace (by decide))).1 (hmen _ hi))⟩
  have hfree : freeParameters m = [] := List.filter_eq_nil_iff.2 fun x hx => by simp [hnot x hx]
  refine ⟨hfree, ?_⟩
  unfold fixedParameters
  rw [hfree]
  exact List.filter_eq_self.2 fun x _ => by simp [PyDict.keys]

/-- C130: lineshapes of `BreitWignerBuilder` are ordinary, for all its options. -/
theorem C130_breit_wigner {bw : BreitWignerBuilder} {c : Chain} {R : Particle} {first : Bool} {e : DefExpr}
    (hc : PlainChain c R first) (hid : NumberedFinalState c) (he : bw.call c = .ok e) : OrdinaryLineshape e := by
  obtain ⟨-, hexpr, hpar⟩ := call_ok_inv hc hid he
  have hkey : ∀ k ∈ PyDict.keys e.parameters, ∃ x ∈ lineshapeDefaults bw.decayFormFactor bw.productionFormFactor R c,
      k = .sym x.1 := by
    intro k hk
    obtain ⟨v, hv⟩ := PyDict.mem_keys_iff.1 hk
    rw [hpar] at hv
    obtain ⟨x, hx, h1, -⟩ := (mem_items bw c R first k v).1 (List.mem_reverse.1 (PyDict.mem_of_get? hv))
    exact ⟨x, hx, h1⟩
  refine ⟨?_, fun x hx => ?_, fun s hs => ?_⟩
  · rw [hexpr]
    unfold builtExpr bareExpr
    rcases bw.energyDependentWidth with _ | _ <;> rcases bw.decayFormFactor with _ | _ <;>
      rcases bw.productionFormFactor with _ | _ <;> rfl
  · obtain ⟨y, -, h⟩ := hkey _ hx
    cases h
  · obtain ⟨y, hy, h⟩ := hkey _ hs
    cases h
    have : ∀ d p, ∀ x ∈ lineshapeDefaults d p R c, x.1.asm = .nonneg := by
      intro d p x hx
      unfold lineshapeDefaults at hx
      cases d <;> cases p <;>
        simp only [if_true, if_false, Bool.false_eq_true, List.append_nil, List.cons_append, List.nil_append, List.mem_cons,
          List.not_mem_nil, or_false] at hx <;>
        casesm* _ ∨ _ <;> subst_vars <;> rfl
    rw [this _ _ y hy]
    decide

theorem ordinary_unit : OrdinaryLineshape {} := ⟨rfl, fun _ h => (by cases h), fun _ h => (by cases h)⟩

/-! ### Example -/

/-- Lineshapes of the example decay with a Breit-Wigner function for the `K*`. -/
theorem exBreitWigner_lineshapes : ∃ dyn, Lineshapes exBreitWigner dyn ∧ (∀ c ∈ exDecay.chains, OrdinaryLineshape (dyn c)) ∧
    (∀ c ∈ exDecay.chains, ClosedLineshape (dyn c)) ∧ Key.sym ⟨"\\Gamma_{K^*}", .nonneg⟩ ∈ PyDict.keys (dyn exChainK).parameters := by
  obtain ⟨e, he⟩ := exK_lineshape
  have hne : exChainL ≠ exChainK := fun h => by
    have := congrArg (fun c : Chain => c.spectator.index) h
    simp [exChainL, exChainK, exState] at this
  refine ⟨fun c => if c = exChainK then e else {}, ?_, ?_, ?_, ?_⟩
  · intro c hc
    simp only [exBreitWigner, exBuilder, exDecay, List.mem_cons, List.not_mem_nil, or_false] at hc
    rcases hc with rfl | rfl
    · refine ⟨({} : BreitWignerBuilder).call, ?_, by simp only [if_true]; exact he⟩
      change Except.ok ((PyDict.get? [(exChainK, ({} : BreitWignerBuilder).call)] exChainK).getD unitDynamics) = _
      rw [PyDict.get?_cons, if_pos rfl]; rfl
    · refine ⟨unitDynamics, ?_, by simp only [if_neg hne]; rfl⟩
      change Except.ok ((PyDict.get? [(exChainK, ({} : BreitWignerBuilder).call)] exChainL).getD unitDynamics) = _
      rw [PyDict.get?_cons, if_neg (Ne.symm hne)]; rfl
  · intro c _
    dsimp only
    split
    · exact C130_breit_wigner exK_plain exK_numbered he
    · exact ordinary_unit
  · intro c _
    dsimp only
    split
    · exact C72_breit_wigner exK_plain exK_numbered he
    · exact closed_unit
  · simp only [if_true]
    rw [PyDict.mem_keys_iff, (call_ok_inv exK_plain exK_numbered he).2.2, ← PyDict.mem_keys_iff]
    simp only [PyDict.keys, List.map_reverse, List.mem_reverse, List.mem_map]
    exact ⟨_, (mem_items {} exChainK ⟨"K*", "K^*", 1, some (-1), 9/10, 1/20⟩ true
      (.sym (widthOfResonance ⟨"K*", "K^*", 1, some (-1), 9/10, 1/20⟩)) (.real (1/20))).2
      ⟨(widthOfResonance ⟨"K*", "K^*", 1, some (-1), 9/10, 1/20⟩, 1/20),
        by simp only [lineshapeDefaults]; exact List.mem_append_left _ (List.mem_append_left _ (by simp)), rfl, rfl⟩, rfl⟩

/-- The example decay with a Breit-Wigner function, with couplings and with coefficients. -/
example : ∃ dyn, Lineshapes exBreitWigner dyn ∧ (∃ m, exBreitWigner.formulate (some 1) true false = .ok m ∧
      (∃ x, Key.idx x ∈ PyDict.keys (freeParameters m)) ∧ Key.sym ⟨"m0", .nonneg⟩ ∈ PyDict.keys (fixedParameters m) ∧
      ∀ ι η, (intensityExpression m).eval ι η = m.fullExpression.eval
        { ι with sym := fun s => ((PyDict.get? m.parameterDefaults (.sym s)).map Val.toC).getD (ι.sym s) } η) ∧
    ∃ m, exBreitWigner.formulate (some 1) true true = .ok m ∧ freeParameters m = [] := by
  obtain ⟨dyn, hl, ho, hc, -⟩ := exBreitWigner_lineshapes
  have hM : ¬ Missing exBreitWigner := by
    rw [missing_iff (b := exBreitWigner) exDecay_standard]
    rintro ⟨-, c, hc, h⟩
    exact h (exBuilder_ls true false false hc)
  have hro : RefOk (some 1) := by simp [RefOk]
  refine ⟨dyn, hl, ?_, ?_⟩
  · obtain ⟨P, hP, -⟩ := formulate_ok (b := exBreitWigner) (reference := some 1) exDecay_standard hl (ref := 1) rfl (by simp)
      true false hM
    refine ⟨_, hP, ?_, ?_, C130_value (b := exBreitWigner) exDecay_standard hl hro hP ho⟩
    · have s0 : exBreitWigner.decay.spin 0 = 1 / 2 := rfl
      have s1 : exBreitWigner.decay.spin 1 = 1 / 2 := rfl
      have s2 : exBreitWigner.decay.spin 2 = 0 := rfl
      have s3 : exBreitWigner.decay.spin 3 = 0 := rfl
      refine ⟨⟨"\\mathcal{H}^\\mathrm{production}", some "K^*", [.num 1, .num (1/2)]⟩,
        ((C130_couplings (b := exBreitWigner) exDecay_standard hl hro hP ho _).1).2 ⟨exChainK,
          by simp [exBreitWigner, exBuilder, exDecay], fun n => if n = 0 ∨ n = 1 then 1 / 2 else 0, ⟨?_, ?_⟩,
          2, 3, 1, rfl, by decide, _, ?_, rfl⟩⟩
      · intro n hn
        simp only [List.mem_cons, List.not_mem_nil, or_false] at hn
        rcases hn with rfl | rfl | rfl | rfl
        · rw [s0]; exact ⟨by norm_num, by norm_num, 0, by norm_num⟩
        · rw [s1]; exact ⟨by norm_num, by norm_num, 0, by norm_num⟩
        · rw [s2]; exact ⟨by norm_num, by norm_num, 0, by norm_num⟩
        · rw [s3]; exact ⟨by norm_num, by norm_num, 0, by norm_num⟩
      · have hr : exChainK.resonance.toP.spin = 1 := rfl
        have hk : exChainK.spectator.index = 1 := rfl
        rw [hr, hk]
        exact ⟨by norm_num, by norm_num, 0, by norm_num⟩
      · unfold couplingSymbols
        simp [exChainK, Obj.toP, couplingIndices, couplingName, exBreitWigner, exBuilder]
        norm_num
    · refine ((C130_couplings (b := exBreitWigner) exDecay_standard hl hro hP ho _).2).2 ⟨?_, _, rfl⟩
      change _ ∈ PyDict.keys (P.update (massParams (massDict exDecay)))
      rw [PyDict.mem_keys_update]
      right
      simp [massParams, massDict, PyDict.keys]
      decide
  · obtain ⟨P, hP, -⟩ := formulate_ok (b := exBreitWigner) (reference := some 1) exDecay_standard hl (ref := 1) rfl (by simp)
      true true hM
    refine ⟨_, hP, (C130_coefficients (b := exBreitWigner) exDecay_standard hl hro hP ho ?_).1⟩
    intro c hc
    simp only [exBreitWigner, exBuilder, exDecay, List.mem_cons, List.not_mem_nil, or_false] at hc
    rcases hc with rfl | rfl
    · exact ⟨balanced_kstar, by decide, by decide⟩
    · refine ⟨⟨by decide, ?_⟩, by decide, by decide⟩
      intro s hs
      have h : ∀ s ∈ "L^*".toList.inits, s.count '}' ≤ s.count '{' := by decide
      exact h s ((List.mem_inits _ _).2 hs)

end Verif.ThreeBody
