import Verif.Proofs.Closure
import Verif.Props.Reference
import Verif.Props.LineshapeBuilder

/-! Property C72: a formulated model leaves nothing undefined. -/
namespace Verif.ThreeBody
open Verif Verif.Spec Verif.Spin Verif.Angles

variable {b : Builder} {dyn : Chain → DefExpr} {reference : Option ℤ} {cl uc : Bool}
  {m : AmplitudeModel}

theorem theta_symbols {k : ℤ} (hk : k ∈ ([1, 2, 3] : List ℤ)) :
    ∀ s ∈ kinematicSymbols (thetaExpr k), s ∈ providedSymbols := by
  simp only [List.mem_cons, List.not_mem_nil, or_false] at hk
  rcases hk with rfl | rfl | rfl <;> decide +kernel

theorem zeta_symbols {i j k : ℤ} (hi : i ∈ ([0, 1, 2, 3] : List ℤ)) (hj : j ∈ ([1, 2, 3] : List ℤ))
    (hk : k ∈ ([1, 2, 3] : List ℤ)) :
    ∀ s ∈ kinematicSymbols (zetaExpr i j k), s ∈ providedSymbols := by
  simp only [List.mem_cons, List.not_mem_nil, or_false] at hi hj hk
  rcases hi with rfl | rfl | rfl | rfl <;> rcases hj with rfl | rfl | rfl <;>
    rcases hk with rfl | rfl | rfl <;> decide +kernel

theorem third_symbols {x : Sym × RExpr} (hx : x ∈ ([(⟨"sigma1", .nonneg⟩, thirdExpr 2 3),
      (⟨"sigma2", .nonneg⟩, thirdExpr 3 1), (⟨"sigma3", .nonneg⟩, thirdExpr 1 2)] :
        List (Sym × RExpr))) :
    ∀ s ∈ kinematicSymbols x.2, s ≠ x.1 ∧ s ∈ providedSymbols := by
  revert x hx
  decide +kernel

/-- The provided symbols are Mandelstam variables or masses with a default value. -/
theorem provided_defined (ref : ℤ) (P : PyDict Key Val) {s : Sym} (hs : s ∈ providedSymbols) :
    s ∈ PyDict.keys (result b dyn ref cl uc P).invariants ∨
    Key.sym s ∈ PyDict.keys (result b dyn ref cl uc P).parameterDefaults := by
  simp only [providedSymbols, List.mem_cons, List.not_mem_nil, or_false] at hs
  have hm : ∀ i ∈ ([0, 1, 2, 3] : List ℤ), Key.sym (massSym i) ∈
      PyDict.keys (result b dyn ref cl uc P).parameterDefaults := by
    intro i hi
    change _ ∈ PyDict.keys (P.update (massParams (massDict b.decay)))
    rw [PyDict.mem_keys_update]
    right
    simp only [List.mem_cons, List.not_mem_nil, or_false] at hi
    rcases hi with rfl | rfl | rfl | rfl <;> simp [massParams, massDict, PyDict.keys]
  have hk : PyDict.keys (result b dyn ref cl uc P).invariants =
    [⟨"sigma1", .nonneg⟩, ⟨"sigma2", .nonneg⟩, ⟨"sigma3", .nonneg⟩] := rfl
  rw [hk]
  rcases hs with rfl | rfl | rfl | rfl | rfl | rfl | rfl
  · exact .inr (hm 0 (by simp))
  · exact .inr (hm 1 (by simp))
  · exact .inr (hm 2 (by simp))
  · exact .inr (hm 3 (by simp))
  · simp
  · simp
  · simp

/-! ### Helicity symbols -/

theorem free_wigFactor {ref : ℤ} {j : ℚ} {m mp : Hel} {i k : ℤ} {s : Sym}
    (h : s ∈ freeHelicities (wigFactor ref j m mp i k)) : s ∈ helSymbols m ∨ s ∈ helSymbols mp := by
  unfold wigFactor at h
  split at h
  · simp [freeHelicities] at h
  · simpa [freeHelicities] using h

theorem free_alignTerm {ref : ℤ} {j : ℤ → ℚ} {k : ℤ} {s : Sym}
    (h : s ∈ freeHelicities (alignTerm ref j (fun i => .sym (lambdaSym i)) k)) :
    ∃ i ∈ ([0, 1, 2, 3] : List ℤ), s = lambdaPrime i ∨ s = lambdaSym i := by
  have hw : ∀ i ∈ ([0, 1, 2, 3] : List ℤ), ∀ m mp, ((m = Hel.sym (lambdaPrime i) ∧ mp = Hel.sym (lambdaSym i)) ∨
      (m = Hel.sym (lambdaSym i) ∧ mp = Hel.sym (lambdaPrime i))) →
      s ∈ freeHelicities (wigFactor ref (j i) m mp i k) →
      ∃ i ∈ ([0, 1, 2, 3] : List ℤ), s = lambdaPrime i ∨ s = lambdaSym i := by
    intro i hi m mp hm hs
    refine ⟨i, hi, ?_⟩
    rcases hm with ⟨rfl, rfl⟩ | ⟨rfl, rfl⟩
    · simpa [helSymbols] using free_wigFactor hs
    · exact (by simpa [helSymbols] using free_wigFactor hs : s = lambdaSym i ∨ s = lambdaPrime i).symm
  unfold alignTerm at h
  simp only [freeHelicities, List.mem_append] at h
  rcases h with (((h | h) | h) | h) | h
  · simp only [ampSym, List.flatMap_cons, List.flatMap_nil, helSymbols, List.mem_append,
      List.mem_singleton, List.append_nil] at h
    rcases h with h | h | h | h
    · exact ⟨0, by simp, .inl h⟩
    · exact ⟨1, by simp, .inl h⟩
    · exact ⟨2, by simp, .inl h⟩
    · exact ⟨3, by simp, .inl h⟩
  · exact hw 0 (by simp) _ _ (.inr ⟨rfl, rfl⟩) h
  · exact hw 1 (by simp) _ _ (.inl ⟨rfl, rfl⟩) h
  · exact hw 2 (by simp) _ _ (.inl ⟨rfl, rfl⟩) h
  · exact hw 3 (by simp) _ _ (.inl ⟨rfl, rfl⟩) h

theorem free_intensity {ref : ℤ} {P : PyDict Key Val} {s : Sym} :
    s ∉ freeHelicities ((result b dyn ref cl uc P).intensity.doit fun _ => none) := by
  intro h
  rw [intensity_eq] at h
  obtain ⟨a, ha, h⟩ := Expr.mem_free_psum h
  have hne := ranges_ne_of_combo ha
  simp only [Expr.doit, freeHelicities] at h
  have he : alignedExpr b ref (fun i => .sym (lambdaSym i)) =
      .psum (Expr.addAll (b.decay.subsystemIds.map
        (alignTerm ref (spins b.decay) fun i => .sym (lambdaSym i)))) (inner b.decay) := rfl
  have h' : ∃ a' ∈ combos (inner b.decay), s ∈ freeHelicities ((Expr.addAll (b.decay.subsystemIds.map
      (alignTerm ref (spins b.decay) fun i => .sym (lambdaSym i)))).doit
        fun u => (look a' u).or ((look a u).or none)) := by
    rw [he] at h
    cases cl with
    | true => rw [if_pos rfl] at h; exact Expr.mem_free_cleanup (inner_nodup _) hne h
    | false => rw [if_neg (by simp)] at h; exact Expr.mem_free_psum h
  obtain ⟨a', ha', h⟩ := h'
  obtain ⟨h1, h2⟩ := Expr.mem_free_doit _ _ _ h
  rw [Expr.mem_free_addAll] at h1
  obtain ⟨e, he, h1⟩ := h1
  obtain ⟨k, -, rfl⟩ := List.mem_map.1 he
  simp only [Option.or_eq_none_iff] at h2
  obtain ⟨i, hi, rfl | rfl⟩ := free_alignTerm h1
  · have := (look_combos ha' (lambdaPrime i)).2 (by
      simp only [inner, List.map_map, List.mem_map]; exact ⟨i, hi, rfl⟩)
    rw [h2.1] at this; simp at this
  · have := (look_combos ha (lambdaSym i)).2 (by
      simp only [outer, List.map_map, List.mem_map]; exact ⟨i, hi, rfl⟩)
    rw [h2.2.1] at this; simp at this

theorem free_couplingOf {hel : Bool} {res : String} {h1 h2 : Hel} {ls : Option LS} {typ : String}
    {s : Sym} (h : s ∈ (couplingOf hel res h1 h2 ls typ).ix.flatMap helSymbols) :
    s ∈ helSymbols h1 ∨ s ∈ helSymbols h2 := by
  unfold couplingOf at h
  split at h
  · simpa using h
  · simp [helSymbols] at h

theorem free_scaling {c : Chain} {lk li lj : ℚ} {s : Sym}
    (h : s ∈ freeHelicities (scalingOf b c (.sym lambdaR) (.num lk) (.num li) (.num lj) uc).product) :
    s = lambdaR := by
  have h' : s ∈ (couplingOf b.useProdHel c.resonance.toP.latex (.sym lambdaR) (.num lk) c.incomingLs
        "production").ix.flatMap helSymbols ∨
      s ∈ (couplingOf b.useDecHel c.resonance.toP.latex (.num li) (.num lj) c.outgoingLs
        "decay").ix.flatMap helSymbols := by
    unfold scalingOf at h
    cases uc
    · simpa only [Bool.false_eq_true, if_false, Scaling.product, freeHelicities,
        List.mem_append] using h
    · simpa only [if_true, Scaling.product, freeHelicities, List.flatMap_append,
        List.mem_append] using h
  rcases h' with h | h
  · rcases free_couplingOf h with h | h <;> simpa [helSymbols] using h
  · rcases free_couplingOf h with h | h <;> simp [helSymbols] at h

theorem free_cgExpr {J s1 s2 : ℚ} {ls : LS} {h1 h2 : Hel} {s : Sym}
    (h : s ∈ freeHelicities (cgExpr J s1 s2 ls h1 h2)) : s ∈ helSymbols h1 ∨ s ∈ helSymbols h2 := by
  simp only [cgExpr, freeHelicities, List.flatMap_cons, List.flatMap_nil, helSymbols, List.mem_append,
    List.not_mem_nil, or_false, false_or] at h
  tauto

theorem free_termBody {c : Chain} {e : Expr} {lam spin : ℤ → ℚ} {i j k : ℤ} {θ : Sym}
    (he : freeHelicities e = []) {s : Sym}
    (h : s ∈ freeHelicities (termBody b c e lam spin i j k θ uc)) : s = lambdaR := by
  have h1 : s ∈ freeHelicities (decCG c lam) → s = lambdaR := fun h => by
    rcases free_cgExpr h with h | h <;> simp [helSymbols] at h
  have hr : s ∈ helSymbols (resHel c (lam k)) → s = lambdaR := fun h => by
    unfold resHel at h; split at h <;> simpa [helSymbols] using h
  have h2 : s ∈ freeHelicities (prodCG c lam k) → s = lambdaR := fun h => by
    unfold prodCG at h
    simp only at h
    split at h <;> rcases free_cgExpr h with h | h
    · exact hr h
    · simp [helSymbols] at h
    · simp [helSymbols] at h
    · exact hr h
  have h3 : s ∈ freeHelicities (subAmpExpr lam spin i j k c.resonance.toP.spin e θ
      (scalingOf b c (.sym lambdaR) (.num (lam k)) (.num (lam i)) (.num (lam j)) uc)) →
      s = lambdaR := fun h => by
    simp only [subAmpExpr, freeHelicities, helSymbols, he, List.mem_append, List.not_mem_nil, or_false,
      false_or, List.mem_singleton] at h
    rcases h with (h | h) | h
    · exact h
    · exact h
    · exact free_scaling h
  unfold termBody at h
  simp only [mul_def] at h
  cases e1 : b.useDecHel <;> cases e2 : b.useProdHel <;>
    simp only [e1, e2, Bool.false_eq_true, if_false, if_true, freeHelicities, List.mem_append] at h <;>
    tauto

theorem free_ampExpr {k : ℤ} {l : ℚ × ℚ × ℚ × ℚ}
    (hl : ∀ c ∈ b.decay.chains, freeHelicities (dyn c).expression = []) {s : Sym} :
    s ∉ freeHelicities ((ampExpr b dyn uc k l).doit fun _ => none) := by
  intro h
  obtain ⟨h, -⟩ := Expr.mem_free_doit _ _ _ h
  unfold ampExpr at h
  rw [Expr.mem_free_addAll] at h
  obtain ⟨e, he, h⟩ := h
  obtain ⟨c, hc, rfl⟩ := List.mem_map.1 he
  unfold ampTerm at h
  simp only [freeHelicities, List.mem_filter, decide_eq_true_eq] at h
  exact h.2 (by simp [free_termBody (hl c (List.mem_filter.1 hc).1) h.1])

/-! ### Other symbols -/

theorem syms_alignTerm {ref : ℤ} {j : ℤ → ℚ} {h : ℤ → Hel} {k : ℤ} {s : Sym}
    (hs : s ∈ (alignTerm ref j h k).syms) :
    ∃ i ∈ ([0, 1, 2, 3] : List ℤ), j i ≠ 0 ∧ s = zetaSym i k ref := by
  have hw : ∀ i m mp, s ∈ (wigFactor ref (j i) m mp i k).syms → j i ≠ 0 ∧ s = zetaSym i k ref := by
    intro i m mp hs
    unfold wigFactor at hs
    split at hs
    · simp [Expr.syms] at hs
    · exact ⟨by assumption, by simpa [Expr.syms] using hs⟩
  unfold alignTerm at hs
  simp only [Expr.syms, List.mem_append, List.not_mem_nil, false_or] at hs
  rcases hs with ((hs | hs) | hs) | hs
  · exact ⟨0, by simp, hw _ _ _ hs⟩
  · exact ⟨1, by simp, hw _ _ _ hs⟩
  · exact ⟨2, by simp, hw _ _ _ hs⟩
  · exact ⟨3, by simp, hw _ _ _ hs⟩

theorem syms_termBody {c : Chain} {e : Expr} {lam spin : ℤ → ℚ} {i j k : ℤ} {θ : Sym} {s : Sym}
    (h : s ∈ (termBody b c e lam spin i j k θ uc).syms) : s = θ ∨ s ∈ e.syms := by
  have h1 : (decCG c lam).syms = [] := rfl
  have h2 : (prodCG c lam k).syms = [] := by unfold prodCG; simp only; split <;> rfl
  have h3 : ∀ sc : Scaling, sc.product.syms = [] := by intro sc; cases sc <;> rfl
  unfold termBody at h
  simp only [mul_def] at h
  cases e1 : b.useDecHel <;> cases e2 : b.useProdHel <;>
    simpa [subAmpExpr, Expr.syms, h1, h2, h3, e1, e2, or_comm] using h

/-- C72: what `formulate` returns is closed, if the lineshapes are: no helicity symbol is left in
`full_expression`, every coupling in it has a default value, every symbol in it is an angle of
`variables`, a Mandelstam variable or a parameter with a default value, and the definitions of the
angles and of the Mandelstam variables use nothing else. -/
theorem C72_closed (hd : Standard b.decay) (hdyn : Lineshapes b dyn) (hr : RefOk reference)
    (h : b.formulate reference cl uc = .ok m)
    (hl : ∀ c ∈ b.decay.chains, ClosedLineshape (dyn c)) : Closed m := by
  obtain ⟨ref, P, -, hr', -, rfl, hP⟩ := formulate_inv hd hdyn hr h
  have hamp : ∀ y ∈ ((result b dyn ref cl uc P).intensity.doit fun _ => none).indexeds, ∀ v,
      PyDict.get? ((result b dyn ref cl uc P).amplitudes.map fun kv =>
        (kv.1, kv.2.doit fun _ => none)) y = some v →
      ∃ k ∈ b.decay.subsystemIds, ∃ l ∈ helicityTuples (spins b.decay),
        v = (ampExpr b dyn uc k l).doit fun _ => none := by
    intro y hy v hv
    obtain ⟨k, hk, l, hl', rfl⟩ := intensity_indexeds hy
    rw [get?_map_snd, amp_get? ref P (subsystemIds_subset hd hk) hl'] at hv
    simp only [Option.map_some, Option.some.injEq] at hv
    exact ⟨k, hk, l, hl', hv.symm⟩
  -- defaults of the amplitudes
  have hkeys : ∀ key k l, k ∈ b.subsystems → l ∈ helicityTuples (spins b.decay) →
      key ∈ (ampItems b dyn uc k l).map Prod.fst →
      key ∈ PyDict.keys (result b dyn ref cl uc P).parameterDefaults := by
    intro key k l hk hl' hm
    change _ ∈ PyDict.keys (P.update (massParams (massDict b.decay)))
    rw [PyDict.mem_keys_update]
    left
    have hPk : key ∈ PyDict.keys (PyDict.ofItems ((pairs b).flatMap fun x =>
        ampItems b dyn uc x.2 x.1)) := by
      rw [PyDict.ofItems, PyDict.mem_keys_update]
      right
      rw [PyDict.keys, List.map_flatMap, List.mem_flatMap]
      exact ⟨(l, k), (mem_pairs _).2 ⟨hl', hk⟩, hm⟩
    rw [PyDict.mem_keys_iff] at hPk ⊢
    obtain ⟨v, hv⟩ := hPk
    exact ⟨v, by rw [hP, hv]⟩
  refine ⟨?_, ?_, ?_, ?_, ?_⟩
  · rw [List.eq_nil_iff_forall_not_mem]
    intro s hs
    unfold AmplitudeModel.fullExpression at hs
    rcases Expr.mem_free_xreplace _ _ s hs with hs | ⟨y, hy, v, hv, hs⟩
    · exact free_intensity hs
    · obtain ⟨k, hk, l, hl', rfl⟩ := hamp y hy v hv
      exact free_ampExpr (fun c hc => (hl c hc).1) hs
  · intro x hx
    unfold AmplitudeModel.fullExpression at hx
    rcases Expr.mem_indexeds_xreplace _ _ x hx with ⟨hx1, hx2⟩ | ⟨y, hy, v, hv, hx⟩
    · obtain ⟨k, hk, l, hl', rfl⟩ := intensity_indexeds hx1
      rw [get?_map_snd, amp_get? ref P (subsystemIds_subset hd hk) hl'] at hx2
      simp at hx2
    · obtain ⟨k, hk, l, hl', rfl⟩ := hamp y hy v hv
      unfold ampExpr at hx
      rw [doit_addAll, Expr.mem_indexeds_addAll] at hx
      obtain ⟨e, he, hx⟩ := hx
      obtain ⟨e', he', rfl⟩ := List.mem_map.1 he
      obtain ⟨c, hc, rfl⟩ := List.mem_map.1 he'
      obtain ⟨lR, hR, h0, hx⟩ := ampTerm_indexeds (hl c (List.mem_filter.1 hc).1).2.1 hx
      exact hkeys _ k l (subsystemIds_subset hd hk) hl' (mem_ampItems hc hR h0 hx)
  · intro s hs
    unfold AmplitudeModel.fullExpression at hs
    rcases Expr.mem_syms_xreplace _ _ s hs with hs | ⟨y, hy, v, hv, hs⟩
    · left
      have hs := Expr.mem_syms_doit _ _ _ hs
      rw [intensity_eq] at hs
      simp only [Expr.syms] at hs
      have hs' : s ∈ (alignedExpr b ref fun i => .sym (lambdaSym i)).syms := by
        cases cl
        · simpa using hs
        · simpa [Expr.syms_cleanup] using hs
      simp only [alignedExpr, Expr.syms] at hs'
      rw [Expr.mem_syms_addAll] at hs'
      obtain ⟨e, he, hs'⟩ := hs'
      obtain ⟨k, hk, rfl⟩ := List.mem_map.1 he
      obtain ⟨i, hi, hj, rfl⟩ := syms_alignTerm hs'
      exact PyDict.mem_keys_iff.2 ⟨_, angle_get?_zeta hd hr' hi hk hj⟩
    · obtain ⟨k, hk, l, hl', rfl⟩ := hamp y hy v hv
      have hs := Expr.mem_syms_doit _ _ _ hs
      unfold ampExpr at hs
      rw [Expr.mem_syms_addAll] at hs
      obtain ⟨e, he, hs⟩ := hs
      obtain ⟨c, hc, rfl⟩ := List.mem_map.1 he
      have hk' := subsystemIds_subset hd hk
      rcases syms_termBody hs with rfl | hs
      · exact .inl (PyDict.mem_keys_iff.2 ⟨_, angle_get?_theta hd hk' hl'⟩)
      · rcases (hl c (List.mem_filter.1 hc).1).2.2 s hs with hs | hs
        · exact .inr (provided_defined ref P hs)
        · right; right
          apply hkeys _ k l hk' hl'
          obtain ⟨v, hv⟩ := PyDict.mem_keys_iff.1 hs
          refine List.mem_map.2 ⟨(.sym s, v), ?_, rfl⟩
          unfold ampItems chainItems
          rw [List.mem_flatMap]
          exact ⟨c, hc, List.mem_append_left _ (PyDict.mem_of_get? hv)⟩
  · intro x hx s hs
    apply provided_defined ref P
    change x ∈ PyDict.update (PyDict.ofItems _) (PyDict.ofItems _) at hx
    rcases PyDict.mem_update hx with hx | hx
    · obtain ⟨y, hy, rfl⟩ := List.mem_map.1 (PyDict.mem_ofItems hx)
      exact theta_symbols (Standard.subsystems hd ((mem_pairs y).1 hy).2) s hs
    · have hx := PyDict.mem_ofItems hx
      rw [List.mem_flatMap] at hx
      obtain ⟨k, hk, hx⟩ := hx
      unfold alignItems at hx
      rw [List.mem_flatMap] at hx
      obtain ⟨i, hi, hx⟩ := hx
      unfold wigItems at hx
      split at hx
      · simp at hx
      · simp only [List.mem_singleton] at hx
        subst hx
        exact zeta_symbols hi (Standard.subsystem hd hk) hr' s hs
  · intro x hx s hs
    obtain ⟨h1, h2⟩ := third_symbols hx s hs
    exact ⟨h1, provided_defined ref P h2⟩

/-- C72: the value of a closed model is determined by the parameters and the Mandelstam variables,
when the angles are computed by the definitions of the model; it does not depend on values of
helicity symbols or of any other symbol. -/
theorem C72_value (hc : Closed m) {ι ι' : Interp} (hf : SameFunctions ι ι')
    (hp : SameParameters m ι ι')
    (hσ : ∀ s ∈ PyDict.keys m.invariants, ι.sym s = ι'.sym s)
    (ha : ∀ x ∈ m.angleDefs, Computes ι x) (ha' : ∀ x ∈ m.angleDefs, Computes ι' x)
    (η η' : Sym → ℚ) : m.fullExpression.eval ι η = m.fullExpression.eval ι' η' := by
  have hang : ∀ s ∈ PyDict.keys m.angleDefs, ι.sym s = ι'.sym s := by
    intro s hs
    obtain ⟨x, hx, rfl⟩ := List.mem_map.1 hs
    obtain ⟨v, h1, h2⟩ := ha x hx
    obtain ⟨v', h1', h2'⟩ := ha' x hx
    have : x.2.eval (fun s => (ι.sym s).re) = x.2.eval (fun s => (ι'.sym s).re) := by
      apply RExpr.eval_congr
      intro s hs
      rcases hc.angles x hx s hs with h | h
      · rw [hσ s h]
      · rw [hp.1 s h]
    rw [this, h1'] at h1
    cases h1
    rw [h2, h2']
  apply Expr.eval_congr hf _ (Expr.flat_full m)
  · intro s hs
    rcases hc.symbols s hs with h | h | h
    · exact hang s h
    · exact hσ s h
    · exact hp.1 s h
  · intro x hx η
    exact hp.2 x (hc.indexed x hx) η
  · rw [hc.helicities]; simp

/-- C72: two of the Mandelstam variables are enough, when the third is computed by its definition in
`invariants`. -/
theorem C72_two_invariants (hc : Closed m) {ι ι' : Interp} (hf : SameFunctions ι ι')
    (hp : SameParameters m ι ι') {third : Sym × RExpr} (ht : third ∈ m.invariants)
    (hσ : ∀ s ∈ PyDict.keys m.invariants, s ≠ third.1 → ι.sym s = ι'.sym s)
    (h3 : Computes ι third) (h3' : Computes ι' third)
    (ha : ∀ x ∈ m.angleDefs, Computes ι x) (ha' : ∀ x ∈ m.angleDefs, Computes ι' x)
    (η η' : Sym → ℚ) : m.fullExpression.eval ι η = m.fullExpression.eval ι' η' := by
  refine C72_value hc hf hp (fun s hs => ?_) ha ha' η η'
  by_cases h : s = third.1
  · subst h
    obtain ⟨v, h1, h2⟩ := h3
    obtain ⟨v', h1', h2'⟩ := h3'
    have : third.2.eval (fun s => (ι.sym s).re) = third.2.eval (fun s => (ι'.sym s).re) := by
      apply RExpr.eval_congr
      intro s hs
      obtain ⟨hne, h⟩ := hc.invariants third ht s hs
      rcases h with h | h
      · rw [hσ s h hne]
      · rw [hp.1 s h]
    rw [this, h1'] at h1
    cases h1
    rw [h2, h2']
  · exact hσ s hs h

/-! ### Lineshapes -/

theorem closed_unit : ClosedLineshape {} := by
  refine ⟨rfl, rfl, ?_⟩
  intro s hs; simp [Expr.syms] at hs

theorem provided_state {i : ℤ} (hi : i ∈ ([0, 1, 2, 3] : List ℤ)) : massOfState i ∈ providedSymbols := by
  simp only [List.mem_cons, List.not_mem_nil, or_false] at hi
  rcases hi with rfl | rfl | rfl | rfl <;> decide +kernel

theorem provided_mandelstam {i : ℤ} (hi : i ∈ ([1, 2, 3] : List ℤ)) : mandelstam i ∈ providedSymbols := by
  simp only [List.mem_cons, List.not_mem_nil, or_false] at hi
  rcases hi with rfl | rfl | rfl <;> decide +kernel

/-- C72: the lineshapes of `BreitWignerBuilder` are closed, for all its options. -/
theorem C72_breit_wigner {bw : BreitWignerBuilder} {c : Chain} {R : Particle} {first : Bool} {e : DefExpr}
    (hc : PlainChain c R first) (hid : NumberedFinalState c) (he : bw.call c = .ok e) :
    ClosedLineshape e := by
  have hid' : ∀ i, i ∈ [c.product1.index, c.product2.index, c.spectator.index] →
      i ∈ ([1, 2, 3] : List ℤ) := fun i hi => hid.mem_iff.1 hi
  refine ⟨?_, (C42_usable_in_formulate hc hid he).1, ?_⟩
  · rw [(call_ok_inv hc hid he).2.1]
    unfold builtExpr bareExpr
    rcases bw.energyDependentWidth with _ | _ <;> rcases bw.decayFormFactor with _ | _ <;>
      rcases bw.productionFormFactor with _ | _ <;> rfl
  · intro s hs
    rcases C42_symbols hc hid he s hs with rfl | h | rfl | rfl
    · exact .inl (provided_mandelstam (hid' _ (by simp)))
    · exact .inr (PyDict.mem_keys_iff.2 h)
    · exact .inl (provided_state (Angles.mem0 (hid' _ (by simp))))
    · exact .inl (provided_state (Angles.mem0 (hid' _ (by simp))))

/-- C72: a model with Breit-Wigner lineshapes, or none, for every chain is closed. -/
theorem C72_closed_breit_wigner (hd : Standard b.decay) (hdyn : Lineshapes b dyn) (hr : RefOk reference)
    (h : b.formulate reference cl uc = .ok m)
    (hl : ∀ c ∈ b.decay.chains, dyn c = {} ∨ ∃ bw R first, PlainChain c R first ∧
      NumberedFinalState c ∧ BreitWignerBuilder.call bw c = .ok (dyn c)) : Closed m := by
  refine C72_closed hd hdyn hr h fun c hc => ?_
  rcases hl c hc with h | ⟨bw, R, first, h1, h2, h3⟩
  · rw [h]; exact closed_unit
  · exact C72_breit_wigner h1 h2 h3

/-! ### Evaluation inside the Dalitz region -/

theorem angleDefs_mem (hd : Standard b.decay) {r : ℤ} (hr : r ∈ ([1, 2, 3] : List ℤ))
    {P : PyDict Key Val} {x : Sym × RExpr} (hx : x ∈ (result b dyn r cl uc P).angleDefs) :
    (∃ k ∈ ([1, 2, 3] : List ℤ), x = (thetaSym (prodIds k).1 (prodIds k).2, thetaExpr k)) ∨
    ∃ i ∈ ([0, 1, 2, 3] : List ℤ), ∃ k ∈ ([1, 2, 3] : List ℤ),
      x = (ThreeBody.zetaSym i k r, zetaExpr i k r) := by
  change x ∈ PyDict.update (PyDict.ofItems _) (PyDict.ofItems _) at hx
  rcases PyDict.mem_update hx with hx | hx
  · obtain ⟨y, hy, rfl⟩ := List.mem_map.1 (PyDict.mem_ofItems hx)
    exact .inl ⟨_, Standard.subsystems hd ((mem_pairs y).1 hy).2, rfl⟩
  · have hx := PyDict.mem_ofItems hx
    rw [List.mem_flatMap] at hx
    obtain ⟨k, hk, hx⟩ := hx
    unfold alignItems at hx
    rw [List.mem_flatMap] at hx
    obtain ⟨i, hi, hx⟩ := hx
    unfold wigItems at hx
    split at hx
    · simp at hx
    · simp only [List.mem_singleton] at hx
      exact .inr ⟨i, hi, k, Standard.subsystem hd hk, hx⟩

theorem theta_defined {ρ : Sym → ℝ} (h : DalitzRegion ρ) {k : ℤ} (hk : k ∈ ([1, 2, 3] : List ℤ)) :
    ∃ v, (thetaExpr k).eval ρ = some v := by
  have key : ∀ i ∈ ([1, 2, 3] : List ℤ), ∀ j ∈ ([1, 2, 3] : List ℤ), i ≠ j → ∀ s e,
      formulateScatteringAngle i j = .ok (s, e) → ∃ v, e.eval ρ = some v := by
    intro i hi j hj hij s e he
    obtain ⟨s', e', v, h1, h2, -⟩ := (C120_defined h).1 i hi j hj hij
    rw [he] at h1
    injection h1 with h1
    injection h1 with _ h1
    exact ⟨v, h1 ▸ h2⟩
  refine key _ ?_ _ ?_ ?_ _ _ (theta_eq hk) <;>
  · simp only [List.mem_cons, List.not_mem_nil, or_false] at hk
    rcases hk with rfl | rfl | rfl <;> decide

/-- C72: at every point of the Dalitz plot, also on its boundary, and for all values of the parameters, the angles of
the model can be computed by their definitions, so that `C72_value` applies. -/
theorem C72_evaluable (hd : Standard b.decay) (hdyn : Lineshapes b dyn) (hr : RefOk reference)
    (h : b.formulate reference cl uc = .ok m) {ι : Interp}
    (hρ : DalitzRegion fun s => (ι.sym s).re) :
    ∃ ι' : Interp, SameFunctions ι ι' ∧ ι'.idx = ι.idx ∧
      (∀ s, s ∉ PyDict.keys m.angleDefs → ι'.sym s = ι.sym s) ∧
      ∀ x ∈ m.angleDefs, Computes ι' x := by
  obtain ⟨ref, P, -, hr', -, rfl, hP⟩ := formulate_inv hd hdyn hr h
  set A := (result b dyn ref cl uc P).angleDefs with hA
  have hnd : (PyDict.keys A).Nodup := by
    rw [hA]
    change (PyDict.keys (PyDict.update (PyDict.ofItems _) (PyDict.ofItems _))).Nodup
    exact PyDict.nodup_update (PyDict.nodup_update (by simp [PyDict.keys]) _) _
  refine ⟨{ ι with sym := fun s => ((PyDict.get? A s).map fun e =>
    (((e.eval fun s => (ι.sym s).re).getD 0 : ℝ) : ℂ)).getD (ι.sym s) }, ⟨rfl, rfl, rfl, rfl, rfl⟩, rfl, ?_, ?_⟩
  · intro s hs
    have : PyDict.get? A s = none := by
      cases hg : PyDict.get? A s with
      | none => rfl
      | some v => exact absurd (PyDict.mem_keys_iff.2 ⟨v, hg⟩) hs
    simp only [this, Option.map_none, Option.getD_none]
  · intro x hx
    have hget : PyDict.get? A x.1 = some x.2 := PyDict.get?_of_mem hnd hx
    have hreal : ∀ s ∈ PyDict.keys A, s ∉ providedSymbols := by
      intro s hs hs'
      obtain ⟨y, hy, rfl⟩ := List.mem_map.1 hs
      have h1 : y.1.2 = .real := by
        rcases angleDefs_mem hd hr' hy with ⟨k, -, rfl⟩ | ⟨i, -, k, -, rfl⟩ <;> rfl
      have h2 : ∀ s ∈ providedSymbols, s.2 ≠ .real := by decide +kernel
      exact h2 _ hs' h1
    have hsym : ∀ s ∈ kinematicSymbols x.2, s ∈ providedSymbols := by
      rcases angleDefs_mem hd hr' hx with ⟨k, hk, rfl⟩ | ⟨i, hi, k, hk, rfl⟩
      · exact theta_symbols hk
      · exact zeta_symbols hi hk hr'
    have hval : ∃ v, x.2.eval (fun s => (ι.sym s).re) = some v := by
      rcases angleDefs_mem hd hr' hx with ⟨k, hk, rfl⟩ | ⟨i, hi, k, hk, rfl⟩
      · exact theta_defined hρ hk
      · exact ⟨_, zeta_defined hρ hi hk hr'⟩
    obtain ⟨v, hv⟩ := hval
    refine ⟨v, ?_, ?_⟩
    · rw [← hv]
      apply RExpr.eval_congr
      intro s hs
      have : PyDict.get? A s = none := by
        cases hg : PyDict.get? A s with
        | none => rfl
        | some v => exact absurd (hsym s hs) (hreal s (PyDict.mem_keys_iff.2 ⟨v, hg⟩))
      simp only [this, Option.map_none, Option.getD_none]
    · simp only [hget, Option.map_some, Option.getD_some, hv]

/-- The example decay, with a Breit-Wigner lineshape for the `K*` and none for the `Λ`. -/
def exBreitWigner : Builder :=
  { exBuilder true false false with
    dynamics := ((Configurator.init exDecay).registerBuilder (.name "K*") ({} : BreitWignerBuilder).call).2 }

theorem exK_plain : PlainChain exChainK ⟨"K*", "K^*", 1, some (-1), 9/10, 1/20⟩ true := rfl

theorem exK_numbered : NumberedFinalState exChainK := by
  show [(2 : ℤ), 3, 1].Perm [1, 2, 3]
  decide

theorem exK_lineshape : ∃ e, ({} : BreitWignerBuilder).call exChainK = .ok e := by
  refine (C42_missing_ls {} exK_plain exK_numbered).2 ?_
  rw [ne_eq, (C42_missing_ls {} exK_plain exK_numbered).1]
  simp [exChainK]

example : ∃ m, exBreitWigner.formulate (some 1) true false = .ok m ∧ Closed m ∧
    Key.sym ⟨"\\Gamma_{K^*}", .nonneg⟩ ∈ PyDict.keys m.parameterDefaults ∧
    ∃ ι : Interp, ι.sym ⟨"m0", .nonneg⟩ = 5 ∧ ∀ x ∈ m.angleDefs, Computes ι x := by
  obtain ⟨e, he⟩ := exK_lineshape
  let dyn : Chain → DefExpr := fun c => if c = exChainK then e else {}
  have hne : exChainL ≠ exChainK := fun h => by
    have := congrArg (fun c : Chain => c.spectator.index) h
    simp [exChainL, exChainK, exState] at this
  have hdyn : Lineshapes exBreitWigner dyn := by
    intro c hc
    simp only [exBreitWigner, exBuilder, exDecay, List.mem_cons, List.not_mem_nil, or_false] at hc
    rcases hc with rfl | rfl
    · refine ⟨({} : BreitWignerBuilder).call, ?_, by simp only [dyn, if_true]; exact he⟩
      change Except.ok ((PyDict.get? [(exChainK, ({} : BreitWignerBuilder).call)] exChainK).getD unitDynamics) = _
      rw [PyDict.get?_cons, if_pos rfl]; rfl
    · refine ⟨unitDynamics, ?_, by simp only [dyn, if_neg hne]; rfl⟩
      change Except.ok ((PyDict.get? [(exChainK, ({} : BreitWignerBuilder).call)] exChainL).getD unitDynamics) = _
      rw [PyDict.get?_cons, if_neg (Ne.symm hne)]; rfl
  have hM : ¬ Missing exBreitWigner := by
    rw [missing_iff (b := exBreitWigner) exDecay_standard]
    rintro ⟨-, c, hc, h⟩
    exact h (exBuilder_ls true false false hc)
  obtain ⟨P, hP, hP'⟩ := formulate_ok (b := exBreitWigner) (reference := some 1)
    exDecay_standard hdyn (ref := 1) rfl (by simp) true false hM
  refine ⟨_, hP, ?_, ?_, ?_⟩
  · refine C72_closed_breit_wigner exDecay_standard hdyn (by simp [RefOk]) hP ?_
    intro c hc
    simp only [exBreitWigner, exBuilder, exDecay, List.mem_cons, List.not_mem_nil, or_false] at hc
    rcases hc with rfl | rfl
    · exact .inr ⟨{}, _, true, exK_plain, exK_numbered, by simp only [dyn, if_true]; exact he⟩
    · exact .inl (by simp only [dyn, if_neg hne])
  · change _ ∈ PyDict.keys (P.update (massParams (massDict exDecay)))
    rw [PyDict.mem_keys_update]
    left
    have hG : ∃ v, PyDict.get? e.parameters (.sym ⟨"\\Gamma_{K^*}", .nonneg⟩) = some v := by
      have hpar := (call_ok_inv exK_plain exK_numbered he).2.2
      rw [hpar, ← PyDict.mem_keys_iff]
      simp only [PyDict.keys, List.map_reverse, List.mem_reverse, List.mem_map]
      exact ⟨_, (mem_items {} exChainK ⟨"K*", "K^*", 1, some (-1), 9/10, 1/20⟩ true
        (.sym (widthOfResonance ⟨"K*", "K^*", 1, some (-1), 9/10, 1/20⟩)) (.real (1/20))).2
        ⟨(widthOfResonance ⟨"K*", "K^*", 1, some (-1), 9/10, 1/20⟩, 1/20),
          by simp only [lineshapeDefaults]; exact List.mem_append_left _ (List.mem_append_left _ (by simp)), rfl, rfl⟩, rfl⟩
    obtain ⟨v, hv⟩ := hG
    obtain ⟨l, hl⟩ := exists_projections (d := exDecay) exDecay_standard exDecay_nonneg
    have hPk : Key.sym ⟨"\\Gamma_{K^*}", .nonneg⟩ ∈ PyDict.keys (PyDict.ofItems
        ((pairs exBreitWigner).flatMap fun x => ampItems exBreitWigner dyn false x.2 x.1)) := by
      rw [PyDict.ofItems, PyDict.mem_keys_update]
      right
      rw [PyDict.keys, List.map_flatMap, List.mem_flatMap]
      refine ⟨((l 0, l 1, l 2, l 3), 1), (mem_pairs _).2 ⟨?_, ?_⟩, ?_⟩
      · rw [show exBreitWigner.decay = exDecay from rfl, mem_helicityTuples exDecay_standard]
        intro i hi
        have := hl i hi
        simp only [List.mem_cons, List.not_mem_nil, or_false] at hi
        rcases hi with rfl | rfl | rfl | rfl <;> exact this
      · exact (selected_iff (b := exBreitWigner) exDecay_standard 1).2
          ⟨exChainK, by simp [exBreitWigner, exBuilder, exDecay], rfl⟩
      · refine List.mem_map.2 ⟨(_, v), ?_, rfl⟩
        unfold ampItems chainItems
        rw [List.mem_flatMap]
        refine ⟨exChainK, List.mem_filter.2 ⟨by simp [exBreitWigner, exBuilder, exDecay], rfl⟩,
          List.mem_append_left _ ?_⟩
        simp only [dyn, if_true]
        exact PyDict.mem_of_get? hv
    rw [PyDict.mem_keys_iff] at hPk ⊢
    obtain ⟨v, hv⟩ := hPk
    exact ⟨v, by rw [hP', hv]⟩
  · let ι : Interp := ⟨fun s => if s.name = "m0" then 5 else if s.name = "m1" then 1
      else if s.name = "m2" then 1 else if s.name = "m3" then 1 else ((28 / 3 : ℝ) : ℂ), fun _ _ _ => 0,
      fun _ _ _ _ => 0, fun _ _ _ _ _ _ => 0, fun _ _ _ _ _ => 0, fun _ _ _ _ _ _ _ _ => 0,
      fun _ _ _ => 0⟩
    have hin : DalitzInterior fun s => (ι.sym s).re := by
      constructor <;> simp [ι, SumRule, BetweenThresholds, lam] <;> norm_num
    obtain ⟨ι', -, -, h1, h2⟩ := C72_evaluable (b := exBreitWigner) exDecay_standard hdyn
      (by simp [RefOk]) hP (ι := ι) hin.region
    refine ⟨ι', ?_, h2⟩
    rw [h1 _ ?_]
    · rfl
    · intro hs
      obtain ⟨y, hy, he⟩ := List.mem_map.1 hs
      rcases angleDefs_mem (b := exBreitWigner) exDecay_standard (by simp) hy with
        ⟨k, -, rfl⟩ | ⟨i, -, k, -, rfl⟩
      · exact absurd (congrArg Sym.asm he) (by simp [thetaSym])
      · exact absurd (congrArg Sym.asm he) (by simp [ThreeBody.zetaSym])

end Verif.ThreeBody
