import Verif.Proofs.ExampleBuilder
import Verif.Proofs.ExprLemmas
import Verif.Props.Registry
import Verif.Model.REval

/-! Properties C23, C25-C28, C33, C35, C36: what `formulate` puts into the model. -/
namespace Verif.ThreeBody
open Verif Verif.Spec Verif.Spin Verif.Angles

variable {b : Builder} {dyn : Chain → DefExpr} {reference : Option ℤ} {cl uc : Bool}
  {m : AmplitudeModel}

theorem mul_def (a b : Expr) : a * b = .mul a b := rfl

theorem selected_iff (hd : Standard b.decay) (k : ℤ) : k ∈ b.subsystems ↔ Selected b k := by
  unfold Builder.subsystems Selected
  split
  · simp
  · exact (C18_partition hd.valid).1 k

theorem refIs_of (hd : Standard b.decay) {ref : ℤ} (hr : RefOk reference)
    (h : RefIs b reference ref) : ref ∈ ([1, 2, 3] : List ℤ) ∧ UsedRef b reference ref := by
  cases reference with
  | none => exact ⟨Standard.subsystem hd ((C21_best_reference hd.valid).1 ref h).1, h⟩
  | some r =>
    have : r = ref := by simpa [RefIs] using h
    subst this
    exact ⟨by simpa using hr r rfl, rfl⟩

/-- What a successful call returned. -/
theorem formulate_inv (hd : Standard b.decay) (hdyn : Lineshapes b dyn) (hr : RefOk reference)
    (h : b.formulate reference cl uc = .ok m) :
    ∃ ref P, UsedRef b reference ref ∧ ref ∈ ([1, 2, 3] : List ℤ) ∧ ¬ Missing b ∧
      m = result b dyn ref cl uc P ∧
      ∀ k, PyDict.get? P k = PyDict.get?
        (PyDict.ofItems ((pairs b).flatMap fun x => ampItems b dyn uc x.2 x.1)) k := by
  have hex : ∃ ref, RefIs b reference ref := by
    cases reference with
    | some r => exact ⟨r, rfl⟩
    | none =>
      unfold RefIs
      cases hb : b.decay.bestReference with
      | ok r => exact ⟨r, rfl⟩
      | error e => unfold Builder.formulate at h; simp only [hb, bind, Except.bind] at h; cases h
  obtain ⟨ref, href⟩ := hex
  obtain ⟨h1, h2⟩ := refIs_of hd hr href
  by_cases hm : Missing b
  · rw [formulate_err hd hdyn href cl uc hm] at h; cases h
  · obtain ⟨P, hP, hP'⟩ := formulate_ok hd hdyn href h1 cl uc hm
    rw [hP] at h
    cases h
    exact ⟨ref, P, h2, h1, hm, rfl, hP'⟩

/-! ### C35 -/

/-- C35: a `bool` configures both vertices, a pair configures (production, decay), anything else
raises `NotImplementedError`; the dynamics registry starts empty. -/
theorem C35_min_ls (d : Decay) (p q a : Bool) :
    (∃ b, Builder.new d (.bool p) a = .ok b ∧ b.decay = d ∧ b.useProdHel = p ∧ b.useDecHel = p ∧
      b.allSubsystems = a ∧ b.dynamics = Configurator.init d) ∧
    (∃ b, Builder.new d (.pair p q) a = .ok b ∧ b.decay = d ∧ b.useProdHel = p ∧
      b.useDecHel = q ∧ b.allSubsystems = a ∧ b.dynamics = Configurator.init d) ∧
    Builder.new d .other a = .error .notImplementedError :=
  ⟨⟨_, rfl, rfl, rfl, rfl, rfl, rfl⟩, ⟨_, rfl, rfl, rfl, rfl, rfl, rfl⟩, rfl⟩

example : ∃ b, Builder.new exDecay (.pair true false) true = .ok b ∧ b.useProdHel = true ∧
    b.useDecHel = false := ⟨_, rfl, rfl, rfl⟩

/-! ### C36 -/

/-- C36: with dynamics that do not fail and a reference subsystem, `formulate` either succeeds or
raises `ValueError`, and it raises iff there is a helicity combination and a chain without an LS
coupling that the chosen basis needs. -/
theorem C36_missing_ls (hd : Standard b.decay) (hdyn : Lineshapes b dyn) (hr : RefOk reference)
    (hc : reference = none → b.decay.chains ≠ []) (cl uc : Bool) :
    (b.formulate reference cl uc = .error .valueError ↔
      (∃ l : ℤ → ℚ, ∀ i ∈ ([0, 1, 2, 3] : List ℤ), Projection (b.decay.spin i) (l i)) ∧
      ∃ c ∈ b.decay.chains, ¬ HasLS b c) ∧
    (b.formulate reference cl uc ≠ .error .valueError → ∃ m, b.formulate reference cl uc = .ok m) := by
  obtain ⟨ref, href⟩ : ∃ ref, RefIs b reference ref := by
    cases reference with
    | some r => exact ⟨r, rfl⟩
    | none => exact (C21_best_reference hd.valid).2.1 (hc rfl)
  rw [← missing_iff hd]
  by_cases hm : Missing b
  · have := formulate_err hd hdyn href cl uc hm
    exact ⟨⟨fun _ => hm, fun _ => this⟩, fun h => absurd this h⟩
  · obtain ⟨P, hP, -⟩ := formulate_ok hd hdyn href (refIs_of hd hr href).1 cl uc hm
    refine ⟨⟨fun h => ?_, fun h => absurd h hm⟩, fun _ => ⟨_, hP⟩⟩
    rw [hP] at h; cases h

/-- C36: without chains and without a given reference, `formulate` raises `ValueError`. -/
theorem C36_no_chains (hd : Standard b.decay) (hc : b.decay.chains = []) (cl uc : Bool) :
    b.formulate none cl uc = .error .valueError := by
  have := (C21_best_reference hd.valid).2.2.2 hc
  unfold Builder.formulate
  simp only [this, bind, Except.bind]

/-- A decay whose chain has no LS couplings. -/
def exNoLS : Decay := ⟨exStates, [{ exChainK with
  decay := .isobar (.state (exState "Lc" (1/2) 2 0))
    (.isobar (.particle ⟨"K*", "K^*", 1, some (-1), 9/10, 1/20⟩)
      (.leaf (.state (exState "pi" 0 (1/7) 2))) (.leaf (.state (exState "K" 0 (1/2) 3))) none)
    (.leaf (.state (exState "p" (1/2) 1 1))) none, incomingLs := none, outgoingLs := none }]⟩

example : ∃ c ∈ exNoLS.chains,
    ¬ HasLS ⟨exNoLS, Configurator.init exNoLS, false, true, false⟩ c :=
  ⟨_, List.mem_singleton.2 rfl, fun h => h.1 rfl rfl⟩

example : ∃ m, (exBuilder false false true).formulate (some 1) true false = .ok m :=
  exBuilder_ok _ _ _ _ _

/-! ### C25 -/

theorem ampKey_inj {k k' : ℤ} {l l' : ℚ × ℚ × ℚ × ℚ} (h : ampKey k l = ampKey k' l') :
    k = k' ∧ l = l' := by
  obtain ⟨a, b, c, d⟩ := l
  obtain ⟨a', b', c', d'⟩ := l'
  simp only [ampKey, ampSym, Indexed.mk.injEq, List.cons.injEq, Hel.num.injEq, and_true,
    true_and] at h
  obtain ⟨h1, rfl, rfl, rfl, rfl⟩ := h
  refine ⟨?_, rfl⟩
  apply toString_int_inj
  have := congrArg String.toList h1
  rw [String.toList_append, String.toList_append] at this
  exact String.ext (List.append_cancel_left this)

theorem amp_get? {k : ℤ} {l : ℚ × ℚ × ℚ × ℚ} (ref : ℤ)
    (P : PyDict Key Val) (hk : k ∈ b.subsystems) (hl : l ∈ helicityTuples (spins b.decay)) :
    PyDict.get? (result b dyn ref cl uc P).amplitudes (ampKey k l) =
      some (ampExpr b dyn uc k l) := by
  have := get?_ofItems_map (pairs b) (fun x => ampKey x.2 x.1)
    (fun x => ampExpr b dyn uc x.2 x.1) (by
      intro x _ y _ hxy
      obtain ⟨h1, h2⟩ := ampKey_inj hxy
      rw [h1, h2]) ((mem_pairs (l, k)).2 ⟨hl, hk⟩)
  exact this

theorem amp_keys (ref : ℤ) (P : PyDict Key Val) (x : Indexed) :
    x ∈ PyDict.keys (result b dyn ref cl uc P).amplitudes ↔
      ∃ k l, k ∈ b.subsystems ∧ l ∈ helicityTuples (spins b.decay) ∧ ampKey k l = x := by
  change x ∈ PyDict.keys (PyDict.ofItems ((pairs b).map fun x =>
      (ampKey x.2 x.1, ampExpr b dyn uc x.2 x.1))) ↔ _
  rw [keys_ofItems_map]
  constructor
  · rintro ⟨⟨l, k⟩, h, rfl⟩
    exact ⟨k, l, ((mem_pairs _).1 h).2, ((mem_pairs _).1 h).1, rfl⟩
  · rintro ⟨k, l, hk, hl, rfl⟩
    exact ⟨(l, k), (mem_pairs _).2 ⟨hl, hk⟩, rfl⟩

theorem amp_nodup (ref : ℤ) (P : PyDict Key Val) :
    (PyDict.keys (result b dyn ref cl uc P).amplitudes).Nodup := PyDict.nodup_ofItems _

/-- C25: the amplitudes of the model are exactly the `A^k[λ0,λ1,λ2,λ3]` for the selected subsystems
`k` and the spin projections `λi` of the states, each once. -/
theorem C25_amplitudes (hd : Standard b.decay) (hdyn : Lineshapes b dyn) (hr : RefOk reference)
    (h : b.formulate reference cl uc = .ok m) :
    (PyDict.keys m.amplitudes).Nodup ∧
    ∀ x : Indexed, x ∈ PyDict.keys m.amplitudes ↔
      ∃ (k : ℤ) (l : ℤ → ℚ), Selected b k ∧
        (∀ i ∈ ([0, 1, 2, 3] : List ℤ), Projection (b.decay.spin i) (l i)) ∧
        x = ⟨"A^" ++ toString k, none, [.num (l 0), .num (l 1), .num (l 2), .num (l 3)]⟩ := by
  obtain ⟨ref, P, -, -, -, rfl, -⟩ := formulate_inv hd hdyn hr h
  refine ⟨amp_nodup ref P, fun x => ?_⟩
  rw [amp_keys]
  constructor
  · rintro ⟨k, l, hk, hl, rfl⟩
    exact ⟨k, lamOf l, (selected_iff hd k).1 hk, (mem_helicityTuples hd l).1 hl, rfl⟩
  · rintro ⟨k, l, hk, hl, rfl⟩
    refine ⟨k, (l 0, l 1, l 2, l 3), (selected_iff hd k).2 hk, ?_, rfl⟩
    rw [mem_helicityTuples hd]
    intro i hi
    have := hl i hi
    simp only [List.mem_cons, List.not_mem_nil, or_false] at hi
    rcases hi with rfl | rfl | rfl | rfl <;> exact this

example : ∃ m, (exBuilder true true false).formulate (some 1) true false = .ok m ∧
    (⟨"A^2", none, [.num (1/2), .num (-1/2), .num 0, .num 0]⟩ : Indexed) ∈
      PyDict.keys m.amplitudes := by
  obtain ⟨m, hm⟩ := exBuilder_ok true true false true false
  refine ⟨m, hm, ?_⟩
  rw [(C25_amplitudes exDecay_standard (exBuilder_lineshapes _ _ _) (by simp [RefOk]) hm).2]
  refine ⟨2, fun i => if i = 0 then 1/2 else if i = 1 then -1/2 else 0,
    ⟨exChainL, by simp [exBuilder, exDecay], rfl⟩, ?_, by simp; rfl⟩
  intro i hi
  simp only [List.mem_cons, List.not_mem_nil, or_false] at hi
  rcases hi with rfl | rfl | rfl | rfl
  · exact ⟨by norm_num [Decay.spin, Decay.st, exBuilder, exDecay, exStates, PyDict.get?, exState],
      by norm_num [Decay.spin, Decay.st, exBuilder, exDecay, exStates, PyDict.get?, exState],
      0, by norm_num [Decay.spin, Decay.st, exBuilder, exDecay, exStates, PyDict.get?, exState]⟩
  · exact ⟨by norm_num [Decay.spin, Decay.st, exBuilder, exDecay, exStates, PyDict.get?, exState],
      by norm_num [Decay.spin, Decay.st, exBuilder, exDecay, exStates, PyDict.get?, exState],
      1, by norm_num [Decay.spin, Decay.st, exBuilder, exDecay, exStates, PyDict.get?, exState]⟩
  · exact ⟨by norm_num [Decay.spin, Decay.st, exBuilder, exDecay, exStates, PyDict.get?, exState],
      by norm_num [Decay.spin, Decay.st, exBuilder, exDecay, exStates, PyDict.get?, exState],
      0, by norm_num [Decay.spin, Decay.st, exBuilder, exDecay, exStates, PyDict.get?, exState]⟩
  · exact ⟨by norm_num [Decay.spin, Decay.st, exBuilder, exDecay, exStates, PyDict.get?, exState],
      by norm_num [Decay.spin, Decay.st, exBuilder, exDecay, exStates, PyDict.get?, exState],
      0, by norm_num [Decay.spin, Decay.st, exBuilder, exDecay, exStates, PyDict.get?, exState]⟩

/-! ### C26 -/

theorem lambdaPrime_inj {i j : ℤ} (h : lambdaPrime i = lambdaPrime j) : i = j := by
  simp only [lambdaPrime, Sym.mk.injEq, and_true] at h
  apply toString_int_inj
  have := congrArg String.toList h
  simp only [String.toList_append] at this
  exact String.ext (List.append_cancel_left (List.append_cancel_right this))

theorem lambdaSym_inj {i j : ℤ} (h : lambdaSym i = lambdaSym j) : i = j := by
  simp only [lambdaSym, Sym.mk.injEq, and_true] at h
  apply toString_int_inj
  have := congrArg String.toList h
  simp only [String.toList_append] at this
  exact String.ext (List.append_cancel_left this)

/-- Summation ranges of the aligned amplitude. -/
def inner (d : Decay) : List (Sym × List ℚ) :=
  [0, 1, 2, 3].map fun i => (lambdaPrime i, createSpinRange (spins d i))

theorem inner_nodup (d : Decay) : ((inner d).map Prod.fst).Nodup := by
  unfold inner
  rw [List.map_map]
  exact List.Nodup.map (fun i j h => lambdaPrime_inj h) (by decide)

theorem outer_nodup (d : Decay) : ((outer d).map Prod.fst).Nodup := by
  unfold outer
  rw [List.map_map]
  exact List.Nodup.map (fun i j h => lambdaSym_inj h) (by decide)

theorem ranges_ne_of_combo {d : Decay} {a : List (Sym × ℚ)} (ha : a ∈ combos (outer d)) :
    ∀ x ∈ inner d, x.2 ≠ [] := by
  intro x hx
  obtain ⟨i, hi, rfl⟩ := List.mem_map.1 hx
  obtain ⟨v, hv, -⟩ := look_combos_mem ha (outer_nodup d)
    (s := lambdaSym i) (vals := createSpinRange (spins d i)) (List.mem_map.2 ⟨i, hi, rfl⟩)
  intro h
  simp only at h
  rw [h] at hv; simp at hv

theorem mem_helicityTuples' {d : Decay} {g : ℤ → ℚ}
    (hg : ∀ i ∈ ([0, 1, 2, 3] : List ℤ), g i ∈ createSpinRange (spins d i)) :
    (g 0, g 1, g 2, g 3) ∈ helicityTuples (spins d) := by
  unfold helicityTuples
  simp only [List.mem_flatMap, List.mem_map, Prod.mk.injEq]
  exact ⟨_, hg 0 (by simp), _, hg 1 (by simp), _, hg 2 (by simp), _, hg 3 (by simp),
    rfl, rfl, rfl, rfl⟩

theorem wigFactor_indexeds (ref : ℤ) (j : ℚ) (m mp : Hel) (i k : ℤ) (η : Sym → Option ℚ) :
    ((wigFactor ref j m mp i k).doit η).indexeds = [] := by
  unfold wigFactor
  split <;> rfl

theorem alignTerm_indexeds {ref : ℤ} {j : ℤ → ℚ} {h : ℤ → Hel} {k : ℤ} {η : Sym → Option ℚ}
    {x : Indexed} (hx : x ∈ ((alignTerm ref j h k).doit η).indexeds) :
    x = ⟨"A^" ++ toString k, none, [0, 1, 2, 3].map fun i => (Hel.sym (lambdaPrime i)).subst η⟩ := by
  unfold alignTerm at hx
  simp only [Expr.doit] at hx
  rcases Expr.mem_indexeds_mulS hx with hx | hx
  · rcases Expr.mem_indexeds_mulS hx with hx | hx
    · rcases Expr.mem_indexeds_mulS hx with hx | hx
      · rcases Expr.mem_indexeds_mulS hx with hx | hx
        · simpa [Expr.indexeds, ampSym] using hx
        · rw [wigFactor_indexeds] at hx; simp at hx
      · rw [wigFactor_indexeds] at hx; simp at hx
    · rw [wigFactor_indexeds] at hx; simp at hx
  · rw [wigFactor_indexeds] at hx; simp at hx

theorem doit_addAll (l : List Expr) (η : Sym → Option ℚ) :
    (Expr.addAll l).doit η = Expr.addAll (l.map fun e => e.doit η) := by
  induction l with
  | nil => rfl
  | cons e t ih => simp [Expr.addAll, Expr.doit, ih]

theorem alignedExpr_indexeds {ref : ℤ} {h : ℤ → Hel} (hne : ∀ x ∈ inner b.decay, x.2 ≠ [])
    {η : Sym → Option ℚ} {x : Indexed}
    (hx : x ∈ ((if cl then (alignedExpr b ref h).cleanup else alignedExpr b ref h).doit η).indexeds) :
    ∃ a' ∈ combos (inner b.decay), x ∈ ((Expr.addAll (b.decay.subsystemIds.map
      (alignTerm ref (spins b.decay) h))).doit fun u => (look a' u).or (η u)).indexeds := by
  have he : alignedExpr b ref h = .psum (Expr.addAll (b.decay.subsystemIds.map
      (alignTerm ref (spins b.decay) h))) (inner b.decay) := rfl
  rw [he] at hx
  cases cl with
  | true => rw [if_pos rfl] at hx; exact Expr.mem_indexeds_cleanup (inner_nodup _) hne hx
  | false => rw [if_neg (by simp)] at hx; exact Expr.mem_indexeds_psum hx

theorem intensity_eq (b : Builder) (dyn : Chain → DefExpr) (ref : ℤ) (cl uc : Bool)
    (P : PyDict Key Val) : (result b dyn ref cl uc P).intensity =
    .psum (.pow (.abs
      (if cl then (alignedExpr b ref fun i => .sym (lambdaSym i)).cleanup
        else alignedExpr b ref fun i => .sym (lambdaSym i))) 2) (outer b.decay) := rfl

/-- The amplitude symbols of the unfolded intensity. -/
theorem intensity_indexeds {ref : ℤ} {P : PyDict Key Val} {x : Indexed}
    (hx : x ∈ ((result b dyn ref cl uc P).intensity.doit fun _ => none).indexeds) :
    ∃ k ∈ b.decay.subsystemIds, ∃ l ∈ helicityTuples (spins b.decay), x = ampKey k l := by
  rw [intensity_eq] at hx
  obtain ⟨a, ha, hx⟩ := Expr.mem_indexeds_psum hx
  have hne := ranges_ne_of_combo ha
  simp only [Expr.doit, Expr.indexeds] at hx
  obtain ⟨a', ha', hx⟩ := alignedExpr_indexeds hne hx
  rw [doit_addAll, Expr.mem_indexeds_addAll] at hx
  obtain ⟨e, he, hx⟩ := hx
  obtain ⟨e', he', rfl⟩ := List.mem_map.1 he
  obtain ⟨k, hk, rfl⟩ := List.mem_map.1 he'
  have hx := alignTerm_indexeds hx
  have hval : ∀ i ∈ ([0, 1, 2, 3] : List ℤ), ∃ v ∈ createSpinRange (spins b.decay i),
      look a' (lambdaPrime i) = some v := fun i hi =>
    look_combos_mem ha' (inner_nodup _) (List.mem_map.2 ⟨i, hi, rfl⟩)
  choose! g hg1 hg2 using hval
  refine ⟨k, hk, (g 0, g 1, g 2, g 3), mem_helicityTuples' hg1, ?_⟩
  rw [hx]
  simp only [List.map_cons, List.map_nil, Hel.subst, hg2 0 (by simp), hg2 1 (by simp),
    hg2 2 (by simp), hg2 3 (by simp), Option.some_or]
  rfl

theorem get?_map_snd {κ α β : Type} [DecidableEq κ] (d : PyDict κ α) (f : α → β) (k : κ) :
    PyDict.get? (d.map fun kv => (kv.1, f kv.2)) k = (PyDict.get? d k).map f := by
  induction d with
  | nil => rfl
  | cons x t ih =>
    obtain ⟨a, v⟩ := x
    simp only [List.map_cons, PyDict.get?_cons]
    split
    · rfl
    · exact ih

/-- Names of couplings and coefficients are not names of amplitudes. -/
theorem couplingBase_ne (hel : Bool) (typ : String) (k : ℤ) :
    couplingBase hel typ ≠ "A^" ++ toString k := by
  intro h
  have := congrArg (fun s : String => s.toList.head?) h
  unfold couplingBase at this
  cases hel <;> simp [String.toList_append] at this

theorem coefficientBase_ne (R : String) (p q : Bool) (k : ℤ) :
    coefficientBase R p q ≠ "A^" ++ toString k := by
  intro h
  have := congrArg (fun s : String => s.toList.head?) h
  unfold coefficientBase at this
  cases p <;> cases q <;> simp [String.toList_append] at this

theorem scaling_base_ne {c : Chain} {lR lk li lj : Hel} {x : Indexed}
    (hx : x ∈ (scalingOf b c lR lk li lj uc).product.indexeds) (k : ℤ) :
    x.base ≠ "A^" ++ toString k := by
  unfold scalingOf at hx
  cases uc
  · simp only [Bool.false_eq_true, if_false, Scaling.product, Expr.indexeds, List.mem_append,
      List.mem_singleton] at hx
    rcases hx with rfl | rfl
    · unfold couplingOf; split <;> exact couplingBase_ne _ _ _
    · unfold couplingOf; split <;> exact couplingBase_ne _ _ _
  · simp only [if_true, Scaling.product, Expr.indexeds, List.mem_singleton] at hx
    subst hx
    exact coefficientBase_ne _ _ _ _

theorem cgExpr_indexeds (J s1 s2 : ℚ) (ls : LS) (h1 h2 : Hel) :
    (cgExpr J s1 s2 ls h1 h2).indexeds = [] := rfl

/-- The symbols of the summand of a chain: lineshape and scaling factors. -/
theorem termBody_indexeds {c : Chain} {e : Expr} {lam spin : ℤ → ℚ} {i j k : ℤ} {θ : Sym}
    {x : Indexed} (hx : x ∈ (termBody b c e lam spin i j k θ uc).indexeds) :
    x ∈ e.indexeds ∨ x ∈ (scalingOf b c (.sym lambdaR) (.num (lam k)) (.num (lam i))
      (.num (lam j)) uc).product.indexeds := by
  have h1 : (decCG c lam).indexeds = [] := rfl
  have h2 : (prodCG c lam k).indexeds = [] := by unfold prodCG; simp only; split <;> rfl
  unfold termBody at hx
  simp only [mul_def] at hx
  cases e1 : b.useDecHel <;> cases e2 : b.useProdHel <;>
    simpa [subAmpExpr, Expr.indexeds, h1, h2, e1, e2] using hx

/-- C26: after unfolding the sums, every amplitude in the intensity is a key of `amplitudes`; hence
`full_expression` contains no amplitude symbol `A^k[...]`, if the lineshapes do not. -/
theorem C26_no_undefined_amplitude (hd : Standard b.decay) (hdyn : Lineshapes b dyn)
    (hr : RefOk reference) (h : b.formulate reference cl uc = .ok m) :
    (∀ x ∈ (m.intensity.doit fun _ => none).indexeds, x ∈ PyDict.keys m.amplitudes) ∧
    ((∀ c ∈ b.decay.chains, ∀ x ∈ (dyn c).expression.indexeds, ∀ k : ℤ,
        x.base ≠ "A^" ++ toString k) →
      ∀ x ∈ m.fullExpression.indexeds, ∀ k : ℤ, x.base ≠ "A^" ++ toString k) := by
  obtain ⟨ref, P, -, -, -, rfl, -⟩ := formulate_inv hd hdyn hr h
  have h1 : ∀ x ∈ ((result b dyn ref cl uc P).intensity.doit fun _ => none).indexeds,
      x ∈ PyDict.keys (result b dyn ref cl uc P).amplitudes := by
    intro x hx
    obtain ⟨k, hk, l, hl, rfl⟩ := intensity_indexeds hx
    exact (amp_keys ref P _).2 ⟨k, l, subsystemIds_subset hd hk, hl, rfl⟩
  refine ⟨h1, ?_⟩
  intro hl x hx k
  unfold AmplitudeModel.fullExpression at hx
  rcases Expr.mem_indexeds_xreplace _ _ x hx with ⟨hx1, hx2⟩ | ⟨y, hy, v, hv, hx⟩
  · rw [get?_map_snd, Option.map_eq_none_iff, PyDict.get?_eq_none] at hx2
    exact absurd (h1 x hx1) hx2
  · obtain ⟨k', hk', l', hl', rfl⟩ := intensity_indexeds hy
    rw [get?_map_snd, amp_get? ref P (subsystemIds_subset hd hk') hl'] at hv
    simp only [Option.map_some, Option.some.injEq] at hv
    subst hv
    obtain ⟨z, hz, hz', -⟩ := Expr.mem_indexeds_doit _ _ x hx
    rw [hz']
    unfold ampExpr at hz
    rw [Expr.mem_indexeds_addAll] at hz
    obtain ⟨e, he, hz⟩ := hz
    obtain ⟨c, hc, rfl⟩ := List.mem_map.1 he
    rcases termBody_indexeds hz with hz | hz
    · exact hl c (List.mem_filter.1 hc).1 z hz k
    · exact scaling_base_ne hz k

example : ∃ m, (exBuilder true false false).formulate (some 1) true true = .ok m ∧
    ∀ x ∈ m.fullExpression.indexeds, ∀ k : ℤ, x.base ≠ "A^" ++ toString k := by
  obtain ⟨m, hm⟩ := exBuilder_ok true false false true true
  exact ⟨m, hm, (C26_no_undefined_amplitude exDecay_standard (exBuilder_lineshapes _ _ _)
    (by simp [RefOk]) hm).2 (fun c _ x hx => by simp [Expr.indexeds] at hx)⟩

/-! ### C27 -/

theorem mem_ampItems {x : Indexed} {k : ℤ} {l : ℚ × ℚ × ℚ × ℚ} {c : Chain} {lR : ℚ}
    (hc : c ∈ chainsOf b.decay k) (hR : lR ∈ createSpinRange c.resonance.toP.spin)
    (h0 : lamOf l 0 = lR - lamOf l k)
    (hx : x ∈ (scalingOf b c (.num lR) (.num (lamOf l k)) (.num (lamOf l (prodIds k).1))
      (.num (lamOf l (prodIds k).2)) uc).product.indexeds) :
    .idx x ∈ (ampItems b dyn uc k l).map Prod.fst := by
  rw [List.mem_map]
  have : ∃ v, ((Key.idx x, v) : Key × Val) ∈ (scalingOf b c (.num lR) (.num (lamOf l k))
      (.num (lamOf l (prodIds k).1)) (.num (lamOf l (prodIds k).2)) uc).defaults := by
    revert hx
    generalize scalingOf b c (.num lR) (.num (lamOf l k)) (.num (lamOf l (prodIds k).1))
      (.num (lamOf l (prodIds k).2)) uc = sc
    intro hx
    cases sc with
    | two p d =>
      simp only [Scaling.product, Expr.indexeds, List.mem_append, List.mem_singleton] at hx
      rcases hx with rfl | rfl
      · exact ⟨_, by simp only [Scaling.defaults]; exact List.mem_cons_self⟩
      · exact ⟨_, by simp only [Scaling.defaults]; exact List.mem_cons_of_mem _ List.mem_cons_self⟩
    | one h =>
      simp only [Scaling.product, Expr.indexeds, List.mem_singleton] at hx
      subst hx
      exact ⟨_, by simp only [Scaling.defaults]; exact List.mem_cons_self⟩
  obtain ⟨v, hv⟩ := this
  refine ⟨(.idx x, v), ?_, rfl⟩
  unfold ampItems chainItems lambdaRItems
  rw [List.mem_flatMap]
  refine ⟨c, hc, List.mem_append_right _ ?_⟩
  rw [List.mem_flatMap]
  exact ⟨lR, List.mem_filter.2 ⟨hR, by simpa using h0⟩, hv⟩

theorem ampItems_val {x : Indexed} {v : Val} {k : ℤ} {l : ℚ × ℚ × ℚ × ℚ}
    (hp : ∀ c ∈ b.decay.chains, ∀ y, Key.idx y ∉ PyDict.keys (dyn c).parameters)
    (h : (Key.idx x, v) ∈ ampItems b dyn uc k l) : v.toC = 1 := by
  unfold ampItems chainItems lambdaRItems at h
  rw [List.mem_flatMap] at h
  obtain ⟨c, hc, h⟩ := h
  rcases List.mem_append.1 h with h | h
  · exact absurd (List.mem_map.2 ⟨_, h, rfl⟩) (hp c (List.mem_filter.1 hc).1 x)
  · rw [List.mem_flatMap] at h
    obtain ⟨lR, -, h⟩ := h
    revert h
    generalize scalingOf b c _ _ _ _ uc = sc
    intro h
    cases sc with
    | two p d =>
      simp only [Scaling.defaults, List.mem_cons, Prod.mk.injEq, List.not_mem_nil, or_false] at h
      rcases h with ⟨-, rfl⟩ | ⟨-, rfl⟩ <;> simp [Val.toC]
    | one h' =>
      simp only [Scaling.defaults, List.mem_cons, Prod.mk.injEq, List.not_mem_nil, or_false] at h
      obtain ⟨-, rfl⟩ := h; simp [Val.toC]

/-- Only the scaling factors at the conserved resonance helicity survive. -/
theorem ampTerm_indexeds {k : ℤ} {l : ℚ × ℚ × ℚ × ℚ} {c : Chain} {x : Indexed}
    (hl : (dyn c).expression.indexeds = [])
    (hx : x ∈ ((ampTerm b dyn uc k l c).doit fun _ => none).indexeds) :
    ∃ lR ∈ createSpinRange c.resonance.toP.spin, lamOf l 0 = lR - lamOf l k ∧
      x ∈ (scalingOf b c (.num lR) (.num (lamOf l k)) (.num (lamOf l (prodIds k).1))
        (.num (lamOf l (prodIds k).2)) uc).product.indexeds := by
  unfold ampTerm at hx
  obtain ⟨a, ha, hx⟩ := Expr.mem_indexeds_psum hx
  simp only [combos, List.map_cons, List.map_nil, List.mem_flatMap, List.mem_singleton] at ha
  obtain ⟨lR, hR, rfl⟩ := ha
  have hη : (fun u => (look [(lambdaR, lR)] u).or none) = look [(lambdaR, lR)] := by
    funext u; simp
  rw [hη] at hx
  have hs : look [(lambdaR, lR)] lambdaR = some lR := by simp [look_cons]
  refine ⟨lR, hR, ?_⟩
  -- the factors of the summand
  have hdec : ∀ η, ((decCG c (lamOf l)).doit η).indexeds = [] :=
    fun η => Expr.doit_indexeds_nil rfl η
  have hprod : ∀ η, ((prodCG c (lamOf l) k).doit η).indexeds = [] :=
    fun η => Expr.doit_indexeds_nil (by unfold prodCG; simp only; split <;> rfl) η
  have hsub : ∀ y, y ∈ ((subAmpExpr (lamOf l) (spins b.decay) (prodIds k).1 (prodIds k).2 k
      c.resonance.toP.spin (dyn c).expression (thetaSym (prodIds k).1 (prodIds k).2)
      (scalingOf b c (.sym lambdaR) (.num (lamOf l k)) (.num (lamOf l (prodIds k).1))
        (.num (lamOf l (prodIds k).2)) uc)).doit (look [(lambdaR, lR)])).indexeds →
      lamOf l 0 = lR - lamOf l k ∧ y ∈ (scalingOf b c (.num lR) (.num (lamOf l k))
        (.num (lamOf l (prodIds k).1)) (.num (lamOf l (prodIds k).2)) uc).product.indexeds := by
    intro y hy
    unfold subAmpExpr at hy
    simp only [Expr.doit, Hel.subst, hs] at hy
    by_cases h0 : lamOf l 0 = lR - lamOf l k
    · refine ⟨h0, ?_⟩
      rcases Expr.mem_indexeds_mulS hy with hy | hy
      · rcases Expr.mem_indexeds_mulS hy with hy | hy
        · rcases Expr.mem_indexeds_mulS hy with hy | hy
          · rcases Expr.mem_indexeds_mulS hy with hy | hy
            · rcases Expr.mem_indexeds_mulS hy with hy | hy <;> simp [Expr.indexeds] at hy
            · rw [Expr.doit_indexeds_nil hl] at hy; simp at hy
          · simp [Expr.indexeds] at hy
        · revert hy
          have key : ∀ hel R ls typ a a' c' , (∀ h ∈ [a, c'], ∃ q, h = Hel.num q) →
              (a' = .sym lambdaR ∧ a = .num lR ∨ a' = a) →
              (⟨(couplingOf hel R a' c' ls typ).base, (couplingOf hel R a' c' ls typ).res,
                (couplingOf hel R a' c' ls typ).ix.map (Hel.subst (look [(lambdaR, lR)]))⟩ : Indexed) =
              couplingOf hel R a c' ls typ := by
            intro hel R ls typ a a' c' h1 h2
            obtain ⟨q, rfl⟩ := h1 a (by simp)
            obtain ⟨q', rfl⟩ := h1 c' (by simp)
            unfold couplingOf
            cases hel
            · simp [Hel.subst]
            · rcases h2 with ⟨rfl, h2⟩ | rfl
              · rw [h2]; simp [Hel.subst, hs]
              · simp [Hel.subst]
          have k1 := key b.useProdHel c.resonance.toP.latex c.incomingLs "production" (.num lR)
            (.sym lambdaR) (.num (lamOf l k)) (by simp) (.inl ⟨rfl, rfl⟩)
          have k2 := key b.useDecHel c.resonance.toP.latex c.outgoingLs "decay"
            (.num (lamOf l (prodIds k).1)) (.num (lamOf l (prodIds k).1))
            (.num (lamOf l (prodIds k).2)) (by simp) (.inr rfl)
          unfold scalingOf
          cases uc
          · simp only [Bool.false_eq_true, if_false, Scaling.product, Expr.doit]
            rw [k1, k2]
            exact fun hy => by simpa [Expr.indexeds] using Expr.mem_indexeds_mulS hy
          · simp only [if_true, Scaling.product, Expr.doit, List.map_append]
            have i1 := congrArg Indexed.ix k1
            have i2 := congrArg Indexed.ix k2
            simp only at i1 i2
            rw [i1, i2]
            exact id
      · simp [Expr.indexeds] at hy
    · exfalso
      simp only [h0, if_false] at hy
      simp [Expr.mulS, Expr.indexeds] at hy
  unfold termBody at hx
  simp only [mul_def] at hx
  cases e1 : b.useDecHel <;> cases e2 : b.useProdHel <;>
    simp only [e1, e2, Bool.false_eq_true, if_false, if_true, Expr.doit] at hx
  · rcases Expr.mem_indexeds_mulS hx with hx | hx
    · rcases Expr.mem_indexeds_mulS hx with hx | hx
      · exact hsub x hx
      · rw [hdec] at hx; simp at hx
    · rw [hprod] at hx; simp at hx
  · rcases Expr.mem_indexeds_mulS hx with hx | hx
    · exact hsub x hx
    · rw [hdec] at hx; simp at hx
  · rcases Expr.mem_indexeds_mulS hx with hx | hx
    · exact hsub x hx
    · rw [hprod] at hx; simp at hx
  · exact hsub x hx

theorem massParams_get?_idx (d : Decay) (x : Indexed) :
    PyDict.get? (massParams (massDict d)).reverse (.idx x) = none := by
  rw [PyDict.get?_eq_none]
  simp [massParams, massDict, PyDict.keys]

/-- C27: every coupling or coefficient symbol that remains in an amplitude after unfolding the sums
and evaluating the Kronecker deltas has a default value, and this value is 1, in every basis and
with or without `use_coefficients`. Lineshapes are assumed to contain no indexed symbols of their
own, neither in the expression nor in the parameters. -/
theorem C27_coupling_defaults (hd : Standard b.decay) (hdyn : Lineshapes b dyn)
    (hr : RefOk reference) (h : b.formulate reference cl uc = .ok m)
    (hl : ∀ c ∈ b.decay.chains, (dyn c).expression.indexeds = [])
    (hp : ∀ c ∈ b.decay.chains, ∀ y, Key.idx y ∉ PyDict.keys (dyn c).parameters)
    {a : Indexed} {e : Expr} (ha : (a, e) ∈ m.amplitudes) {x : Indexed}
    (hx : x ∈ (e.doit fun _ => none).indexeds) :
    ∃ v, PyDict.get? m.parameterDefaults (.idx x) = some v ∧ v.toC = 1 := by
  obtain ⟨ref, P, -, -, -, rfl, hP⟩ := formulate_inv hd hdyn hr h
  have hkeys : a ∈ PyDict.keys (result b dyn ref cl uc P).amplitudes := List.mem_map.2 ⟨_, ha, rfl⟩
  obtain ⟨k, l, hk, hl', rfl⟩ := (amp_keys ref P a).1 hkeys
  have hg := PyDict.get?_of_mem (amp_nodup ref P) ha
  rw [amp_get? ref P hk hl'] at hg
  cases hg
  unfold ampExpr at hx
  rw [doit_addAll, Expr.mem_indexeds_addAll] at hx
  obtain ⟨e, he, hx⟩ := hx
  obtain ⟨e', he', rfl⟩ := List.mem_map.1 he
  obtain ⟨c, hc, rfl⟩ := List.mem_map.1 he'
  obtain ⟨lR, hR, h0, hx⟩ := ampTerm_indexeds (hl c (List.mem_filter.1 hc).1) hx
  have hmem := mem_ampItems (dyn := dyn) hc hR h0 hx
  have hPk : Key.idx x ∈ PyDict.keys (PyDict.ofItems ((pairs b).flatMap fun x =>
      ampItems b dyn uc x.2 x.1)) := by
    rw [PyDict.ofItems, PyDict.mem_keys_update]
    right
    rw [PyDict.keys, List.map_flatMap, List.mem_flatMap]
    exact ⟨(l, k), (mem_pairs _).2 ⟨hl', hk⟩, hmem⟩
  obtain ⟨v, hv⟩ := PyDict.mem_keys_iff.1 hPk
  refine ⟨v, ?_, ?_⟩
  · change PyDict.get? (P.update (massParams (massDict b.decay))) (.idx x) = some v
    rw [PyDict.get?_update, massParams_get?_idx, hP, hv]; rfl
  · rcases get?_update_mem hv with hv | hv
    · rw [List.mem_flatMap] at hv
      obtain ⟨y, -, hy⟩ := hv
      exact ampItems_val hp hy
    · simp at hv

/-- The production coupling of the `K*` survives in `A^1[1/2, 1/2, 0, 0]`. -/
theorem ex_coupling_survives :
    (⟨"\\mathcal{H}^\\mathrm{production}", some "K^*", [.num 1, .num (1/2)]⟩ : Indexed) ∈
      ((ampExpr (exBuilder true true false) (fun _ => {}) false 1 (1/2, 1/2, 0, 0)).doit
        fun _ => none).indexeds := by
  unfold ampExpr
  rw [doit_addAll, Expr.mem_indexeds_addAll]
  have hc : exChainK ∈ chainsOf (exBuilder true true false).decay 1 :=
    List.mem_filter.2 ⟨by simp [exBuilder, exDecay], rfl⟩
  refine ⟨_, List.mem_map.2 ⟨_, List.mem_map.2 ⟨exChainK, hc, rfl⟩, rfl⟩, ?_⟩
  unfold ampTerm
  rw [Expr.doit, Expr.mem_indexeds_addAll]
  have h1 : (1 : ℚ) ∈ createSpinRange exChainK.resonance.toP.spin := by
    have : exChainK.resonance.toP.spin = 1 := rfl
    rw [this, mem_spinRange ⟨2, by norm_num⟩]
    exact ⟨by norm_num, le_refl _, 0, by norm_num⟩
  refine ⟨_, List.mem_map.2 ⟨[(lambdaR, 1)], ?_, rfl⟩, ?_⟩
  · simp only [combos, List.map_cons, List.map_nil, List.mem_flatMap, List.mem_singleton]
    exact ⟨1, h1, rfl⟩
  · have h2 : lamOf ((1/2, 1/2, 0, 0) : ℚ × ℚ × ℚ × ℚ) 0 = 1/2 := rfl
    have h3 : lamOf ((1/2, 1/2, 0, 0) : ℚ × ℚ × ℚ × ℚ) 1 = 1/2 := rfl
    have h4 : (1/2 : ℚ) = 1 - 1/2 := by norm_num
    have hs : override some (fun _ => none) [(lambdaR, (1:ℚ))] lambdaR = some 1 := by
      rw [override_some]; simp [look_cons]
    unfold termBody
    simp only [exBuilder, if_true, subAmpExpr, scalingOf, Bool.false_eq_true, if_false,
      Scaling.product, Expr.doit, Hel.subst, hs, h2, h3, couplingOf, couplingBase]
    rw [if_pos h4]
    simp [Expr.mulS, Expr.indexeds, Hel.subst, hs, exChainK, Obj.toP]

example : ∃ m a e x, (exBuilder true true false).formulate (some 1) true false = .ok m ∧
    (a, e) ∈ m.amplitudes ∧ x ∈ (e.doit fun _ => none).indexeds := by
  have hM : ¬ Missing (exBuilder true true false) := by
    rw [missing_iff (b := exBuilder true true false) exDecay_standard]
    rintro ⟨-, c, hc, h⟩
    exact h (exBuilder_ls _ _ _ hc)
  obtain ⟨P, hP, -⟩ := formulate_ok (b := exBuilder true true false) (reference := some 1)
    exDecay_standard (exBuilder_lineshapes _ _ _) (ref := 1) rfl (by simp) true false hM
  refine ⟨_, ampKey 1 (1/2, 1/2, 0, 0), _, _, hP, ?_, ex_coupling_survives⟩
  apply PyDict.mem_of_get?
  apply amp_get?
  · exact ((C18_partition exDecay_valid).1 1).2 ⟨exChainK, by simp [exDecay], rfl⟩
  · rw [mem_helicityTuples (d := (exBuilder true true false).decay) exDecay_standard]
    have h0 : exDecay.spin 0 = 1/2 := rfl
    have h1 : exDecay.spin 1 = 1/2 := rfl
    have h2 : exDecay.spin 2 = 0 := rfl
    have h3 : exDecay.spin 3 = 0 := rfl
    intro i hi
    simp only [List.mem_cons, List.not_mem_nil, or_false] at hi
    rcases hi with rfl | rfl | rfl | rfl
    · change Projection (exDecay.spin 0) (1/2); rw [h0]
      exact ⟨by norm_num, le_refl _, 0, by norm_num⟩
    · change Projection (exDecay.spin 1) (1/2); rw [h1]
      exact ⟨by norm_num, le_refl _, 0, by norm_num⟩
    · change Projection (exDecay.spin 2) 0; rw [h2]
      exact ⟨by norm_num, le_refl _, 0, by norm_num⟩
    · change Projection (exDecay.spin 3) 0; rw [h3]
      exact ⟨by norm_num, le_refl _, 0, by norm_num⟩

/-! ### C33 -/

theorem massSym_inj {i j : ℤ} (h : massSym i = massSym j) : i = j := by
  simp only [massSym, Sym.mk.injEq, and_true] at h
  apply toString_int_inj
  have := congrArg String.toList h
  simp only [String.toList_append] at this
  exact String.ext (List.append_cancel_left this)

/-- C33: `masses` maps `m0`, ..., `m3` to the masses of the states, in this order; these values
override defaults of the dynamics; each expression in `invariants` says that the sum of the
Mandelstam variables is the sum of the squared masses. -/
theorem C33_masses (hd : Standard b.decay) (hdyn : Lineshapes b dyn) (hr : RefOk reference)
    (h : b.formulate reference cl uc = .ok m) :
    m.masses = ([0, 1, 2, 3] : List ℤ).map (fun i =>
      ((⟨"m" ++ toString i, .nonneg⟩ : Sym), (b.decay.st i).mass)) ∧
    (∀ i ∈ ([0, 1, 2, 3] : List ℤ), PyDict.get? m.parameterDefaults
      (.sym ⟨"m" ++ toString i, .nonneg⟩) = some (.real (b.decay.st i).mass)) ∧
    PyDict.keys m.invariants = ([1, 2, 3] : List ℤ).map (fun i =>
      (⟨"sigma" ++ toString i, .nonneg⟩ : Sym)) ∧
    ∀ x ∈ m.invariants, ∀ ρ : Sym → ℝ, (some (ρ x.1) = x.2.eval ρ ↔
      ρ ⟨"sigma1", .nonneg⟩ + ρ ⟨"sigma2", .nonneg⟩ + ρ ⟨"sigma3", .nonneg⟩ =
      ρ ⟨"m0", .nonneg⟩ ^ 2 + ρ ⟨"m1", .nonneg⟩ ^ 2 + ρ ⟨"m2", .nonneg⟩ ^ 2 +
        ρ ⟨"m3", .nonneg⟩ ^ 2) := by
  obtain ⟨ref, P, -, -, -, rfl, hP⟩ := formulate_inv hd hdyn hr h
  refine ⟨rfl, ?_, rfl, ?_⟩
  · intro i hi
    change PyDict.get? (P.update (massParams (massDict b.decay))) (.sym (massSym i)) = _
    have h1 : PyDict.get? (massParams (massDict b.decay)).reverse (.sym (massSym i)) =
        some (.real (b.decay.st i).mass) := by
      simp only [massParams, massDict, List.map_cons, List.map_nil, List.reverse_cons,
        List.reverse_nil, List.nil_append, List.cons_append, PyDict.get?_cons, Key.sym.injEq,
        PyDict.get?_nil]
      have hinj : ∀ a : ℤ, (massSym a = massSym i) = (a = i) := fun a =>
        propext ⟨massSym_inj, fun h => by rw [h]⟩
      simp only [hinj]
      simp only [List.mem_cons, List.not_mem_nil, or_false] at hi
      rcases hi with rfl | rfl | rfl | rfl <;> rfl
    rw [PyDict.get?_update, h1]; rfl
  · intro x hx ρ
    have hx' : x = (⟨"sigma1", .nonneg⟩, thirdExpr 2 3) ∨ x = (⟨"sigma2", .nonneg⟩, thirdExpr 3 1) ∨
        x = (⟨"sigma3", .nonneg⟩, thirdExpr 1 2) := by simpa [result] using hx
    have hm : ∀ x y : ℤ, (thirdExpr x y).eval ρ = ρ ⟨"m0", .nonneg⟩ ^ 2 + ρ ⟨"m1", .nonneg⟩ ^ 2 +
        ρ ⟨"m2", .nonneg⟩ ^ 2 + ρ ⟨"m3", .nonneg⟩ ^ 2 - ρ ⟨"sigma" ++ toString x, .nonneg⟩ -
        ρ ⟨"sigma" ++ toString y, .nonneg⟩ := fun x y => rfl
    have s1 : ("sigma" ++ toString (1:ℤ)) = "sigma1" := rfl
    have s2 : ("sigma" ++ toString (2:ℤ)) = "sigma2" := rfl
    have s3 : ("sigma" ++ toString (3:ℤ)) = "sigma3" := rfl
    rcases hx' with rfl | rfl | rfl <;> simp only [hm, s1, s2, s3, Option.some.injEq] <;>
      constructor <;> intro h <;> linarith

example : ∃ m, (exBuilder true false false).formulate (some 1) true true = .ok m ∧
    m.masses.map Prod.snd = [2, 1, 1/7, 1/2] := by
  obtain ⟨m, hm⟩ := exBuilder_ok true false false true true
  refine ⟨m, hm, ?_⟩
  rw [(C33_masses exDecay_standard (exBuilder_lineshapes _ _ _) (by simp [RefOk]) hm).1]
  rfl

/-! ### C28 -/

theorem thetaSym_ne_zetaSym (i j a k r : ℤ) : thetaSym i j ≠ zetaSym a k r := by
  intro h
  have := congrArg (fun s : Sym => s.name.toList.head?) h
  simp [thetaSym, zetaSym, String.toList_append] at this

theorem angle_get?_theta {ref : ℤ} {P : PyDict Key Val} (hd : Standard b.decay) {k : ℤ}
    {l : ℚ × ℚ × ℚ × ℚ} (hk : k ∈ b.subsystems) (hl : l ∈ helicityTuples (spins b.decay)) :
    PyDict.get? (result b dyn ref cl uc P).angleDefs (thetaSym (prodIds k).1 (prodIds k).2) =
      some (thetaExpr k) := by
  change PyDict.get? (PyDict.update _ (PyDict.ofItems _)) _ = _
  rw [get?_update_ofItems, PyDict.get?_update]
  have h1 : PyDict.get? (b.decay.subsystemIds.flatMap (alignItems ref (spins b.decay))).reverse
      (thetaSym (prodIds k).1 (prodIds k).2) = none := by
    rw [PyDict.get?_eq_none]
    intro hmem
    simp only [PyDict.keys, List.mem_map, List.mem_reverse, List.mem_flatMap, alignItems] at hmem
    obtain ⟨x, ⟨k', -, i, -, hx⟩, hx'⟩ := hmem
    unfold wigItems at hx
    split at hx
    · simp at hx
    · simp only [List.mem_singleton] at hx
      subst hx
      exact thetaSym_ne_zetaSym _ _ _ _ _ hx'.symm
  rw [h1]
  have := get?_ofItems_map (pairs b) (fun x => thetaSym (prodIds x.2).1 (prodIds x.2).2)
    (fun x => thetaExpr x.2) (by
      intro x hx y hy hxy
      have hx' := Standard.subsystems hd ((mem_pairs x).1 hx).2
      have hy' := Standard.subsystems hd ((mem_pairs y).1 hy).2
      have : ∀ k ∈ ([1, 2, 3] : List ℤ), ∀ k' ∈ ([1, 2, 3] : List ℤ),
          thetaSym (prodIds k).1 (prodIds k).2 = thetaSym (prodIds k').1 (prodIds k').2 →
          k = k' := by decide
      rw [this _ hx' _ hy' hxy]) ((mem_pairs (l, k)).2 ⟨hl, hk⟩)
  simpa using this

theorem angle_get?_zeta {ref : ℤ} {P : PyDict Key Val} (hd : Standard b.decay)
    (hr : ref ∈ ([1, 2, 3] : List ℤ)) {i k : ℤ} (hi : i ∈ ([0, 1, 2, 3] : List ℤ))
    (hk : k ∈ b.decay.subsystemIds) (hj : spins b.decay i ≠ 0) :
    PyDict.get? (result b dyn ref cl uc P).angleDefs (zetaSym i k ref) =
      some (zetaExpr i k ref) := by
  change PyDict.get? (PyDict.update _ (PyDict.ofItems _)) _ = _
  have hmem : ((zetaSym i k ref, zetaExpr i k ref) : Sym × RExpr) ∈
      b.decay.subsystemIds.flatMap (alignItems ref (spins b.decay)) := by
    rw [List.mem_flatMap]
    refine ⟨k, hk, ?_⟩
    unfold alignItems
    rw [List.mem_flatMap]
    refine ⟨i, hi, ?_⟩
    unfold wigItems
    rw [if_neg hj]; simp
  rw [get?_update_ofItems]
  have hk' : zetaSym i k ref ∈ PyDict.keys ((PyDict.ofItems ((pairs b).map fun x =>
      (thetaSym (prodIds x.2).1 (prodIds x.2).2, thetaExpr x.2))).update
      (b.decay.subsystemIds.flatMap (alignItems ref (spins b.decay)))) := by
    rw [PyDict.mem_keys_update]
    exact .inr (List.mem_map.2 ⟨_, hmem, rfl⟩)
  obtain ⟨v, hv⟩ := PyDict.mem_keys_iff.1 hk'
  rw [hv]
  rcases get?_update_mem hv with h | h
  · rw [List.mem_flatMap] at h
    obtain ⟨k', hk', h⟩ := h
    unfold alignItems at h
    rw [List.mem_flatMap] at h
    obtain ⟨i', hi', h⟩ := h
    unfold wigItems at h
    split at h
    · simp at h
    · simp only [List.mem_singleton, Prod.mk.injEq] at h
      obtain ⟨hs, rfl⟩ := h
      have e1 := zeta_eq hi (Standard.subsystem hd hk) hr
      have e2 := zeta_eq hi' (Standard.subsystem hd hk') hr
      rw [← hs] at e2
      obtain ⟨rfl, rfl, -⟩ := C13_zeta_symbols_injective e1 e2
      rfl
  · have := PyDict.mem_keys_iff.2 ⟨v, h⟩
    rw [keys_ofItems_map] at this
    obtain ⟨x, -, hx⟩ := this
    exact absurd hx (thetaSym_ne_zetaSym _ _ _ _ _)

theorem wigAngles_addAll (l : List Expr) (s : Sym) :
    s ∈ wigAngles (Expr.addAll l) ↔ ∃ e ∈ l, s ∈ wigAngles e := by
  induction l with
  | nil => simp [Expr.addAll, wigAngles]
  | cons e t ih => simp [Expr.addAll, wigAngles, ih]

theorem wigAngles_substHel (e : Expr) : ∀ η, wigAngles (e.substHel η) = wigAngles e := by
  induction e with
  | num | I | sym | phase | wig | cg | idx | kron => intro η; rfl
  | mul a b iha ihb | add a b iha ihb | sub a b iha ihb | div a b iha ihb =>
    intro η; simp only [Expr.substHel, wigAngles, iha, ihb]
  | neg a iha | pow a n iha | sqrt a iha | exp a iha | abs a iha =>
    intro η; simp only [Expr.substHel, wigAngles, iha]
  | ff a b c L d h1 h2 h3 h4 => intro η; simp only [Expr.substHel, wigAngles, h1, h2, h3, h4]
  | edw a b c d e L f p h1 h2 h3 h4 h5 h6 =>
    intro η; simp only [Expr.substHel, wigAngles, h1, h2, h3, h4, h5, h6]
  | bmom a b c h1 h2 h3 => intro η; simp only [Expr.substHel, wigAngles, h1, h2, h3]
  | psum body ixs ih => intro η; simp only [Expr.substHel, wigAngles, ih]

theorem wigAngles_cleanup (e : Expr) : wigAngles e.cleanup = wigAngles e := by
  cases e with
  | psum body ixs =>
    rw [cleanup_psum]
    split <;> simp only [wigAngles, wigAngles_substHel]
  | _ => rfl

theorem wigAngles_alignTerm {ref : ℤ} {j : ℤ → ℚ} {h : ℤ → Hel} {k : ℤ} {s : Sym}
    (hs : s ∈ wigAngles (alignTerm ref j h k)) :
    ∃ i ∈ ([0, 1, 2, 3] : List ℤ), j i ≠ 0 ∧ s = zetaSym i k ref := by
  have hw : ∀ i m mp, s ∈ wigAngles (wigFactor ref (j i) m mp i k) → j i ≠ 0 ∧ s = zetaSym i k ref := by
    intro i m mp hs
    unfold wigFactor at hs
    split at hs
    · simp [wigAngles] at hs
    · exact ⟨by assumption, by simpa [wigAngles] using hs⟩
  unfold alignTerm at hs
  simp only [wigAngles, List.mem_append, List.not_mem_nil, false_or] at hs
  rcases hs with ((hs | hs) | hs) | hs
  · exact ⟨0, by simp, hw _ _ _ hs⟩
  · exact ⟨1, by simp, hw _ _ _ hs⟩
  · exact ⟨2, by simp, hw _ _ _ hs⟩
  · exact ⟨3, by simp, hw _ _ _ hs⟩

theorem prodIds_even {k : ℤ} (hk : k ∈ ([1, 2, 3] : List ℤ)) :
    EvenPerm (prodIds k).1 (prodIds k).2 k := by
  simp only [List.mem_cons, List.not_mem_nil, or_false] at hk
  rcases hk with rfl | rfl | rfl
  · exact .inr (.inl rfl)
  · exact .inr (.inr rfl)
  · exact .inl rfl

/-- C28: every angle symbol in an amplitude `A^k` is the scattering angle of the decay products
`i, j` of subsystem `k`; every angle symbol in the intensity is an alignment angle of a state with
spin, a populated subsystem and the reference subsystem; each is defined in the model by the
expression of the angle functions for the same IDs. -/
theorem C28_angles_defined (hd : Standard b.decay) (hdyn : Lineshapes b dyn) (hr : RefOk reference)
    (h : b.formulate reference cl uc = .ok m)
    (hl : ∀ c ∈ b.decay.chains, wigAngles (dyn c).expression = []) :
    (∀ a ∈ m.amplitudes, ∀ s ∈ wigAngles a.2, ∃ i j k e, EvenPerm i j k ∧
      a.1.base = "A^" ++ toString k ∧ formulateScatteringAngle i j = .ok (s, e) ∧
      PyDict.get? m.angleDefs s = some e) ∧
    (∀ s ∈ wigAngles m.intensity, ∃ ref i k e, UsedRef b reference ref ∧
      i ∈ ([0, 1, 2, 3] : List ℤ) ∧ b.decay.spin i ≠ 0 ∧
      (∃ c ∈ b.decay.chains, c.spectator.index = k) ∧
      formulateZetaAngle i k ref = .ok (s, e) ∧ PyDict.get? m.angleDefs s = some e) := by
  obtain ⟨ref, P, href, hr', -, rfl, -⟩ := formulate_inv hd hdyn hr h
  constructor
  · rintro ⟨a, e⟩ ha s hs
    have hkeys : a ∈ PyDict.keys (result b dyn ref cl uc P).amplitudes :=
      List.mem_map.2 ⟨_, ha, rfl⟩
    obtain ⟨k, l, hk, hl', rfl⟩ := (amp_keys ref P a).1 hkeys
    have hg := PyDict.get?_of_mem (amp_nodup ref P) ha
    rw [amp_get? ref P hk hl'] at hg
    cases hg
    have hk3 := Standard.subsystems hd hk
    refine ⟨(prodIds k).1, (prodIds k).2, k, thetaExpr k, prodIds_even hk3, rfl, ?_⟩
    have : s = thetaSym (prodIds k).1 (prodIds k).2 := by
      simp only [ampExpr] at hs
      rw [wigAngles_addAll] at hs
      obtain ⟨e, he, hs⟩ := hs
      obtain ⟨c, hc, rfl⟩ := List.mem_map.1 he
      have hl1 := hl c (List.mem_filter.1 hc).1
      have h1 : wigAngles (decCG c (lamOf l)) = [] := rfl
      have h2 : wigAngles (prodCG c (lamOf l) k) = [] := by
        unfold prodCG; simp only; split <;> rfl
      have h3 : ∀ sc : Scaling, wigAngles sc.product = [] := by
        intro sc; cases sc <;> rfl
      unfold ampTerm termBody at hs
      simp only [mul_def] at hs
      cases e1 : b.useDecHel <;> cases e2 : b.useProdHel <;>
        simpa [wigAngles, subAmpExpr, h1, h2, h3, e1, e2, hl1] using hs
    subst this
    exact ⟨theta_eq hk3, angle_get?_theta hd hk hl'⟩
  · intro s hs
    rw [intensity_eq] at hs
    simp only [wigAngles] at hs
    have hs' : s ∈ wigAngles (alignedExpr b ref fun i => .sym (lambdaSym i)) := by
      cases cl
      · simpa using hs
      · simpa [wigAngles_cleanup] using hs
    simp only [alignedExpr, wigAngles] at hs'
    rw [wigAngles_addAll] at hs'
    obtain ⟨e, he, hs'⟩ := hs'
    obtain ⟨k, hk, rfl⟩ := List.mem_map.1 he
    obtain ⟨i, hi, hj, rfl⟩ := wigAngles_alignTerm hs'
    exact ⟨ref, i, k, zetaExpr i k ref, href, hi, by rw [← spins_eq _ hi]; exact hj,
      ((C18_partition hd.valid).1 k).1 hk, zeta_eq hi (Standard.subsystem hd hk) hr',
      angle_get?_zeta hd hr' hi hk hj⟩

/-- C28: the model defines no other angles; in particular none for spinless states. -/
theorem C28_only_these (hd : Standard b.decay) (hdyn : Lineshapes b dyn) (hr : RefOk reference)
    (h : b.formulate reference cl uc = .ok m) {s : Sym} (hs : s ∈ PyDict.keys m.angleDefs) :
    (∃ i j k e, EvenPerm i j k ∧ Selected b k ∧ formulateScatteringAngle i j = .ok (s, e)) ∨
    ∃ ref i k e, UsedRef b reference ref ∧ i ∈ ([0, 1, 2, 3] : List ℤ) ∧ b.decay.spin i ≠ 0 ∧
      (∃ c ∈ b.decay.chains, c.spectator.index = k) ∧
      formulateZetaAngle i k ref = .ok (s, e) := by
  obtain ⟨ref, P, href, hr', -, rfl, -⟩ := formulate_inv hd hdyn hr h
  change s ∈ PyDict.keys (PyDict.update _ (PyDict.ofItems _)) at hs
  rw [update_ofItems_keys, keys_ofItems_map] at hs
  rcases hs with ⟨x, hx, rfl⟩ | hs
  · left
    have hk := ((mem_pairs x).1 hx).2
    have hk3 := Standard.subsystems hd hk
    exact ⟨_, _, x.2, _, prodIds_even hk3, (selected_iff hd _).1 hk, theta_eq hk3⟩
  · right
    obtain ⟨y, hy, rfl⟩ := List.mem_map.1 hs
    rw [List.mem_flatMap] at hy
    obtain ⟨k, hk, hy⟩ := hy
    unfold alignItems at hy
    rw [List.mem_flatMap] at hy
    obtain ⟨i, hi, hy⟩ := hy
    unfold wigItems at hy
    split at hy
    · simp at hy
    · rename_i hj
      simp only [List.mem_singleton] at hy
      subst hy
      exact ⟨ref, i, k, _, href, hi, by rw [← spins_eq _ hi]; exact hj,
        ((C18_partition hd.valid).1 k).1 hk, zeta_eq hi (Standard.subsystem hd hk) hr'⟩

example : ∃ m, (exBuilder true true true).formulate (some 1) false false = .ok m ∧
    (⟨"\\zeta^1_{2(1)}", .real⟩ : Sym) ∈ wigAngles m.intensity ∧
    (⟨"theta_31", .real⟩ : Sym) ∈ PyDict.keys m.angleDefs := by
  have hM : ¬ Missing (exBuilder true true true) := by
    rw [missing_iff (b := exBuilder true true true) exDecay_standard]
    rintro ⟨-, c, hc, h⟩
    exact h (exBuilder_ls _ _ _ hc)
  obtain ⟨P, hP, -⟩ := formulate_ok (b := exBuilder true true true) (reference := some 1)
    exDecay_standard (exBuilder_lineshapes _ _ _) (ref := 1) rfl (by simp) false false hM
  refine ⟨_, hP, ?_, ?_⟩
  · rw [intensity_eq]
    have h2 : (2 : ℤ) ∈ (exBuilder true true true).decay.subsystemIds :=
      ((C18_partition exDecay_valid).1 2).2 ⟨exChainL, by simp [exDecay], rfl⟩
    simp only [wigAngles, Bool.false_eq_true, if_false, alignedExpr]
    rw [wigAngles_addAll]
    refine ⟨_, List.mem_map.2 ⟨2, h2, rfl⟩, ?_⟩
    have hj : spins exDecay 1 ≠ 0 := by
      rw [spins_eq exDecay (by simp)]
      norm_num [Decay.spin, Decay.st, exDecay, exStates, PyDict.get?, exState]
    unfold alignTerm
    simp only [wigAngles, List.mem_append]
    left; left; right
    change _ ∈ wigAngles (wigFactor 1 (spins exDecay 1) _ _ 1 2)
    unfold wigFactor
    rw [if_neg hj]
    exact List.mem_singleton.2 rfl
  · obtain ⟨l, hl⟩ := exists_projections exDecay_standard exDecay_nonneg
    have hl' : (l 0, l 1, l 2, l 3) ∈ helicityTuples (spins (exBuilder true true true).decay) := by
      rw [mem_helicityTuples (d := (exBuilder true true true).decay) exDecay_standard]
      intro i hi
      have := hl i hi
      simp only [List.mem_cons, List.not_mem_nil, or_false] at hi
      rcases hi with rfl | rfl | rfl | rfl <;> exact this
    exact PyDict.mem_keys_iff.2 ⟨_, angle_get?_theta (k := 2) exDecay_standard
      (by simp [Builder.subsystems, exBuilder]) hl'⟩

/-! ### C23 -/

/-- The builder object after further registrations. -/
def Builder.withDynamics (b : Builder) (cfg : Configurator DynBuilder) : Builder :=
  { b with dynamics := cfg }

theorem chainTerm_congr {b : Builder} {cfg : Configurator DynBuilder}
    (h : ∀ s, cfg.getBuilder unitDynamics (.name s) = b.dynamics.getBuilder unitDynamics (.name s))
    (final : PyDict ℤ State) (lam spin : ℤ → ℚ) (i j k : ℤ) (θ : Sym) (uc : Bool) (c : Chain)
    (params : PyDict Key Val) :
    chainTerm (b.withDynamics cfg) final lam spin i j k θ uc c params =
      chainTerm b final lam spin i j k θ uc c params := by
  have hl : ∀ (l : List ℚ) (acc : PyDict Key Val),
      lambdaRLoop (b.withDynamics cfg) c lam i j k uc l acc = lambdaRLoop b c lam i j k uc l acc := by
    intro l
    induction l with
    | nil => intro acc; rfl
    | cons x t ih =>
      intro acc
      unfold lambdaRLoop
      simp only [ih]
      rfl
  unfold chainTerm
  rw [show (b.withDynamics cfg).dynamics = cfg from rfl, h]
  simp only [hl]
  rfl

theorem formulate_congr {b : Builder} {cfg : Configurator DynBuilder}
    (h : ∀ s, cfg.getBuilder unitDynamics (.name s) = b.dynamics.getBuilder unitDynamics (.name s))
    (reference : Option ℤ) (cl uc : Bool) :
    (b.withDynamics cfg).formulate reference cl uc = b.formulate reference cl uc := by
  have h1 : ∀ final lam spin i j k θ (cs : List Chain) params,
      chainLoop (b.withDynamics cfg) final lam spin i j k θ uc cs params =
        chainLoop b final lam spin i j k θ uc cs params := by
    intro final lam spin i j k θ cs
    induction cs with
    | nil => intro params; rfl
    | cons c t ih =>
      intro params
      unfold chainLoop
      simp only [chainTerm_congr h, ih]
  have h2 : ∀ l0 l1 l2 l3 k, (b.withDynamics cfg).subsystemAmplitude l0 l1 l2 l3 k uc =
      b.subsystemAmplitude l0 l1 l2 l3 k uc := by
    intro l0 l1 l2 l3 k
    unfold Builder.subsystemAmplitude
    simp only [h1]
    rfl
  have h3 : ∀ ps acc, subsystemLoop (b.withDynamics cfg) uc ps acc = subsystemLoop b uc ps acc := by
    intro ps
    induction ps with
    | nil => intro acc; rfl
    | cons x t ih =>
      intro acc
      unfold subsystemLoop
      simp only [h2, ih]
  unfold Builder.formulate
  simp only [h3]
  rfl

/-- C23 fails in general: the registration for a chain that is not the first chain with its resonance
name never has an effect on the formulated model. -/
theorem C23_shadowed_chain_ignored {c : Chain} (hc : c ∈ b.decay.chains)
    (hcfg : b.dynamics.decay = b.decay)
    (hn : ¬ Denotes b.decay (.name c.resonance.toP.name) c) (g : DynBuilder)
    (reference : Option ℤ) (cl uc : Bool) :
    (b.dynamics.registerBuilder (.chain c) g).1 = .ok () ∧
    (b.dynamics.registerBuilder (.chain c) g).2.getBuilder unitDynamics (.chain c) = .ok g ∧
    (b.withDynamics (b.dynamics.registerBuilder (.chain c) g).2).formulate reference cl uc =
      b.formulate reference cl uc := by
  have hget : b.dynamics.getChain (.chain c) = .ok c := by
    simp [Configurator.getChain, hcfg, hc]
  have hreg : b.dynamics.registerBuilder (.chain c) g =
      (.ok (), { b.dynamics with builders := b.dynamics.builders.set c g }) := by
    unfold Configurator.registerBuilder; rw [hget]
  refine ⟨by rw [hreg], ?_, ?_⟩
  · rw [hreg]
    simp [Configurator.getBuilder, Configurator.getChain, hcfg, hc, PyDict.get?_set, bind,
      Except.bind, pure, Except.pure]
  · apply formulate_congr
    intro s
    rw [hreg]
    unfold Configurator.getBuilder
    change (do
      let c' ← b.dynamics.getChain (.name s)
      pure ((PyDict.get? (b.dynamics.builders.set c g) c').getD unitDynamics)) = _
    cases hs : b.dynamics.getChain (.name s) with
    | error e => rfl
    | ok c' =>
      have hd := (getChain_iff b.dynamics (.name s) c').1 hs
      have hne : c ≠ c' := by
        rintro rfl
        rw [hcfg] at hd
        apply hn
        cases hd with
        | name pre _ post h1 h2 => exact .name pre c post h1 h2
      simp only [bind, Except.bind, pure, Except.pure, PyDict.get?_set, if_neg hne]

/-- C23 where it holds: if chains with the same resonance name are equal, the lineshape of every chain
in the formulated model is what the builder most recently registered for that chain returns, or 1 if
there is none. (With repeated names this is false, see `C23_shadowed_chain_ignored`.) -/
theorem C23_registered_dynamics_partial {d : Decay} {history : List (Ident × DynBuilder)}
    (hb : b.decay = d ∧ b.dynamics = (Configurator.init d).run history)
    (huniq : ∀ c ∈ d.chains, ∀ c' ∈ d.chains,
      c.resonance.toP.name = c'.resonance.toP.name → c = c')
    (hdyn : ∀ c ∈ d.chains, (∀ g, LastRegistered d history c g → g c = .ok (dyn c)) ∧
      ((∀ g, ¬ LastRegistered d history c g) → dyn c = {})) :
    Lineshapes b dyn := by
  obtain ⟨rfl, hcfg⟩ := hb
  intro c hc
  have hden : Denotes b.decay (.name c.resonance.toP.name) c := by
    obtain ⟨pre, post, hsplit⟩ := List.append_of_mem hc
    by_cases hp : ∃ x ∈ pre, x.resonance.toP.name = c.resonance.toP.name
    · -- the first chain with this name is equal to `c`
      obtain ⟨c', hc'⟩ : ∃ c', b.decay.findChain c.resonance.toP.name = .ok c' := by
        cases hf : b.decay.findChain c.resonance.toP.name with
        | ok c' => exact ⟨c', rfl⟩
        | error e =>
          exfalso
          unfold Decay.findChain at hf
          cases hf' : b.decay.chains.find? fun c' => c'.resonance.toP.name = c.resonance.toP.name with
          | some c' => rw [hf'] at hf; cases hf
          | none =>
            rw [List.find?_eq_none] at hf'
            exact hf' c hc (by simp)
      have h' := (getChain_iff (Configurator.init b.decay : Configurator DynBuilder)
        (.name c.resonance.toP.name) c').1 hc'
      generalize hnm : c.resonance.toP.name = nm at h'
      cases h' with
      | name pre' _ post' h1 h2 =>
        have : c = c' := huniq c hc c' (by
          change c' ∈ (Configurator.init b.decay : Configurator DynBuilder).decay.chains
          rw [h1]; simp) hnm
        subst this
        exact .name pre' c post' h1 h2
    · push Not at hp
      exact .name pre c post hsplit hp
  rw [hcfg]
  by_cases hreg : ∃ g, LastRegistered b.decay history c g
  · obtain ⟨g, hg⟩ := hreg
    exact ⟨g, (C22_registry b.decay history unitDynamics _ c hden).1 g hg, (hdyn c hc).1 g hg⟩
  · push Not at hreg
    refine ⟨unitDynamics, ?_, ?_⟩
    · have hd : ((Configurator.init b.decay : Configurator DynBuilder).run history).decay = b.decay :=
        run_decay _ _
      have hg : ((Configurator.init b.decay : Configurator DynBuilder).run history).getChain
          (.name c.resonance.toP.name) = .ok c := (getChain_iff _ _ _).2 (by rw [hd]; exact hden)
      unfold Configurator.getBuilder
      rw [hg]
      cases hb : PyDict.get? ((Configurator.init b.decay).run history).builders c with
      | some g => exact absurd ((run_builders b.decay history c g).1 hb) (hreg g)
      | none => simp [hb, bind, Except.bind, pure, Except.pure]
    · rw [(hdyn c hc).2 hreg]; rfl

/-- C28: the only angle in an amplitude of subsystem 1 is `theta_23`. -/
example : ∃ m, (exBuilder true true false).formulate (some 1) true false = .ok m ∧
    ∀ a ∈ m.amplitudes, ∀ s ∈ wigAngles a.2, ∃ i j e, formulateScatteringAngle i j = .ok (s, e) ∧
      PyDict.get? m.angleDefs s = some e := by
  obtain ⟨m, hm⟩ := exBuilder_ok true true false true false
  refine ⟨m, hm, fun a ha s hs => ?_⟩
  obtain ⟨i, j, k, e, -, -, h1, h2⟩ := (C28_angles_defined exDecay_standard (exBuilder_lineshapes _ _ _)
    (by simp [RefOk]) hm (fun _ _ => rfl)).1 a ha s hs
  exact ⟨i, j, e, h1, h2⟩

end Verif.ThreeBody
