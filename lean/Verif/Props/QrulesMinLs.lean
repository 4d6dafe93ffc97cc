import Verif.Proofs.QrulesMin
import Verif.Props.QrulesConvert

/-!
Properties C46 and C47: `filter_min_ls`.
-/
namespace Verif.Qrules
open Verif Verif.ThreeBody

/-! ### Example -/

/-- The converted example transition. -/
def exConv (p d : Option LS) : Transition Obj (Option LS) :=
  ⟨exTopology (-1) 0 3 1 2, exObjs, [(0, p), (1, d)]⟩

theorem exConv_oneResonance (p d : Option LS) : OneResonance (exConv p d) 3 0 1 where
  valid := {
    edges := by simp [exConv, exTopology, PyDict.keys]
    states := by simp [exConv, exObjs, PyDict.keys]
    interactions := by simp [exConv, PyDict.keys]
    sameEdges := fun k => by
      simp only [exConv, exObjs, exTopology, PyDict.keys, List.map_cons, List.map_nil, List.mem_cons,
        List.not_mem_nil, or_false]
    sameNodes := fun k => by simp [exConv, exTopology, PyDict.keys] }
  nodes := rfl
  edge := rfl
  loop := by decide
  only := by
    intro k e he hk
    have := PyDict.mem_of_get? he
    simp only [exConv, exTopology, List.mem_cons, Prod.mk.injEq, List.not_mem_nil, or_false] at this
    rcases this with ⟨_, rfl⟩ | ⟨_, rfl⟩ | ⟨_, rfl⟩ | ⟨_, rfl⟩ | ⟨h, rfl⟩
    · exact .inl rfl
    · exact .inr rfl
    · exact .inr rfl
    · exact .inr rfl
    · exact absurd h hk

/-- The example transitions are what `_convert_transition` returns. -/
example (p d : Option LS) :
    convertTransition (exTransition (p.elim .none .ls) (d.elim .none .ls)) = .ok (exConv p d) :=
  exTransition_convert p d

theorem exConv_sameGroup (sel : List ℤ) (p d p' d' : Option LS) :
    SameGroup sel (exConv p d) (exConv p' d') ↔ (0 ∉ sel → p = p') ∧ (1 ∉ sel → d = d') := by
  constructor
  · rintro ⟨_, _, _, _, _, _, -, -, -, -, h⟩
    exact ⟨fun h0 => by simpa [exConv, PyDict.get?_cons] using h 0 h0,
      fun h0 => by simpa [exConv, PyDict.get?_cons] using h 1 h0⟩
  · rintro ⟨h0, h1⟩
    refine ⟨3, 0, 1, 3, 0, 1, exConv_oneResonance _ _, exConv_oneResonance _ _, rfl,
      fun _ => Iff.rfl, ?_⟩
    intro i hi
    by_cases hi0 : i = 0
    · subst hi0; simp [exConv, PyDict.get?_cons, h0 hi]
    · by_cases hi1 : i = 1
      · subst hi1; simp [exConv, PyDict.get?_cons, h1 hi]
      · simp [exConv, PyDict.get?_cons, Ne.symm hi0, Ne.symm hi1]

/-! ### C46 -/

theorem filterMinLs_eq {E : Type} [DecidableEq E] (ts : List (Transition E (Option LS)))
    (nodeIds : Option (List ℤ)) (hts : ∀ t ∈ ts, ∃ r m n, OneResonance t r m n) (hne : ts ≠ []) :
    filterMinLs ts nodeIds = (do
      let groups ← groupTransitions
        (nodeIds.getD (ts.flatMap fun t => PyDict.keys t.interactions)) ts []
      groups.mapM fun g => minTransition
        (nodeIds.getD (ts.flatMap fun t => PyDict.keys t.interactions)) g.2) := by
  have hnodes : ∀ t ∈ ts, PyDict.keys t.interactions = [0, 1] := by
    intro t ht
    obtain ⟨_, _, _, h⟩ := hts t ht
    exact h.nodes
  have hav : setEq (ts.flatMap fun t => PyDict.keys t.interactions) [0, 1] = true := by
    rw [setEq_iff]
    intro i
    exact sel_mem ts none hnodes hne i
  have hst : ∀ t ∈ ts, ∃ s, t.intermediateStates = .ok s ∧ s.length = 1 := by
    intro t ht
    obtain ⟨_, _, _, h⟩ := hts t ht
    obtain ⟨e, he⟩ := h.state
    exact ⟨_, h.intermediateStates he, rfl⟩
  choose! g hg using hst
  have hm : ts.mapM Transition.intermediateStates = .ok (ts.map g) := by
    rw [mapM_ok_iff, List.forall₂_map_right_iff, List.forall₂_same]
    exact fun t ht => (hg t ht).1
  have hany : ¬ ((ts.map g).any fun x => decide (x.length ≠ 1)) = true := by
    rw [List.any_eq_true]
    rintro ⟨x, hx, hxn⟩
    obtain ⟨u, hu, rfl⟩ := List.mem_map.1 hx
    simp [(hg u hu).2] at hxn
  unfold filterMinLs
  simp only [hav, hm, hany, not_true_eq_false, if_false, bind, Except.bind]
  rfl

/-- C46: `filter_min_ls` returns, for each combination of resonance, decay products and LS couplings of
the nodes that are not selected, exactly one transition, in the order in which the combinations first
occur. At each selected node, its LS coupling is the smallest one of the group (none if a member has
none). At the other nodes it is the one of the group.

`sel` are the selected nodes: both if `node_ids` is `None`. What is missing: if no node is selected and
some transition has no LS coupling at a node, the statement is false, see
`C46_empty_selection_fails`. -/
theorem C46_minimum_per_group_partial {E : Type} [DecidableEq E]
    (ts : List (Transition E (Option LS))) (nodeIds : Option (List ℤ)) (sel : List ℤ)
    (hsel : sel = nodeIds.getD [0, 1])
    (hts : ∀ t ∈ ts, ∃ r m n, OneResonance t r m n) (hne : ts ≠ [])
    (hk : (0 ∈ sel ∨ 1 ∈ sel) ∨ ∀ t ∈ ts, ∀ i, PyDict.get? t.interactions i ≠ some none) :
    ∃ fs rs, filterMinLs ts nodeIds = .ok rs ∧ FirstOfGroups sel ts fs ∧
      List.Forall₂ (IsMinimum sel ts) fs rs := by
  subst hsel
  have hc := sel_mem ts nodeIds (fun t ht => by
    obtain ⟨_, _, _, h⟩ := hts t ht
    exact h.nodes) hne
  obtain ⟨groups, fs, rs, h1, h2, h3, h4⟩ := filter_groups
    (nodeIds.getD (ts.flatMap fun t => PyDict.keys t.interactions)) ts hts hne (by rwa [hc, hc])
  refine ⟨fs, rs, ?_, h3.congr hc, h4.imp fun t r h => h.congr hc⟩
  rw [filterMinLs_eq ts nodeIds hts hne, h1]
  exact h2

/-- Two transitions with two different production couplings form one group. -/
example (x y z : LS) : ∃ fs rs, filterMinLs [exConv (some x) (some z), exConv (some y) (some z)] none
    = .ok rs ∧ FirstOfGroups [0, 1] [exConv (some x) (some z), exConv (some y) (some z)] fs ∧
      List.Forall₂ (IsMinimum [0, 1] [exConv (some x) (some z), exConv (some y) (some z)]) fs rs := by
  refine C46_minimum_per_group_partial _ none _ rfl ?_ (by simp) (.inl (.inl (by simp)))
  intro t ht
  simp only [List.mem_cons, List.not_mem_nil, or_false] at ht
  rcases ht with rfl | rfl <;> exact ⟨3, 0, 1, exConv_oneResonance _ _⟩

theorem IsMinimum.oneResonance {E : Type} {sel : List ℤ} {ts : List (Transition E (Option LS))}
    {f x : Transition E (Option LS)} (hm : IsMinimum sel ts f x) {r m n : ℤ}
    (h : OneResonance f r m n) : OneResonance x r m n := by
  have hn : PyDict.keys x.interactions = [0, 1] := by rw [hm.nodes, h.nodes]
  refine ⟨⟨?_, ?_, ?_, ?_, ?_⟩, hn, ?_, h.loop, ?_⟩
  · rw [hm.topology]; exact h.valid.edges
  · rw [hm.states]; exact h.valid.states
  · rw [hn]; simp
  · rw [hm.topology, hm.states]; exact h.valid.sameEdges
  · rw [hm.topology, hm.nodes]; exact h.valid.sameNodes
  · rw [hm.topology]; exact h.edge
  · rw [hm.topology]; exact h.only

theorem IsMinimum.sameGroup {E : Type} {sel : List ℤ} {ts : List (Transition E (Option LS))}
    {f x f' x' : Transition E (Option LS)} (hm : IsMinimum sel ts f x) (hm' : IsMinimum sel ts f' x')
    (hf : ∃ r m n, OneResonance f r m n) (hf' : ∃ r m n, OneResonance f' r m n)
    (h : SameGroup sel x x') : SameGroup sel f f' := by
  obtain ⟨a, b, c, hf⟩ := hf
  obtain ⟨a', b', c', hf'⟩ := hf'
  obtain ⟨r, m, n, r', m', n', h1, h2, h3, h4, h5⟩ := h
  obtain ⟨rfl, rfl, rfl⟩ := (hm.oneResonance hf).unique h1
  obtain ⟨rfl, rfl, rfl⟩ := (hm'.oneResonance hf').unique h2
  refine ⟨a, b, c, a', b', c', hf, hf', ?_, ?_, ?_⟩
  · rw [← hm.states, ← hm'.states]; exact h3
  · intro k
    have := h4 k
    unfold Leaves at this ⊢
    rwa [hm.topology, hm'.topology] at this
  · intro i hi
    rw [← hm.unselected i hi, ← hm'.unselected i hi]
    exact h5 i hi

theorem SameGroup.refl' {E : Type} (sel : List ℤ) {t : Transition E (Option LS)}
    (h : ∃ r m n, OneResonance t r m n) : SameGroup sel t t := by
  obtain ⟨r, m, n, h⟩ := h
  exact ⟨r, m, n, r, m, n, h, h, rfl, fun _ => Iff.rfl, fun _ _ => rfl⟩

theorem SameGroup.symm' {E : Type} {sel : List ℤ} {t u : Transition E (Option LS)}
    (h : SameGroup sel t u) : SameGroup sel u t := by
  obtain ⟨r, m, n, r', m', n', h1, h2, h3, h4, h5⟩ := h
  exact ⟨r', m', n', r, m, n, h2, h1, h3.symm, fun k => (h4 k).symm, fun i hi => (h5 i hi).symm⟩

/-- A dictionary with keys 0 and 1 is determined by its values. -/
theorem interactions_ext {N : Type} {d d' : PyDict ℤ N} (h : PyDict.keys d = [0, 1])
    (h' : PyDict.keys d' = [0, 1]) (hg : ∀ i, PyDict.get? d i = PyDict.get? d' i) : d = d' := by
  obtain ⟨a, b, rfl⟩ := interactions_eq h
  obtain ⟨a', b', rfl⟩ := interactions_eq h'
  have h0 := hg 0
  have h1 := hg 1
  simp [PyDict.get?_cons] at h0 h1
  rw [h0, h1]

theorem forall₂_pairwise {α β : Type} {R : α → β → Prop} {P : α → α → Prop} {Q : β → β → Prop}
    {l : List α} {l' : List β} (h : List.Forall₂ R l l') (hp : l.Pairwise P)
    (hPQ : ∀ a ∈ l, ∀ b ∈ l, ∀ a' b', R a a' → R b b' → P a b → Q a' b') : l'.Pairwise Q := by
  induction h with
  | nil => exact .nil
  | cons hab hr ih =>
    rename_i a b l l'
    rw [List.pairwise_cons] at hp
    refine .cons ?_ (ih hp.2 fun x hx y hy => hPQ x (.tail _ hx) y (.tail _ hy))
    intro c hc
    obtain ⟨d, hd, hdc⟩ := forall₂_mem_right hr hc
    exact hPQ a (.head _) d (.tail _ hd) b c hab hdc (hp.1 d hd)

/-- C46: `filter_min_ls` is idempotent. -/
theorem C46_idempotent_partial {E : Type} [DecidableEq E] (ts rs : List (Transition E (Option LS)))
    (nodeIds : Option (List ℤ)) (sel : List ℤ) (hsel : sel = nodeIds.getD [0, 1])
    (hts : ∀ t ∈ ts, ∃ r m n, OneResonance t r m n) (hne : ts ≠ [])
    (hk : (0 ∈ sel ∨ 1 ∈ sel) ∨ ∀ t ∈ ts, ∀ i, PyDict.get? t.interactions i ≠ some none)
    (h : filterMinLs ts nodeIds = .ok rs) : filterMinLs rs nodeIds = .ok rs := by
  obtain ⟨fs, rs', hr, hfs, hmin⟩ := C46_minimum_per_group_partial ts nodeIds sel hsel hts hne hk
  have : rs' = rs := by rw [hr] at h; injection h
  subst this
  have hfsub : ∀ f ∈ fs, f ∈ ts := fun f hf => hfs.sublist.subset hf
  have hr1 : ∀ x ∈ rs', ∃ r m n, OneResonance x r m n := by
    intro x hx
    obtain ⟨f, hf, hfx⟩ := forall₂_mem_right hmin hx
    obtain ⟨r, m, n, h⟩ := hts f (hfsub f hf)
    exact ⟨r, m, n, hfx.oneResonance h⟩
  have hne' : rs' ≠ [] := by
    obtain ⟨t, ht⟩ := List.exists_mem_of_ne_nil _ hne
    obtain ⟨f, hf, -⟩ := hfs.all t ht
    obtain ⟨x, hx, -⟩ := forall₂_mem_left hmin hf
    exact List.ne_nil_of_mem hx
  have hk' : (0 ∈ sel ∨ 1 ∈ sel) ∨ ∀ t ∈ rs', ∀ i, PyDict.get? t.interactions i ≠ some none := by
    rcases hk with hk | hk
    · exact .inl hk
    · refine .inr ?_
      intro x hx i
      obtain ⟨f, hf, hfx⟩ := forall₂_mem_right hmin hx
      by_cases hi : i ∈ sel
      · by_cases hik : i ∈ PyDict.keys f.interactions
        · obtain ⟨y, hy, -⟩ := hfx.minimal i hi hik (fun u hu _ => hk u hu i)
          rw [hy]; simp
        · rw [← hfx.nodes, ← PyDict.get?_eq_none] at hik
          rw [hik]; simp
      · rw [hfx.unselected i hi]
        exact hk f (hfsub f hf) i
  obtain ⟨fs2, rs2, hr2, hfs2, hmin2⟩ :=
    C46_minimum_per_group_partial rs' nodeIds sel hsel hr1 hne' hk'
  have hpw : rs'.Pairwise fun t u => ¬ SameGroup sel t u := by
    refine forall₂_pairwise hmin hfs.different ?_
    intro a ha b hb a' b' hR hR' hn hs
    exact hn (hR.sameGroup hR' (hts a (hfsub a ha)) (hts b (hfsub b hb)) hs)
  have hsame : ∀ x ∈ rs', ∀ y ∈ rs', SameGroup sel x y → x = y := by
    intro x hx y hy hs
    by_contra hxy
    have : Std.Symm (fun t u => ¬ SameGroup (E := E) sel t u) := ⟨fun a b hab hba => hab hba.symm'⟩
    exact hpw.forall hx hy hxy hs
  have hnodup : rs'.Nodup := by
    refine hpw.imp_of_mem ?_
    intro a b ha hb hn hab
    subst hab
    exact hn (SameGroup.refl' sel (hr1 a ha))
  have hsub : rs' ⊆ fs2 := by
    intro x hx
    obtain ⟨f, hf, hs⟩ := hfs2.all x hx
    rwa [← hsame f (hfs2.sublist.subset hf) x hx hs]
  have hfs2eq : fs2 = rs' :=
    hfs2.sublist.eq_of_length_le (List.subperm_of_subset hnodup hsub).length_le
  subst hfs2eq
  rw [hr2]
  congr 1
  have hsame2 : List.Forall₂ (fun a b => b = a) fs2 rs2 := by
    have := hmin2
    rw [List.forall₂_iff_zip] at this ⊢
    refine ⟨this.1, ?_⟩
    intro a b hab
    have ha : a ∈ fs2 := (List.of_mem_zip hab).1
    have hm := this.2 hab
    obtain ⟨_, _, _, h1⟩ := hr1 a ha
    have key : b.interactions = a.interactions := by
      apply interactions_ext (by rw [hm.nodes, h1.nodes]) h1.nodes
      intro i
      by_cases hi : i ∈ sel
      · cases hv : PyDict.get? a.interactions i with
        | none =>
          rw [PyDict.get?_eq_none, hm.nodes, ← PyDict.get?_eq_none]; exact hv
        | some v =>
          cases v with
          | none => exact hm.without i hi ⟨a, ha, SameGroup.refl' sel (hr1 a ha), hv⟩
          | some v =>
            obtain ⟨x, hx, ⟨u, hu, hg, hux⟩, -⟩ := hm.minimal i hi
              (PyDict.mem_keys_iff.2 ⟨_, hv⟩) (by
                intro u hu hg
                rw [← hsame a ha u hu hg, hv]; simp)
            rw [← hsame a ha u hu hg, hv] at hux
            rw [hx, hux]
      · exact hm.unselected i hi
    cases a; cases b
    have ht := hm.topology
    have hs := hm.states
    simp_all
  clear hr2 hfs2 hmin2 hmin h hr hr1 hne' hk' hpw hsame hnodup hsub
  induction hsame2 with
  | nil => rfl
  | cons h _ ih => rw [h, ih]

theorem filterStates_total {E : Type} {states : PyDict ℤ E} {ids : List ℤ}
    (h : ∀ k ∈ ids, ∃ v, PyDict.get? states k = some v) :
    ∃ s, filterStates states ids = .ok s ∧ PyDict.keys s = ids := by
  have : ∃ s : PyDict ℤ E, List.Forall₂ (fun i x => x.1 = i ∧ PyDict.get? states i = some x.2) ids s ∧
      PyDict.keys s = ids := by
    induction ids with
    | nil => exact ⟨[], .nil, rfl⟩
    | cons i ids ih =>
      obtain ⟨s, h1, h2⟩ := ih fun k hk => h k (.tail _ hk)
      obtain ⟨v, hv⟩ := h i (.head _)
      exact ⟨(i, v) :: s, .cons ⟨rfl, hv⟩ h1, by rw [← h2]; rfl⟩
  obtain ⟨s, h1, h2⟩ := this
  exact ⟨s, filterStates_eq h1, h2⟩

/-- C46, error cases: `ValueError` if the IDs of the interaction nodes are not exactly 0 and 1, ... -/
theorem C46_node_ids_error {E : Type} [DecidableEq E] (ts : List (Transition E (Option LS)))
    (nodeIds : Option (List ℤ))
    (h : ¬ ∀ i, (∃ t ∈ ts, i ∈ PyDict.keys t.interactions) ↔ i = 0 ∨ i = 1) :
    filterMinLs ts nodeIds = .error .valueError := by
  unfold filterMinLs
  have : ¬ setEq (ts.flatMap fun t => PyDict.keys t.interactions) [0, 1] = true := by
    rw [setEq_iff]
    simpa using h
  simp only [this]
  rfl

/-- An empty list is an instance. -/
example : filterMinLs ([] : List (Transition Obj (Option LS))) none = .error .valueError :=
  C46_node_ids_error [] none (by
    intro h
    have := (h 0).2 (.inl rfl)
    obtain ⟨t, ht, -⟩ := this
    cases ht)

/-- ... or if one of the transitions has not exactly one intermediate state. -/
theorem C46_intermediate_error {E : Type} [DecidableEq E] (ts : List (Transition E (Option LS)))
    (nodeIds : Option (List ℤ)) (hv : ∀ t ∈ ts, Valid t)
    (h : ∃ t ∈ ts, ¬ ∃! k, ∃ e, PyDict.get? t.topology.edges k = some e ∧ e.orig ≠ none ∧ e.dest ≠ none) :
    filterMinLs ts nodeIds = .error .valueError := by
  have hst : ∀ t ∈ ts, ∃ s, t.intermediateStates = .ok s ∧
      PyDict.keys s = t.topology.intermediate := by
    intro t ht
    have hall : ∀ k ∈ t.topology.intermediate, ∃ v, PyDict.get? t.states k = some v := by
      intro k hk
      unfold Topology.intermediate at hk
      rw [mem_select _ (hv t ht).edges (fun e => e.orig.isSome && e.dest.isSome)] at hk
      obtain ⟨e, he, -⟩ := hk
      rw [← PyDict.mem_keys_iff, ← (hv t ht).sameEdges, PyDict.mem_keys_iff]
      exact ⟨e, he⟩
    exact filterStates_total hall
  choose! g hg using hst
  have hm : ts.mapM Transition.intermediateStates = .ok (ts.map g) := by
    rw [mapM_ok_iff, List.forall₂_map_right_iff, List.forall₂_same]
    exact fun t ht => (hg t ht).1
  have hany : ((ts.map g).any fun x => decide (x.length ≠ 1)) = true := by
    rw [List.any_eq_true]
    obtain ⟨t, ht, hne⟩ := h
    refine ⟨g t, List.mem_map_of_mem ht, ?_⟩
    rw [decide_eq_true_eq]
    intro hl
    apply hne
    have hl' : t.topology.intermediate.length = 1 := by
      rw [← (hg t ht).2]
      simpa [PyDict.keys] using hl
    obtain ⟨k, hk⟩ := List.length_eq_one_iff.1 hl'
    have hmem : ∀ j, j = k ↔ ∃ e, PyDict.get? t.topology.edges j = some e ∧ e.orig ≠ none ∧
        e.dest ≠ none := by
      intro j
      rw [← List.mem_singleton, ← hk]
      unfold Topology.intermediate
      rw [mem_select _ (hv t ht).edges (fun e => e.orig.isSome && e.dest.isSome)]
      simp [Option.isSome_iff_ne_none]
    exact ⟨k, (hmem k).1 rfl, fun j hj => (hmem j).2 hj⟩
  unfold filterMinLs
  simp only [hm, hany, bind, Except.bind, if_true]
  split <;> rfl

/-- A transition without intermediate states. -/
example : ∃ t : Transition Obj (Option LS), Valid t ∧ ¬ ∃! k, ∃ e,
    PyDict.get? t.topology.edges k = some e ∧ e.orig ≠ none ∧ e.dest ≠ none := by
  refine ⟨⟨⟨[0, 1], []⟩, [], [(0, none), (1, none)]⟩, ⟨by simp [PyDict.keys], by simp [PyDict.keys],
    by simp [PyDict.keys], by simp [PyDict.keys], by simp [PyDict.keys]⟩, ?_⟩
  rintro ⟨k, ⟨e, he, -⟩, -⟩
  cases he

/-- C46 does not hold in full: if no node is selected, a transition that only has an LS coupling at
the production node and one that only has the same coupling at the decay node are merged, although
they differ at nodes that are not selected, and the result loses both couplings. -/
theorem C46_empty_selection_fails (x : LS) :
    (∀ t ∈ [exConv (some x) none, exConv none (some x)], ∃ r m n, OneResonance t r m n) ∧
    ¬ SameGroup [] (exConv (some x) none) (exConv none (some x)) ∧
    filterMinLs [exConv (some x) none, exConv none (some x)] (some []) = .ok [exConv none none] := by
  refine ⟨?_, ?_, ?_⟩
  · intro t ht
    simp only [List.mem_cons, List.not_mem_nil, or_false] at ht
    rcases ht with rfl | rfl <;> exact ⟨3, 0, 1, exConv_oneResonance _ _⟩
  · rw [exConv_sameGroup]
    simp
  · have hts : ∀ t ∈ [exConv (some x) none, exConv none (some x)], ∃ r m n, OneResonance t r m n := by
      intro t ht
      simp only [List.mem_cons, List.not_mem_nil, or_false] at ht
      rcases ht with rfl | rfl <;> exact ⟨3, 0, 1, exConv_oneResonance _ _⟩
    rw [filterMinLs_eq _ _ hts (by simp)]
    have hk : ∀ p d, groupKey [] (exConv p d) = .ok (.particle ⟨"N", "N", 3 / 2, some (-1), 1, 0⟩,
        (exConv p d).topology.outOf 1, lsOf [] (exConv p d)) :=
      fun p d => groupKey_eq [] (exConv_oneResonance p d) rfl
    have e : lsOf [] (exConv none (some x)) = lsOf [] (exConv (some x) none) := by
      simp [lsOf, exConv]
    have e' : (exConv none (some x)).topology = (exConv (some x) none).topology := rfl
    simp only [Option.getD_some, groupTransitions, hk, bind, Except.bind, e, e', groupAppend,
      PyDict.get?_cons, PyDict.set, if_true, List.nil_append, Option.getD_some, PyDict.get?,
      Option.getD_none, List.cons_append, List.mapM_cons, List.mapM_nil, pure, Except.pure]
    obtain ⟨r, hr, h1, h2, h3, h4⟩ := minTransition_ok [] (exConv (some x) none)
      [exConv none (some x)] (exConv_oneResonance _ _).valid (by
        intro u hu
        simp only [List.mem_cons, List.not_mem_nil, or_false] at hu
        rcases hu with rfl | rfl <;> rfl)
    rw [hr]
    simp only
    obtain ⟨a, b, hab⟩ := interactions_eq h3
    obtain ⟨w, hw, hw', -⟩ := h4 0 (some x) rfl
    obtain ⟨v, hv, hv', -⟩ := h4 1 none rfl
    have hw'' := hw' ⟨_, .tail _ (.head _), rfl⟩
    have hv'' := hv' ⟨_, .head _, rfl⟩
    rw [hab, hw''] at hw
    rw [hab, hv''] at hv
    simp [PyDict.get?_cons] at hw hv
    obtain ⟨t, s, i⟩ := r
    simp only at h1 h2 hab
    rw [h1, h2, hab, hw, hv]
    rfl

/-! ### C47 -/

/-- C47: if the production and decay couplings of a group occur in all combinations, every returned
transition is one of the given ones. -/
theorem C47_members {E : Type} [DecidableEq E] (ts rs : List (Transition E (Option LS)))
    (nodeIds : Option (List ℤ)) (sel : List ℤ) (hsel : sel = nodeIds.getD [0, 1])
    (hts : ∀ t ∈ ts, ∃ r m n, OneResonance t r m n) (hne : ts ≠ [])
    (hk : (0 ∈ sel ∨ 1 ∈ sel) ∨ ∀ t ∈ ts, ∀ i, PyDict.get? t.interactions i ≠ some none)
    (hprod : ∀ t ∈ ts, ∀ u ∈ ts, ∀ v ∈ ts, SameGroup sel t u → SameGroup sel t v →
      ∃ w ∈ ts, w.topology = t.topology ∧ w.states = t.states ∧
        PyDict.get? w.interactions 0 = PyDict.get? u.interactions 0 ∧
        PyDict.get? w.interactions 1 = PyDict.get? v.interactions 1)
    (h : filterMinLs ts nodeIds = .ok rs) : ∀ x ∈ rs, x ∈ ts := by
  obtain ⟨fs, rs', hr, hfs, hmin⟩ := C46_minimum_per_group_partial ts nodeIds sel hsel hts hne hk
  have : rs' = rs := by rw [hr] at h; injection h
  subst this
  intro x hx
  obtain ⟨f, hf, hm⟩ := forall₂_mem_right hmin hx
  have hfts := hfs.sublist.subset hf
  obtain ⟨_, _, _, h1⟩ := hts f hfts
  have hself := SameGroup.refl' sel (hts f hfts)
  have hatt : ∀ i ∈ PyDict.keys f.interactions, ∃ u ∈ ts, SameGroup sel f u ∧
      PyDict.get? x.interactions i = PyDict.get? u.interactions i := by
    intro i hik
    by_cases hi : i ∈ sel
    · by_cases hex : ∃ u ∈ ts, SameGroup sel f u ∧ PyDict.get? u.interactions i = some none
      · have := hm.without i hi hex
        obtain ⟨u, hu, hg, hun⟩ := hex
        exact ⟨u, hu, hg, by rw [this, hun]⟩
      · obtain ⟨y, hy, ⟨u, hu, hg, huy⟩, -⟩ := hm.minimal i hi hik
          (fun u hu hg h => hex ⟨u, hu, hg, h⟩)
        exact ⟨u, hu, hg, by rw [hy, huy]⟩
    · exact ⟨f, hfts, hself, hm.unselected i hi⟩
  obtain ⟨u, hu, hgu, h0⟩ := hatt 0 (by rw [h1.nodes]; simp)
  obtain ⟨v, hv, hgv, h1'⟩ := hatt 1 (by rw [h1.nodes]; simp)
  obtain ⟨w, hw, hw1, hw2, hw3, hw4⟩ := hprod f hfts u hu v hv hgu hgv
  obtain ⟨_, _, _, hwr⟩ := hts w hw
  have key : x.interactions = w.interactions := by
    apply interactions_ext (by rw [hm.nodes, h1.nodes]) hwr.nodes
    intro i
    by_cases hi0 : i = 0
    · subst hi0; rw [h0, hw3]
    · by_cases hi1 : i = 1
      · subst hi1; rw [h1', hw4]
      · have n1 : i ∉ PyDict.keys x.interactions := by rw [hm.nodes, h1.nodes]; simp [hi0, hi1]
        have n2 : i ∉ PyDict.keys w.interactions := by rw [hwr.nodes]; simp [hi0, hi1]
        rw [PyDict.get?_eq_none.2 n1, PyDict.get?_eq_none.2 n2]
  have : x = w := by
    have ht := hm.topology
    have hs := hm.states
    cases x; cases w
    simp_all
  rwa [this]

/-- All four combinations of two production and two decay couplings. -/
example (x y z w : LS) (rs : List (Transition Obj (Option LS)))
    (h : filterMinLs [exConv (some x) (some z), exConv (some x) (some w), exConv (some y) (some z),
      exConv (some y) (some w)] none = .ok rs) :
    ∀ t ∈ rs, t ∈ [exConv (some x) (some z), exConv (some x) (some w), exConv (some y) (some z),
      exConv (some y) (some w)] := by
  refine C47_members _ rs none _ rfl ?_ (by simp) (.inl (.inl (by simp))) ?_ h
  · intro t ht
    simp only [List.mem_cons, List.not_mem_nil, or_false] at ht
    rcases ht with rfl | rfl | rfl | rfl <;> exact ⟨3, 0, 1, exConv_oneResonance _ _⟩
  · intro t ht u hu v hv _ _
    simp only [List.mem_cons, List.not_mem_nil, or_false] at hu hv
    have ht' : t.topology = exTopology (-1) 0 3 1 2 ∧ t.states = exObjs := by
      simp only [List.mem_cons, List.not_mem_nil, or_false] at ht
      rcases ht with rfl | rfl | rfl | rfl <;> exact ⟨rfl, rfl⟩
    rw [ht'.1, ht'.2]
    have hu' : PyDict.get? u.interactions 0 = some (some x) ∨
        PyDict.get? u.interactions 0 = some (some y) := by
      rcases hu with rfl | rfl | rfl | rfl <;> simp [exConv, PyDict.get?_cons]
    have hv' : PyDict.get? v.interactions 1 = some (some z) ∨
        PyDict.get? v.interactions 1 = some (some w) := by
      rcases hv with rfl | rfl | rfl | rfl <;> simp [exConv, PyDict.get?_cons]
    rcases hu' with hu' | hu' <;> rcases hv' with hv' | hv' <;> rw [hu', hv']
    · exact ⟨exConv (some x) (some z), by simp, rfl, rfl, rfl, rfl⟩
    · exact ⟨exConv (some x) (some w), by simp, rfl, rfl, rfl, rfl⟩
    · exact ⟨exConv (some y) (some z), by simp, rfl, rfl, rfl, rfl⟩
    · exact ⟨exConv (some y) (some w), by simp, rfl, rfl, rfl, rfl⟩

/-- C47, second half: without that, the result can be a combination that was not given. Here the
transition with the minimal production coupling has not the minimal decay coupling. -/
theorem C47_not_a_member (x y : LS) (hxy : LsLe x y) (hne : x ≠ y) :
    ∃ rs, filterMinLs [exConv (some x) (some y), exConv (some y) (some x)] none = .ok rs ∧
      ∃ t ∈ rs, t ∉ [exConv (some x) (some y), exConv (some y) (some x)] := by
  obtain ⟨fs, rs, hr, hfs, hmin⟩ := C46_minimum_per_group_partial
    [exConv (some x) (some y), exConv (some y) (some x)] none [0, 1] rfl (by
      intro t ht
      simp only [List.mem_cons, List.not_mem_nil, or_false] at ht
      rcases ht with rfl | rfl <;> exact ⟨3, 0, 1, exConv_oneResonance _ _⟩) (by simp)
    (.inl (.inl (by simp)))
  refine ⟨rs, hr, ?_⟩
  obtain ⟨f, hf, -⟩ := hfs.all _ (.head _)
  obtain ⟨t, ht, hm⟩ := forall₂_mem_left hmin hf
  refine ⟨t, ht, ?_⟩
  have hf' := hfs.sublist.subset hf
  have hgroup : ∀ u ∈ [exConv (some x) (some y), exConv (some y) (some x)],
      SameGroup [0, 1] f u := by
    intro u hu
    simp only [List.mem_cons, List.not_mem_nil, or_false] at hf' hu
    rcases hf' with rfl | rfl <;> rcases hu with rfl | rfl <;> rw [exConv_sameGroup] <;> simp
  have hkeys : PyDict.keys f.interactions = [0, 1] := by
    simp only [List.mem_cons, List.not_mem_nil, or_false] at hf'
    rcases hf' with rfl | rfl <;> rfl
  have hanti : ∀ z, LsLe z x → LsLe z y → (z = x ∨ z = y) → z = x := by
    rintro z h1 - (rfl | rfl)
    · rfl
    · exfalso
      apply hne
      unfold LsLe at hxy h1
      have : x.L = z.L ∧ x.S = z.S := by
        rcases hxy with h | ⟨h, h'⟩ <;> rcases h1 with g | ⟨g, g'⟩
        · exact absurd h (not_lt.2 g.le)
        · exact absurd h (by rw [g]; exact lt_irrefl _)
        · exact absurd g (by rw [h]; exact lt_irrefl _)
        · exact ⟨h, le_antisymm h' g'⟩
      cases x; cases z; simp_all
  have hx : ∀ i ∈ [(0 : ℤ), 1], PyDict.get? t.interactions i = some (some x) := by
    intro i hi
    obtain ⟨z, hz, ⟨u, hu, -, huz⟩, hle⟩ := hm.minimal i hi (by rw [hkeys]; exact hi) (by
      intro u hu _
      simp only [List.mem_cons, List.not_mem_nil, or_false] at hu hi
      rcases hu with rfl | rfl <;> rcases hi with rfl | rfl <;> simp [exConv, PyDict.get?_cons])
    have h1 : LsLe z x := by
      simp only [List.mem_cons, List.not_mem_nil, or_false] at hi
      rcases hi with rfl | rfl
      · exact hle (exConv (some x) (some y)) (by simp) (hgroup _ (by simp)) x rfl
      · exact hle (exConv (some y) (some x)) (by simp) (hgroup _ (by simp)) x rfl
    have h2 : LsLe z y := by
      simp only [List.mem_cons, List.not_mem_nil, or_false] at hi
      rcases hi with rfl | rfl
      · exact hle (exConv (some y) (some x)) (by simp) (hgroup _ (by simp)) y rfl
      · exact hle (exConv (some x) (some y)) (by simp) (hgroup _ (by simp)) y rfl
    have h3 : z = x ∨ z = y := by
      simp only [List.mem_cons, List.not_mem_nil, or_false] at hu hi
      rcases hu with rfl | rfl <;> rcases hi with rfl | rfl <;>
        simp [exConv, PyDict.get?_cons] at huz <;> simp [huz]
    rw [hz, hanti z h1 h2 h3]
  intro hmem
  have h0 := hx 0 (by simp)
  have h1 := hx 1 (by simp)
  simp only [List.mem_cons, List.not_mem_nil, or_false] at hmem
  rcases hmem with rfl | rfl
  · simp [exConv, PyDict.get?_cons] at h1
    exact hne h1.symm
  · simp [exConv, PyDict.get?_cons] at h0
    exact hne h0.symm

example : LsLe ⟨0, 1 / 2⟩ ⟨1, 1 / 2⟩ ∧ (⟨0, 1 / 2⟩ : LS) ≠ ⟨1, 1 / 2⟩ :=
  ⟨.inl (by norm_num), by simp⟩

end Verif.Qrules
