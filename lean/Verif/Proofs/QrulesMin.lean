import Verif.Proofs.QrulesConvert

/-! Lemmas for `filter_min_ls`. -/
namespace Verif.Qrules
open Verif Verif.ThreeBody

/-! ### Grouping -/

/-- The first element for each key. -/
def firsts {α κ : Type} [DecidableEq κ] (f : α → κ) : List α → List α
  | [] => []
  | t :: ts => t :: (firsts f ts).filter fun u => f u ≠ f t

theorem firsts_sublist {α κ : Type} [DecidableEq κ] (f : α → κ) (ts : List α) :
    (firsts f ts).Sublist ts := by
  induction ts with
  | nil => exact List.Sublist.slnil
  | cons t ts ih => exact .cons_cons _ (List.filter_sublist.trans ih)

theorem firsts_pairwise {α κ : Type} [DecidableEq κ] (f : α → κ) (ts : List α) :
    (firsts f ts).Pairwise fun t u => f t ≠ f u := by
  induction ts with
  | nil => exact .nil
  | cons t ts ih =>
    refine .cons ?_ (ih.sublist List.filter_sublist)
    intro u hu
    have := (List.mem_filter.1 hu).2
    simp only [decide_eq_true_eq] at this
    exact Ne.symm this

theorem firsts_all {α κ : Type} [DecidableEq κ] (f : α → κ) (ts : List α) :
    ∀ t ∈ ts, ∃ u ∈ firsts f ts, f u = f t := by
  induction ts with
  | nil => intro t ht; cases ht
  | cons a ts ih =>
    intro t ht
    rcases List.mem_cons.1 ht with rfl | ht
    · exact ⟨t, List.mem_cons_self .., rfl⟩
    · obtain ⟨u, hu, h⟩ := ih t ht
      by_cases hh : f u = f a
      · exact ⟨a, List.mem_cons_self .., by rw [← hh, h]⟩
      · exact ⟨u, List.mem_cons_of_mem _ (List.mem_filter.2 ⟨hu, by simpa using hh⟩), h⟩

theorem firsts_first {α κ : Type} [DecidableEq κ] (f : α → κ) (ts : List α) :
    ∀ u ∈ firsts f ts, ∃ pre post, ts = pre ++ u :: post ∧ ∀ v ∈ pre, f v ≠ f u := by
  induction ts with
  | nil => intro u hu; cases hu
  | cons a ts ih =>
    intro u hu
    rcases List.mem_cons.1 hu with rfl | hu
    · exact ⟨[], ts, rfl, by simp⟩
    · obtain ⟨hu, hne⟩ := List.mem_filter.1 hu
      obtain ⟨pre, post, h1, h2⟩ := ih u hu
      refine ⟨a :: pre, post, by rw [h1]; rfl, ?_⟩
      intro v hv
      rcases List.mem_cons.1 hv with rfl | hv
      · simp only [decide_eq_true_eq] at hne
        exact Ne.symm hne
      · exact h2 v hv

theorem firsts_snoc {α κ : Type} [DecidableEq κ] (f : α → κ) (ts : List α) (x : α) :
    firsts f (ts ++ [x]) = if f x ∈ ts.map f then firsts f ts else firsts f ts ++ [x] := by
  induction ts with
  | nil => simp [firsts]
  | cons a ts ih =>
    rw [List.cons_append, firsts, ih]
    by_cases h1 : f x = f a
    · rw [if_pos (c := f x ∈ List.map f (a :: ts)) (by simp [h1])]
      rw [firsts]
      split
      · rfl
      · rw [List.filter_append]
        simp [h1]
    · by_cases h2 : f x ∈ ts.map f
      · rw [if_pos h2, if_pos (by rw [List.map_cons]; exact List.mem_cons_of_mem _ h2)]
        rfl
      · rw [if_neg h2, if_neg (by rw [List.map_cons, List.mem_cons]; tauto), firsts,
          List.filter_append]
        simp [h1]

theorem groupAppend_mem {κ α : Type} [DecidableEq κ] (f : α → κ) (ts : List α) (l : List α) (x : α)
    (hl : l.Pairwise fun t u => f t ≠ f u) (hx : ∃ t ∈ l, f t = f x) :
    groupAppend (l.map fun t => (f t, ts.filter fun u => f u = f t)) (f x) x
      = l.map fun t => (f t, (ts ++ [x]).filter fun u => f u = f t) := by
  unfold groupAppend
  have hget : PyDict.get? (l.map fun t => (f t, ts.filter fun u => f u = f t)) (f x)
      = some (ts.filter fun u => f u = f x) := by
    clear hl
    induction l with
    | nil => obtain ⟨t, ht, _⟩ := hx; cases ht
    | cons a l ih =>
      rw [List.map_cons, PyDict.get?_cons]
      by_cases h : f a = f x
      · rw [if_pos h, h]
      · rw [if_neg h]
        apply ih
        obtain ⟨t, ht, htx⟩ := hx
        rcases List.mem_cons.1 ht with rfl | ht
        · exact absurd htx h
        · exact ⟨t, ht, htx⟩
  rw [hget, Option.getD_some]
  clear hget
  induction l with
  | nil => obtain ⟨t, ht, _⟩ := hx; cases ht
  | cons a l ih =>
    rw [List.pairwise_cons] at hl
    rw [List.map_cons, List.map_cons]
    unfold PyDict.set
    by_cases h : f a = f x
    · rw [if_pos h, List.filter_append]
      congr 1
      · rw [h]; simp
      · apply List.map_congr_left
        intro t ht
        rw [List.filter_append]
        have : f x ≠ f t := by rw [← h]; exact hl.1 t ht
        simp [this]
    · rw [if_neg h]
      congr 1
      · rw [List.filter_append]; simp [Ne.symm h]
      · apply ih hl.2
        obtain ⟨t, ht, htx⟩ := hx
        rcases List.mem_cons.1 ht with rfl | ht
        · exact absurd htx h
        · exact ⟨t, ht, htx⟩

theorem groupAppend_new {κ α : Type} [DecidableEq κ] (f : α → κ) (ts : List α) (l : List α) (x : α)
    (hsub : ∀ t ∈ l, t ∈ ts) (hx : f x ∉ ts.map f) :
    groupAppend (l.map fun t => (f t, ts.filter fun u => f u = f t)) (f x) x
      = (l ++ [x]).map fun t => (f t, (ts ++ [x]).filter fun u => f u = f t) := by
  have hk : f x ∉ PyDict.keys (l.map fun t => (f t, ts.filter fun u => f u = f t)) := by
    intro h
    simp only [PyDict.keys, List.map_map, List.mem_map, Function.comp_apply] at h
    obtain ⟨t, ht, h⟩ := h
    exact hx (List.mem_map.2 ⟨t, hsub t ht, h⟩)
  unfold groupAppend
  rw [PyDict.get?_eq_none.2 hk, PyDict.set_of_not_mem _ hk, List.map_append]
  congr 1
  · apply List.map_congr_left
    intro t ht
    rw [List.filter_append]
    have : f x ≠ f t := fun h => hx (List.mem_map.2 ⟨t, hsub t ht, h.symm⟩)
    simp [this]
  · simp only [Option.getD_none, List.nil_append, List.map_cons, List.map_nil, List.filter_append]
    have : ts.filter (fun u => decide (f u = f x)) = [] := by
      rw [List.filter_eq_nil_iff]
      intro u hu
      simp only [decide_eq_true_eq]
      exact fun h => hx (List.mem_map.2 ⟨u, hu, h⟩)
    simp [this]

theorem groupFold_eq {κ α : Type} [DecidableEq κ] (f : α → κ) (ts : List α) :
    ts.foldl (fun d x => groupAppend d (f x) x) ([] : PyDict κ (List α))
      = (firsts f ts).map fun t => (f t, ts.filter fun u => f u = f t) := by
  induction ts using List.reverseRecOn with
  | nil => rfl
  | append_singleton ts x ih =>
    rw [List.foldl_append, ih, firsts_snoc]
    simp only [List.foldl_cons, List.foldl_nil]
    split
    · rename_i h
      obtain ⟨t, ht, htx⟩ := List.mem_map.1 h
      obtain ⟨u, hu, hut⟩ := firsts_all f ts t ht
      exact groupAppend_mem f ts _ x (firsts_pairwise f ts) ⟨u, hu, by rw [hut, htx]⟩
    · rename_i h
      exact groupAppend_new f ts _ x (fun t ht => (firsts_sublist f ts).subset ht) h

theorem groupTransitions_eq {E : Type} [DecidableEq E] (sel : List ℤ)
    (f : Transition E (Option LS) → GroupKey E) (ts : List (Transition E (Option LS)))
    (hf : ∀ t ∈ ts, groupKey sel t = .ok (f t))
    (d : PyDict (GroupKey E) (List (Transition E (Option LS)))) :
    groupTransitions sel ts d = .ok (ts.foldl (fun d x => groupAppend d (f x) x) d) := by
  induction ts generalizing d with
  | nil => rfl
  | cons t ts ih =>
    unfold groupTransitions
    rw [hf t (List.mem_cons_self ..)]
    simp only [bind, Except.bind]
    rw [ih (fun u hu => hf u (List.mem_cons_of_mem _ hu))]
    rfl

/-! ### The key of a group -/

theorem mem_select (d : PyDict ℤ Edge) (hd : (PyDict.keys d).Nodup) (p : Edge → Bool) (k : ℤ) :
    k ∈ sortedSet (PyDict.keys (d.filter fun x => p x.2)) ↔
      ∃ e, PyDict.get? d k = some e ∧ p e = true := by
  rw [sortedSet_mem]
  simp only [PyDict.keys, List.mem_map, List.mem_filter, Prod.exists]
  constructor
  · rintro ⟨a, e, ⟨h, hp⟩, rfl⟩
    exact ⟨e, PyDict.get?_of_mem hd h, hp⟩
  · rintro ⟨e, h, hp⟩
    exact ⟨k, e, ⟨PyDict.mem_of_get? h, hp⟩, rfl⟩

theorem OneResonance.unique {E N : Type} {t : Transition E N} {r m n r' m' n' : ℤ}
    (h : OneResonance t r m n) (h' : OneResonance t r' m' n') : r = r' ∧ m = m' ∧ n = n' := by
  have hr : r' = r := by
    by_contra hne
    rcases h.only r' _ h'.edge hne with h | h <;> cases h
  subst hr
  have := h.edge.symm.trans h'.edge
  simp only [Option.some.injEq, Edge.mk.injEq] at this
  exact ⟨rfl, this.1, this.2⟩

theorem OneResonance.intermediate {E N : Type} {t : Transition E N} {r m n : ℤ}
    (h : OneResonance t r m n) : t.topology.intermediate = [r] := by
  unfold Topology.intermediate
  rw [← sortedSet_of_sorted (l := [r]) (by simp)]
  rw [← sortedSet_of_sorted (l := sortedSet _) (sortedSet_pairwise _)]
  apply sortedSet_ext
  intro k
  rw [mem_select _ h.valid.edges (fun e => e.orig.isSome && e.dest.isSome)]
  rw [List.mem_singleton]
  constructor
  · rintro ⟨e, he, hp⟩
    by_contra hne
    rcases h.only k e he hne with h | h <;> simp [h] at hp
  · rintro rfl
    exact ⟨_, h.edge, rfl⟩

theorem OneResonance.state {E N : Type} {t : Transition E N} {r m n : ℤ}
    (h : OneResonance t r m n) : ∃ e, PyDict.get? t.states r = some e := by
  rw [← PyDict.mem_keys_iff, ← h.valid.sameEdges, PyDict.mem_keys_iff]
  exact ⟨_, h.edge⟩

theorem OneResonance.intermediateStates {E N : Type} {t : Transition E N} {r m n : ℤ}
    (h : OneResonance t r m n) {e : E} (he : PyDict.get? t.states r = some e) :
    t.intermediateStates = .ok [(r, e)] := by
  unfold Transition.intermediateStates filterStates
  rw [h.intermediate]
  simp [PyDict.get, he, bind, Except.bind, pure, Except.pure]

theorem mem_outOf {E N : Type} {t : Transition E N} (hv : Valid t) (n k : ℤ) :
    k ∈ t.topology.outOf n ↔ Leaves t n k := by
  unfold Topology.outOf
  rw [mem_select _ hv.edges (fun e => decide (e.orig = some n))]
  simp [Leaves]

theorem OneResonance.products {E N : Type} {t : Transition E N} {r m n : ℤ}
    (h : OneResonance t r m n) : decayProductIds t.topology r = .ok (t.topology.outOf n) := by
  unfold decayProductIds PyDict.get
  rw [h.edge]
  simp only [bind, Except.bind]
  obtain ⟨f, hf⟩ : ∃ f, t.topology.edges.length = f + 1 := by
    cases hl : t.topology.edges with
    | nil => have := h.edge; rw [hl] at this; cases this
    | cons x l => exact ⟨l.length, rfl⟩
  rw [hf]
  have hall : ∀ k ∈ t.topology.outOf n, k ∈ t.topology.outgoing := by
    intro k hk
    obtain ⟨e, he, ho⟩ := (mem_outOf h.valid n k).1 hk
    unfold Topology.outgoing
    rw [mem_select _ h.valid.edges (fun e => e.dest.isNone)]
    refine ⟨e, he, ?_⟩
    have hne : k ≠ r := by
      rintro rfl
      rw [h.edge] at he
      cases he
      simp only [Option.some.injEq] at ho
      exact h.loop ho
    rcases h.only k e he hne with h | h
    · rw [h] at ho; cases ho
    · rw [h]; rfl
  have hfin : t.topology.finalFrom (f + 1 + 1) (t.topology.outOf n) = .ok (t.topology.outOf n) := by
    generalize t.topology.outOf n = l at hall
    cases l with
    | nil => rfl
    | cons x l =>
      unfold Topology.finalFrom
      have h1 : (x :: l).filter (fun i => decide (i ∈ t.topology.outgoing)) = x :: l := by
        rw [List.filter_eq_self]; intro a ha; simpa using hall a ha
      have h2 : (x :: l).filter (fun i => decide (i ∉ t.topology.outgoing)) = [] := by
        rw [List.filter_eq_nil_iff]; intro a ha; simpa using hall a ha
      simp only [h1, h2, List.mapM_nil, bind, Except.bind, pure, Except.pure, List.flatten_nil]
      simp [Topology.finalFrom]
  rw [hfin]
  simp only [pure, Except.pure]
  congr 1
  exact sortedSet_of_sorted (sortedSet_pairwise _)

theorem interactions_eq {N : Type} {d : PyDict ℤ N} (h : PyDict.keys d = [0, 1]) :
    ∃ a b, d = [(0, a), (1, b)] := by
  match d, h with
  | [(x, a), (y, b)], h =>
    simp only [PyDict.keys, List.map_cons, List.map_nil, List.cons.injEq] at h
    obtain ⟨rfl, rfl, -⟩ := h
    exact ⟨a, b, rfl⟩

/-- The LS couplings at the nodes that are not selected. -/
def lsOf {E : Type} (sel : List ℤ) (t : Transition E (Option LS)) : List LS :=
  t.interactions.filterMap fun x => if x.1 ∉ sel then x.2 else none

theorem groupKey_eq {E : Type} (sel : List ℤ) {t : Transition E (Option LS)} {r m n : ℤ}
    (h : OneResonance t r m n) {e : E} (he : PyDict.get? t.states r = some e) :
    groupKey sel t = .ok (e, t.topology.outOf n, lsOf sel t) := by
  unfold groupKey
  rw [h.intermediateStates he]
  simp only [bind, Except.bind]
  rw [h.products]
  rfl

theorem lsOf_eq_iff {E : Type} {sel : List ℤ} {t u : Transition E (Option LS)}
    (ht : PyDict.keys t.interactions = [0, 1]) (hu : PyDict.keys u.interactions = [0, 1])
    (hk : (0 ∈ sel ∨ 1 ∈ sel) ∨ ∀ i, PyDict.get? t.interactions i ≠ some none ∧
      PyDict.get? u.interactions i ≠ some none) :
    lsOf sel t = lsOf sel u ↔
      ∀ i, i ∉ sel → PyDict.get? t.interactions i = PyDict.get? u.interactions i := by
  unfold lsOf
  obtain ⟨a, b, h1⟩ := interactions_eq ht
  obtain ⟨a', b', h2⟩ := interactions_eq hu
  rw [h1, h2] at hk ⊢
  have hall : (∀ i, i ∉ sel → PyDict.get? [(0, a), (1, b)] i = PyDict.get? [((0 : ℤ), a'), (1, b')] i) ↔
      (0 ∉ sel → a = a') ∧ (1 ∉ sel → b = b') := by
    constructor
    · intro h
      refine ⟨fun h0 => by simpa [PyDict.get?_cons] using h 0 h0,
        fun h0 => by simpa [PyDict.get?_cons] using h 1 h0⟩
    · rintro ⟨h0, h1⟩ i hi
      by_cases hi0 : i = 0
      · subst hi0; simp [PyDict.get?_cons, h0 hi]
      · by_cases hi1 : i = 1
        · subst hi1; simp [PyDict.get?_cons, h1 hi]
        · simp [PyDict.get?_cons, Ne.symm hi0, Ne.symm hi1]
  rw [hall]
  by_cases h0 : 0 ∈ sel <;> by_cases h4 : 1 ∈ sel
  · simp [h0, h4]
  · cases b <;> cases b' <;> simp [h0, h4]
  · cases a <;> cases a' <;> simp [h0, h4]
  · rcases hk with hk | hk
    · tauto
    · have e0 := hk 0
      have e1 := hk 1
      simp only [PyDict.get?_cons] at e0 e1
      cases a <;> cases a' <;> cases b <;> cases b' <;> simp_all

theorem key_eq_iff {E : Type} {sel : List ℤ} {t u : Transition E (Option LS)} {r m n r' m' n' : ℤ}
    (h : OneResonance t r m n) {e : E} (he : PyDict.get? t.states r = some e)
    (h' : OneResonance u r' m' n') {e' : E} (he' : PyDict.get? u.states r' = some e')
    (hk : (0 ∈ sel ∨ 1 ∈ sel) ∨ ∀ i, PyDict.get? t.interactions i ≠ some none ∧
      PyDict.get? u.interactions i ≠ some none) :
    (e, t.topology.outOf n, lsOf sel t) = (e', u.topology.outOf n', lsOf sel u) ↔
      SameGroup sel t u := by
  have hl := lsOf_eq_iff h.nodes h'.nodes hk
  have ho : t.topology.outOf n = u.topology.outOf n' ↔ ∀ k, Leaves t n k ↔ Leaves u n' k := by
    constructor
    · intro heq k
      rw [← mem_outOf h.valid, ← mem_outOf h'.valid, heq]
    · intro hk
      rw [← sortedSet_of_sorted (l := t.topology.outOf n) (sortedSet_pairwise _),
        ← sortedSet_of_sorted (l := u.topology.outOf n') (sortedSet_pairwise _)]
      apply sortedSet_ext
      intro k
      rw [mem_outOf h.valid, mem_outOf h'.valid, hk]
  constructor
  · intro heq
    obtain ⟨h1, h2⟩ := Prod.mk.inj heq
    obtain ⟨h2, h3⟩ := Prod.mk.inj h2
    exact ⟨r, m, n, r', m', n', h, h', by rw [he, he', h1], ho.1 h2, hl.1 h3⟩
  · rintro ⟨a, b, c, a', b', c', g, g', hs, hL, hI⟩
    obtain ⟨rfl, rfl, rfl⟩ := h.unique g
    obtain ⟨rfl, rfl, rfl⟩ := h'.unique g'
    rw [he, he', Option.some.injEq] at hs
    rw [hs, ho.2 hL, hl.2 hI]

/-! ### The minimal transition -/

theorem foldMin (xs : List LS) (x : LS) :
    (xs.foldl (fun m y => if lsKey y < lsKey m then y else m) x) ∈ x :: xs ∧
    ∀ y ∈ x :: xs, lsKey (xs.foldl (fun m y => if lsKey y < lsKey m then y else m) x) ≤ lsKey y := by
  induction xs generalizing x with
  | nil => simp
  | cons a xs ih =>
    rw [List.foldl_cons]
    obtain ⟨h1, h2⟩ := ih (if lsKey a < lsKey x then a else x)
    refine ⟨?_, ?_⟩
    · rcases List.mem_cons.1 h1 with h | h
      · rw [h]; split
        · simp
        · simp
      · exact List.mem_cons_of_mem _ (List.mem_cons_of_mem _ h)
    · intro y hy
      have h0 := h2 _ (List.mem_cons_self ..)
      rcases List.mem_cons.1 hy with rfl | hy
      · refine h0.trans ?_
        split
        · rename_i h; exact h.le
        · exact le_rfl
      · rcases List.mem_cons.1 hy with rfl | hy
        · refine h0.trans ?_
          split
          · exact le_rfl
          · rename_i h; exact not_lt.1 h
        · exact h2 y (List.mem_cons_of_mem _ hy)

theorem minLs_spec {l : List LS} (h : l ≠ []) :
    ∃ x, minLs l = some x ∧ x ∈ l ∧ ∀ y ∈ l, lsKey x ≤ lsKey y := by
  cases l with
  | nil => exact absurd rfl h
  | cons a l => exact ⟨_, rfl, foldMin l a⟩

theorem lsLe_of_key {x y : LS} (h : lsKey x ≤ lsKey y) : LsLe x y := by
  unfold lsKey at h
  rw [Prod.Lex.le_iff] at h
  exact h

theorem anyNone_eq {E : Type} {i : ℤ} {group : List (Transition E (Option LS))}
    {values : List (Option LS)}
    (h : group.mapM (fun t => PyDict.get t.interactions i) = .ok values) :
    anyNone i group = .ok (values.any Option.isNone) := by
  rw [mapM_ok_iff] at h
  induction h with
  | nil => rfl
  | cons h1 _ ih =>
    rename_i v _ _ _
    unfold anyNone
    rw [h1]
    cases v with
    | none => rfl
    | some y =>
      simp only [bind, Except.bind]
      rw [ih]
      rfl

theorem minInteraction_ok {E : Type} (sel : List ℤ) (group : List (Transition E (Option LS)))
    (hne : group ≠ []) (i : ℤ) (v : Option LS)
    (hi : ∀ u ∈ group, i ∈ PyDict.keys u.interactions) :
    ∃ w, minInteraction sel group (i, v) = .ok w ∧
      ((∃ u ∈ group, PyDict.get? u.interactions i = some none) → w = none) ∧
      ((∀ u ∈ group, PyDict.get? u.interactions i ≠ some none) →
        (i ∉ sel → w = v) ∧ (i ∈ sel → ∃ x, w = some x ∧
          (∃ u ∈ group, PyDict.get? u.interactions i = some (some x)) ∧
          ∀ u ∈ group, ∀ y, PyDict.get? u.interactions i = some (some y) → LsLe x y)) := by
  have hval : ∀ u ∈ group, ∃ x, PyDict.get? u.interactions i = some x :=
    fun u hu => PyDict.mem_keys_iff.1 (hi u hu)
  let g : Transition E (Option LS) → Option LS := fun u => (PyDict.get? u.interactions i).getD none
  have hg : ∀ u ∈ group, PyDict.get? u.interactions i = some (g u) := by
    intro u hu
    obtain ⟨x, hx⟩ := hval u hu
    simp [g, hx]
  have hm : group.mapM (fun t => PyDict.get t.interactions i) = .ok (group.map g) := by
    rw [mapM_ok_iff]
    rw [List.forall₂_map_right_iff, List.forall₂_same]
    intro u hu
    simp [PyDict.get, hg u hu]
  unfold minInteraction
  simp only [anyNone_eq hm, hm, bind, Except.bind]
  by_cases hnone : ∃ u ∈ group, PyDict.get? u.interactions i = some none
  · have : (group.map g).any Option.isNone = true := by
      rw [List.any_eq_true]
      obtain ⟨u, hu, h⟩ := hnone
      refine ⟨g u, List.mem_map_of_mem hu, ?_⟩
      rw [hg u hu, Option.some.injEq] at h
      rw [h]; rfl
    rw [if_pos this]
    refine ⟨none, rfl, fun _ => rfl, ?_⟩
    intro h
    obtain ⟨u, hu, h'⟩ := hnone
    exact absurd h' (h u hu)
  · have hno : ∀ u ∈ group, PyDict.get? u.interactions i ≠ some none := by
      intro u hu h; exact hnone ⟨u, hu, h⟩
    have : ¬ (group.map g).any Option.isNone = true := by
      rw [List.any_eq_true]
      rintro ⟨x, hx, hxn⟩
      obtain ⟨u, hu, rfl⟩ := List.mem_map.1 hx
      apply hno u hu
      rw [hg u hu]
      cases hgu : g u with
      | none => rfl
      | some y => rw [hgu] at hxn; cases hxn
    rw [if_neg this]
    by_cases hs : i ∈ sel
    · rw [if_pos hs]
      have hl : (group.map g).filterMap id ≠ [] := by
        obtain ⟨u, hu⟩ := List.exists_mem_of_ne_nil _ hne
        have h0 := hno u hu
        rw [hg u hu] at h0
        cases hgu : g u with
        | none => rw [hgu] at h0; exact absurd rfl h0
        | some y =>
          apply List.ne_nil_of_mem (a := y)
          rw [List.mem_filterMap]
          exact ⟨some y, List.mem_map.2 ⟨u, hu, hgu⟩, rfl⟩
      obtain ⟨x, h1, h2, h3⟩ := minLs_spec hl
      rw [h1]
      refine ⟨some x, rfl, fun h => absurd h hnone, fun _ => ⟨fun h => absurd hs h, fun _ => ⟨x, rfl, ?_, ?_⟩⟩⟩
      · simp only [List.mem_filterMap, List.mem_map, id_eq] at h2
        obtain ⟨_, ⟨u, hu, rfl⟩, h2⟩ := h2
        exact ⟨u, hu, by rw [hg u hu, h2]⟩
      · intro u hu y hy
        apply lsLe_of_key
        apply h3
        rw [hg u hu, Option.some.injEq] at hy
        rw [List.mem_filterMap]
        exact ⟨some y, List.mem_map.2 ⟨u, hu, hy⟩, rfl⟩
    · rw [if_neg hs]
      exact ⟨v, rfl, fun h => absurd h hnone, fun _ => ⟨fun _ => rfl, fun h => absurd h hs⟩⟩

theorem minTransition_ok {E : Type} (sel : List ℤ) (t0 : Transition E (Option LS))
    (g : List (Transition E (Option LS))) (hv : Valid t0)
    (hk : ∀ u ∈ t0 :: g, PyDict.keys u.interactions = [0, 1]) :
    ∃ r, minTransition sel (t0 :: g) = .ok r ∧ r.topology = t0.topology ∧ r.states = t0.states ∧
      PyDict.keys r.interactions = [0, 1] ∧
      ∀ i v, PyDict.get? t0.interactions i = some v → ∃ w, PyDict.get? r.interactions i = some w ∧
        ((∃ u ∈ t0 :: g, PyDict.get? u.interactions i = some none) → w = none) ∧
        ((∀ u ∈ t0 :: g, PyDict.get? u.interactions i ≠ some none) →
          (i ∉ sel → w = v) ∧ (i ∈ sel → ∃ x, w = some x ∧
            (∃ u ∈ t0 :: g, PyDict.get? u.interactions i = some (some x)) ∧
            ∀ u ∈ t0 :: g, ∀ y, PyDict.get? u.interactions i = some (some y) → LsLe x y)) := by
  obtain ⟨a, b, hab⟩ := interactions_eq (hk t0 (List.mem_cons_self ..))
  obtain ⟨wa, ha, hwa⟩ := minInteraction_ok sel (t0 :: g) (by simp) 0 a
    (fun u hu => by rw [hk u hu]; simp)
  obtain ⟨wb, hb, hwb⟩ := minInteraction_ok sel (t0 :: g) (by simp) 1 b
    (fun u hu => by rw [hk u hu]; simp)
  refine ⟨⟨t0.topology, t0.states, [(0, wa), (1, wb)]⟩, ?_, rfl, rfl, rfl, ?_⟩
  · unfold minTransition
    simp only [hab, List.mapM_cons, List.mapM_nil, ha, hb, bind, Except.bind, pure, Except.pure]
    apply transition_new_eq
    · intro i
      rw [hv.sameNodes, hk t0 (List.mem_cons_self ..)]
      rfl
    · exact hv.sameEdges
  · intro i v hiv
    rw [hab] at hiv
    by_cases h0 : i = 0
    · subst h0
      simp only [PyDict.get?_cons, if_true, Option.some.injEq] at hiv
      subst hiv
      exact ⟨wa, by simp [PyDict.get?_cons], hwa⟩
    · by_cases h1 : i = 1
      · subst h1
        simp [PyDict.get?_cons] at hiv
        subst hiv
        exact ⟨wb, by simp [PyDict.get?_cons], hwb⟩
      · simp [PyDict.get?_cons, Ne.symm h0, Ne.symm h1] at hiv

/-! ### The result -/

/-- The nodes that are selected. -/
theorem sel_mem (ts : List (Transition E (Option LS))) (nodeIds : Option (List ℤ))
    (hts : ∀ t ∈ ts, PyDict.keys t.interactions = [0, 1]) (hne : ts ≠ []) (i : ℤ) :
    i ∈ nodeIds.getD (ts.flatMap fun t => PyDict.keys t.interactions) ↔
      i ∈ nodeIds.getD [0, 1] := by
  cases nodeIds with
  | some l => rfl
  | none =>
    simp only [Option.getD_none, List.mem_flatMap]
    obtain ⟨t, ht⟩ := List.exists_mem_of_ne_nil _ hne
    constructor
    · rintro ⟨u, hu, h⟩; rwa [hts u hu] at h
    · intro h; exact ⟨t, ht, by rwa [hts t ht]⟩

theorem SameGroup.congr {E : Type} {sel sel' : List ℤ} (h : ∀ i, i ∈ sel ↔ i ∈ sel')
    (t u : Transition E (Option LS)) : SameGroup sel t u ↔ SameGroup sel' t u := by
  unfold SameGroup
  simp only [h]

theorem IsMinimum.congr {E : Type} {sel sel' : List ℤ} (h : ∀ i, i ∈ sel ↔ i ∈ sel')
    {ts : List (Transition E (Option LS))} {t0 r : Transition E (Option LS)}
    (hm : IsMinimum sel ts t0 r) : IsMinimum sel' ts t0 r := by
  have hc := fun t u => SameGroup.congr (E := E) h t u
  refine ⟨hm.topology, hm.states, hm.nodes, ?_, ?_, ?_⟩
  · intro i hi; exact hm.unselected i (by rwa [h])
  · intro i hi hu
    simp only [← hc] at hu
    exact hm.without i ((h i).2 hi) hu
  · intro i hi hk hu
    simp only [← hc] at hu ⊢
    exact hm.minimal i ((h i).2 hi) hk hu

theorem FirstOfGroups.congr {E : Type} {sel sel' : List ℤ} (h : ∀ i, i ∈ sel ↔ i ∈ sel')
    {ts fs : List (Transition E (Option LS))}
    (hm : FirstOfGroups sel ts fs) : FirstOfGroups sel' ts fs := by
  have hc := fun t u => SameGroup.congr (E := E) h t u
  obtain ⟨h1, h2, h3, h4⟩ := hm
  simp only [hc] at h2 h3 h4
  exact ⟨h1, h2, h3, h4⟩

/-- The grouping and minimisation. -/
theorem filter_groups {E : Type} [DecidableEq E] (sel : List ℤ)
    (ts : List (Transition E (Option LS))) (hts : ∀ t ∈ ts, ∃ r m n, OneResonance t r m n)
    (hne : ts ≠ [])
    (hk : (0 ∈ sel ∨ 1 ∈ sel) ∨ ∀ t ∈ ts, ∀ i, PyDict.get? t.interactions i ≠ some none) :
    ∃ groups fs rs, groupTransitions sel ts [] = .ok groups ∧
      groups.mapM (fun g => minTransition sel g.2) = .ok rs ∧
      FirstOfGroups sel ts fs ∧ List.Forall₂ (IsMinimum sel ts) fs rs := by
  have hkey : ∀ t ∈ ts, ∃ k, groupKey sel t = .ok k := by
    intro t ht
    obtain ⟨r, m, n, h⟩ := hts t ht
    obtain ⟨e, he⟩ := h.state
    exact ⟨_, groupKey_eq sel h he⟩
  obtain ⟨t1, ht1⟩ := List.exists_mem_of_ne_nil _ hne
  obtain ⟨k1, hk1⟩ := hkey t1 ht1
  let f : Transition E (Option LS) → GroupKey E := fun t =>
    match groupKey sel t with
    | .ok k => k
    | .error _ => k1
  have hf : ∀ t ∈ ts, groupKey sel t = .ok (f t) := by
    intro t ht
    obtain ⟨k, hk⟩ := hkey t ht
    simp only [f, hk]
  have hiff : ∀ t ∈ ts, ∀ u ∈ ts, (f t = f u ↔ SameGroup sel t u) := by
    intro t ht u hu
    obtain ⟨r, m, n, h⟩ := hts t ht
    obtain ⟨e, he⟩ := h.state
    obtain ⟨r', m', n', h'⟩ := hts u hu
    obtain ⟨e', he'⟩ := h'.state
    have e1 := (hf t ht).symm.trans (groupKey_eq sel h he)
    have e2 := (hf u hu).symm.trans (groupKey_eq sel h' he')
    injection e1 with e1
    injection e2 with e2
    rw [e1, e2]
    apply key_eq_iff h he h' he'
    rcases hk with hk | hk
    · exact .inl hk
    · exact .inr fun i => ⟨hk t ht i, hk u hu i⟩
  have hsub : ∀ t ∈ firsts f ts, t ∈ ts := fun t ht => (firsts_sublist f ts).subset ht
  have hfirst : ∀ t0 ∈ firsts f ts, ∃ r,
      minTransition sel (ts.filter fun u => f u = f t0) = .ok r ∧ IsMinimum sel ts t0 r := by
    intro t0 ht0
    obtain ⟨pre, post, hp, hpre⟩ := firsts_first f ts t0 ht0
    have hg : ts.filter (fun u => decide (f u = f t0))
        = t0 :: post.filter (fun u => decide (f u = f t0)) := by
      rw [hp, List.filter_append, List.filter_eq_nil_iff.2, List.nil_append, List.filter_cons]
      · simp
      · intro u hu; simpa using hpre u hu
    have hmem : ∀ u, u ∈ t0 :: post.filter (fun u => decide (f u = f t0)) ↔
        u ∈ ts ∧ SameGroup sel t0 u := by
      intro u
      rw [← hg, List.mem_filter, decide_eq_true_eq]
      constructor
      · rintro ⟨h1, h2⟩
        exact ⟨h1, (hiff t0 (hsub t0 ht0) u h1).1 h2.symm⟩
      · rintro ⟨h1, h2⟩
        exact ⟨h1, ((hiff t0 (hsub t0 ht0) u h1).2 h2).symm⟩
    obtain ⟨_, _, _, h0⟩ := hts t0 (hsub t0 ht0)
    obtain ⟨r, hr, htop, hst, hnodes, hint⟩ := minTransition_ok sel t0
      (post.filter (fun u => decide (f u = f t0))) h0.valid (by
        intro u hu
        obtain ⟨_, _, _, h⟩ := hts u ((hmem u).1 hu).1
        exact h.nodes)
    rw [hg]
    refine ⟨r, hr, htop, hst, by rw [hnodes, h0.nodes], ?_, ?_, ?_⟩
    · intro i hi
      cases hv : PyDict.get? t0.interactions i with
      | none =>
        rw [PyDict.get?_eq_none] at hv ⊢
        rwa [hnodes, ← h0.nodes]
      | some v =>
        obtain ⟨w, hw, hn, hm⟩ := hint i v hv
        rw [hw]
        by_cases hex : ∃ u ∈ t0 :: post.filter (fun u => decide (f u = f t0)),
            PyDict.get? u.interactions i = some none
        · rw [hn hex]
          obtain ⟨u, hu, hun⟩ := hex
          obtain ⟨hu, _, _, _, _, _, _, _, _, _, _, hsame⟩ := (hmem u).1 hu
          rw [← hv, hsame i hi, hun]
        · have hall : ∀ u ∈ t0 :: post.filter (fun u => decide (f u = f t0)),
              PyDict.get? u.interactions i ≠ some none := fun u hu h => hex ⟨u, hu, h⟩
          rw [(hm hall).1 hi]
    · rintro i hi ⟨u, hu, hg, hun⟩
      have hi' : i ∈ PyDict.keys t0.interactions := by
        obtain ⟨_, _, _, h⟩ := hts u hu
        rw [h0.nodes, ← h.nodes, PyDict.mem_keys_iff]
        exact ⟨_, hun⟩
      obtain ⟨v, hv⟩ := PyDict.mem_keys_iff.1 hi'
      obtain ⟨w, hw, hn, -⟩ := hint i v hv
      rw [hw, hn ⟨u, (hmem u).2 ⟨hu, hg⟩, hun⟩]
    · intro i hi hi' hall
      obtain ⟨v, hv⟩ := PyDict.mem_keys_iff.1 hi'
      obtain ⟨w, hw, -, hm⟩ := hint i v hv
      obtain ⟨x, hx, ⟨u, hu, hux⟩, hmin⟩ := (hm (fun u hu => hall u ((hmem u).1 hu).1
        ((hmem u).1 hu).2)).2 hi
      refine ⟨x, by rw [hw, hx], ⟨u, ((hmem u).1 hu).1, ((hmem u).1 hu).2, hux⟩, ?_⟩
      intro u hu hg
      exact hmin u ((hmem u).2 ⟨hu, hg⟩)
  choose! g hg using hfirst
  refine ⟨_, firsts f ts, (firsts f ts).map g, groupTransitions_eq sel f ts hf [], ?_, ?_, ?_⟩
  · rw [groupFold_eq, mapM_ok_iff, List.forall₂_map_left_iff, List.forall₂_map_right_iff,
      List.forall₂_same]
    exact fun t ht => (hg t ht).1
  · refine ⟨firsts_sublist f ts, ?_, ?_, ?_⟩
    · refine (firsts_pairwise f ts).imp_of_mem ?_
      intro t u ht hu hne hs
      exact hne ((hiff t (hsub t ht) u (hsub u hu)).2 hs)
    · intro t ht
      obtain ⟨u, hu, h⟩ := firsts_all f ts t ht
      exact ⟨u, hu, (hiff u (hsub u hu) t ht).1 h⟩
    · intro t ht
      obtain ⟨pre, post, hp, hpre⟩ := firsts_first f ts t ht
      refine ⟨pre, post, hp, ?_⟩
      intro u hu hs
      exact hpre u hu ((hiff u (by rw [hp]; simp [hu]) t (hsub t ht)).2 hs)
  · rw [List.forall₂_map_right_iff, List.forall₂_same]
    exact fun t ht => (hg t ht).2

end Verif.Qrules
