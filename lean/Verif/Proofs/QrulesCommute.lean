import Verif.Proofs.QrulesPermute

/-! Normalisation of the IDs commutes with permutation of equal final states. -/
namespace Verif

theorem pySet_map {α β γ δ : Type} [DecidableEq γ] [DecidableEq δ] (key : α → γ) (key' : β → δ)
    (g : α → β) (l : List α)
    (h : ∀ a ∈ l, ∀ b ∈ l, key' (g a) = key' (g b) ↔ key a = key b) :
    pySet key' (l.map g) = (pySet key l).map g := by
  have : ∀ (m acc : List α), (∀ a ∈ acc ++ m, a ∈ l) →
      (m.map g).foldl (pySetStep key') (acc.map g) = (m.foldl (pySetStep key) acc).map g := by
    intro m
    induction m with
    | nil => intro acc _; rfl
    | cons x m ih =>
      intro acc hm
      rw [List.map_cons, List.foldl_cons, List.foldl_cons]
      have hx : x ∈ l := hm x (by simp)
      have hs : pySetStep key' (acc.map g) (g x) = (pySetStep key acc x).map g := by
        have hany : ((acc.map g).any fun y => key' y = key' (g x)) = acc.any fun y => key y = key x := by
          rw [List.any_map]
          have hacc : ∀ a ∈ acc, a ∈ l := fun a ha => hm a (by simp [ha])
          clear hm ih
          induction acc with
          | nil => rfl
          | cons a acc ih =>
            simp only [List.any_cons, Function.comp]
            congr 1
            · simp only [decide_eq_decide]
              exact h a (hacc a (.head _)) x hx
            · exact ih fun a ha => hacc a (.tail _ ha)
        unfold pySetStep
        rw [hany]
        split_ifs <;> simp
      rw [hs]
      apply ih
      intro a ha
      rw [List.mem_append] at ha
      rcases ha with ha | ha
      · unfold pySetStep at ha
        split_ifs at ha
        · exact hm a (by simp [ha])
        · rw [List.mem_append, List.mem_singleton] at ha
          rcases ha with ha | rfl
          · exact hm a (by simp [ha])
          · exact hx
      · exact hm a (by simp [ha])
  exact this l [] (fun a ha => by simpa using ha)

theorem pySorted_map {α β γ δ : Type} [LinearOrder γ] [LinearOrder δ] (key : α → γ) (key' : β → δ)
    (c : α → α → Bool) (c' : β → β → Bool) (g : α → β) (l : List α)
    (hk : ∀ a ∈ l, ∀ b ∈ l, key' (g a) ≤ key' (g b) ↔ key a ≤ key b)
    (hc : ∀ a ∈ l, ∀ b ∈ l, c' (g a) (g b) = c a b) :
    pySorted key' c' (l.map g) = (pySorted key c l).map (List.map g) := by
  unfold pySorted
  have hall : ((l.map g).all fun a => (l.map g).all fun b => c' a b)
      = l.all fun a => l.all fun b => c a b := by
    rw [Bool.eq_iff_iff]
    simp only [List.all_eq_true, List.mem_map, forall_exists_index, and_imp,
      forall_apply_eq_imp_iff₂]
    constructor
    · intro h a ha b hb; rw [← hc a ha b hb]; exact h a ha b hb
    · intro h a ha b hb; rw [hc a ha b hb]; exact h a ha b hb
  rw [hall]
  split_ifs
  · simp only [Except.map]
    rw [List.map_mergeSort (s := fun a b => decide (key' a ≤ key' b))]
    intro a ha b hb
    simp only [decide_eq_decide]
    exact (hk a ha b hb).symm
  · rfl

end Verif

namespace Verif.Qrules
open Verif Verif.ThreeBody

/-- Relabel the keys of items. -/
def onKey {α : Type} (f : ℤ → ℤ) (x : ℤ × α) : ℤ × α := (f x.1, x.2)

theorem sortedSet_map {K : List ℤ} {f : ℤ → ℤ} (hf : ∀ a ∈ K, ∀ b ∈ K, a < b → f a < f b)
    {l : List ℤ} (hl : ∀ a ∈ l, a ∈ K) : sortedSet (l.map f) = (sortedSet l).map f := by
  apply sorted_keys_unique (sortedSet_pairwise _)
  · rw [List.pairwise_map]
    apply (sortedSet_pairwise l).imp_of_mem
    intro a b ha hb h
    exact hf a (hl a ((sortedSet_mem _ _).1 ha)) b (hl b ((sortedSet_mem _ _).1 hb)) h
  · intro x
    rw [sortedSet_mem, List.mem_map, List.mem_map]
    simp only [sortedSet_mem]

theorem inj_of_mono {K : List ℤ} {f : ℤ → ℤ} (hf : ∀ a ∈ K, ∀ b ∈ K, a < b → f a < f b) :
    ∀ a ∈ K, ∀ b ∈ K, f a = f b → a = b := by
  intro a ha b hb h
  rcases lt_trichotomy a b with hlt | rfl | hlt
  · exact absurd h (hf a ha b hb hlt).ne
  · rfl
  · exact absurd h (hf b hb a ha hlt).ne'

theorem dictItems_map {α : Type} {K : List ℤ} {f : ℤ → ℤ}
    (hf : ∀ a ∈ K, ∀ b ∈ K, a < b → f a < f b) (d : PyDict ℤ α) (hd : ∀ k ∈ PyDict.keys d, k ∈ K) :
    dictItems (d.map (onKey f)) = (dictItems d).map (onKey f) := by
  unfold dictItems
  rw [show PyDict.keys (d.map (onKey f)) = (PyDict.keys d).map f from keys_map_key d f,
    sortedSet_map hf hd, List.filterMap_map, List.map_filterMap]
  apply List.filterMap_congr
  intro k hk
  rw [sortedSet_mem] at hk
  simp only [Function.comp]
  rw [show PyDict.get? (d.map (onKey f)) (f k) = PyDict.get? d k from
    PyDict.get?_map_key d f (fun a ha h => inj_of_mono hf a (hd a ha) k (hd k hk) h)]
  cases PyDict.get? d k <;> rfl

theorem onKey_inj {α : Type} {K : List ℤ} {f : ℤ → ℤ} (hf : ∀ a ∈ K, ∀ b ∈ K, a < b → f a < f b)
    {x y : ℤ × α} (hx : x.1 ∈ K) (hy : y.1 ∈ K) : onKey f x = onKey f y ↔ x = y := by
  constructor
  · intro h
    have h1 := congrArg Prod.fst h
    have h2 := congrArg Prod.snd h
    exact Prod.ext (inj_of_mono hf _ hx _ hy h1) h2
  · rintro rfl; rfl

theorem listComparable_map {α : Type} [DecidableEq α] {K : List ℤ} {f : ℤ → ℤ}
    (hf : ∀ a ∈ K, ∀ b ∈ K, a < b → f a < f b) (c : α → α → Bool) (l m : List (ℤ × α))
    (hl : ∀ x ∈ l, x.1 ∈ K) (hm : ∀ x ∈ m, x.1 ∈ K) :
    listComparable (itemComparable c) (l.map (onKey f)) (m.map (onKey f))
      = listComparable (itemComparable c) l m := by
  induction l generalizing m with
  | nil => cases m <;> rfl
  | cons x l ih =>
    cases m with
    | nil => rfl
    | cons y m =>
      have hx := hl x (.head _)
      have hy := hm y (.head _)
      simp only [List.map_cons, listComparable, onKey_inj hf hx hy]
      rw [ih m (fun x h => hl x (.tail _ h)) (fun x h => hm x (.tail _ h))]
      congr 1
      unfold itemComparable onKey
      have : f x.1 = f y.1 ↔ x.1 = y.1 := ⟨inj_of_mono hf _ hx _ hy, fun h => by rw [h]⟩
      simp only [this]

/-- An edge with its ID, as it is compared. -/
def edgeKey (x : ℤ × Edge) : ℤ ×ₗ WithBot ℤ ×ₗ WithBot ℤ :=
  toLex (x.1, toLex (x.2.orig, x.2.dest))

theorem edgeKey_lt {K : List ℤ} {f : ℤ → ℤ} (hf : ∀ a ∈ K, ∀ b ∈ K, a < b → f a < f b)
    {x y : ℤ × Edge} (hx : x.1 ∈ K) (hy : y.1 ∈ K) (h : edgeKey x < edgeKey y) :
    edgeKey (onKey f x) < edgeKey (onKey f y) := by
  unfold edgeKey at h ⊢
  rw [Prod.Lex.lt_iff] at h ⊢
  rcases h with h | ⟨h1, h2⟩
  · exact .inl (hf _ hx _ hy h)
  · exact .inr ⟨congrArg f h1, h2⟩

theorem edgeKey_inj {x y : ℤ × Edge} (h : edgeKey x = edgeKey y) : x = y := by
  have h1 := congrArg (fun z => (ofLex z).1) h
  have h2 := congrArg (fun z => (ofLex (ofLex z).2).1) h
  have h3 := congrArg (fun z => (ofLex (ofLex z).2).2) h
  obtain ⟨i, a, b⟩ := x
  obtain ⟨j, c, d⟩ := y
  simp only [edgeKey, ofLex_toLex] at h1 h2 h3
  subst h1
  cases (show a = c from h2)
  cases (show b = d from h3)
  rfl

theorem edgeKeys_lt {K : List ℤ} {f : ℤ → ℤ} (hf : ∀ a ∈ K, ∀ b ∈ K, a < b → f a < f b)
    (l m : List (ℤ × Edge)) (hl : ∀ x ∈ l, x.1 ∈ K) (hm : ∀ x ∈ m, x.1 ∈ K)
    (h : l.map edgeKey < m.map edgeKey) :
    (l.map (onKey f)).map edgeKey < (m.map (onKey f)).map edgeKey := by
  induction l generalizing m with
  | nil =>
    cases m with
    | nil => exact absurd h (lt_irrefl _)
    | cons y m => simp only [List.map_nil, List.map_cons]; exact List.nil_lt_cons _ _
  | cons x l ih =>
    cases m with
    | nil => exact absurd h (by simp)
    | cons y m =>
      simp only [List.map_cons, List.cons_lt_cons_iff] at h ⊢
      rcases h with h | ⟨h1, h2⟩
      · exact .inl (edgeKey_lt hf (hl x (.head _)) (hm y (.head _)) h)
      · refine .inr ⟨by rw [edgeKey_inj h1], ?_⟩
        exact ih m (fun x h => hl x (.tail _ h)) (fun x h => hm x (.tail _ h)) h2

/-- A topology with other edge IDs. -/
def Topology.mapIds (f : ℤ → ℤ) (t : Topology) : Topology := ⟨t.nodes, t.edges.map (onKey f)⟩

theorem dictItems_mem {α : Type} {d : PyDict ℤ α} {x : ℤ × α} (h : x ∈ dictItems d) :
    x.1 ∈ PyDict.keys d := by
  rw [← mem_keys_dictItems]
  exact List.mem_map.2 ⟨x, h, rfl⟩

theorem mapIds_lt {K : List ℤ} {f : ℤ → ℤ} (hf : ∀ a ∈ K, ∀ b ∈ K, a < b → f a < f b)
    {a b : Topology} (ha : ∀ k ∈ PyDict.keys a.edges, k ∈ K) (hb : ∀ k ∈ PyDict.keys b.edges, k ∈ K)
    (h : a.key < b.key) : (a.mapIds f).key < (b.mapIds f).key := by
  unfold Topology.key Topology.mapIds at *
  simp only [dictItems_map hf a.edges ha, dictItems_map hf b.edges hb] at *
  rw [Prod.Lex.lt_iff] at h ⊢
  rcases h with h | ⟨h1, h2⟩
  · exact .inl h
  · exact .inr ⟨h1, edgeKeys_lt hf _ _ (fun x hx => ha _ (dictItems_mem hx))
      (fun x hx => hb _ (dictItems_mem hx)) h2⟩

theorem mapIds_key_congr {K : List ℤ} {f : ℤ → ℤ} (hf : ∀ a ∈ K, ∀ b ∈ K, a < b → f a < f b)
    {a b : Topology} (ha : ∀ k ∈ PyDict.keys a.edges, k ∈ K) (hb : ∀ k ∈ PyDict.keys b.edges, k ∈ K)
    (h : a.key = b.key) : (a.mapIds f).key = (b.mapIds f).key := by
  have h1 := congrArg (fun z => (ofLex z).1) h
  have h2 := congrArg (fun z => (ofLex z).2) h
  have h3 : dictItems a.edges = dictItems b.edges :=
    List.map_injective_iff.2 (fun x y h => edgeKey_inj h) h2
  unfold Topology.key Topology.mapIds
  simp only [dictItems_map hf a.edges ha, dictItems_map hf b.edges hb, h3]
  rw [show a.nodes = b.nodes from h1]

theorem mapIds_le_iff {K : List ℤ} {f : ℤ → ℤ} (hf : ∀ a ∈ K, ∀ b ∈ K, a < b → f a < f b)
    {a b : Topology} (ha : ∀ k ∈ PyDict.keys a.edges, k ∈ K)
    (hb : ∀ k ∈ PyDict.keys b.edges, k ∈ K) :
    (a.mapIds f).key ≤ (b.mapIds f).key ↔ a.key ≤ b.key := by
  constructor
  · intro h
    by_contra hn
    exact absurd h (not_le_of_gt (mapIds_lt hf hb ha (lt_of_not_ge hn)))
  · intro h
    rcases lt_or_eq_of_le h with h | h
    · exact (mapIds_lt hf ha hb h).le
    · exact (mapIds_key_congr hf ha hb h).le

theorem mapIds_eq_iff {K : List ℤ} {f : ℤ → ℤ} (hf : ∀ a ∈ K, ∀ b ∈ K, a < b → f a < f b)
    {a b : Topology} (ha : ∀ k ∈ PyDict.keys a.edges, k ∈ K)
    (hb : ∀ k ∈ PyDict.keys b.edges, k ∈ K) :
    (a.mapIds f).key = (b.mapIds f).key ↔ a.key = b.key := by
  rw [le_antisymm_iff, le_antisymm_iff, mapIds_le_iff hf ha hb, mapIds_le_iff hf hb ha]

theorem mapIds_comparable {K : List ℤ} {f : ℤ → ℤ} (hf : ∀ a ∈ K, ∀ b ∈ K, a < b → f a < f b)
    {a b : Topology} (ha : ∀ k ∈ PyDict.keys a.edges, k ∈ K)
    (hb : ∀ k ∈ PyDict.keys b.edges, k ∈ K) :
    (a.mapIds f).comparable (b.mapIds f) = a.comparable b := by
  unfold Topology.comparable Topology.mapIds
  simp only [dictItems_map hf a.edges ha, dictItems_map hf b.edges hb]
  rw [listComparable_map hf _ _ _ (fun x hx => ha _ (dictItems_mem hx))
    (fun x hx => hb _ (dictItems_mem hx))]

theorem mapM_map_except {α β γ δ : Type} (F : γ → Py δ) (G : α → Py β) (p : α → γ) (q : β → δ)
    (l : List α) (h : ∀ a ∈ l, F (p a) = (G a).map q) :
    (l.map p).mapM F = (l.mapM G).map (List.map q) := by
  induction l with
  | nil => rfl
  | cons a l ih =>
    rw [List.map_cons, List.mapM_cons, List.mapM_cons, h a (.head _),
      ih fun b hb => h b (.tail _ hb)]
    cases G a with
    | error e => rfl
    | ok b =>
      cases l.mapM G with
      | error e => rfl
      | ok bs => rfl

theorem pairs_map (f : ℤ → ℤ) (l : List ℤ) :
    pairs (l.map f) = (pairs l).map fun x => (f x.1, f x.2) := by
  induction l with
  | nil => rfl
  | cons a l ih =>
    simp only [List.map_cons, pairs, List.map_append, List.map_map, ih]
    rfl

/-- Relabel the IDs in groups. -/
def onIds (f : ℤ → ℤ) (x : String × List ℤ) : String × List ℤ := (x.1, x.2.map f)

theorem get?_onIds (f : ℤ → ℤ) (d : PyDict String (List ℤ)) (k : String) :
    PyDict.get? (d.map (onIds f)) k = (PyDict.get? d k).map (List.map f) := by
  induction d with
  | nil => rfl
  | cons x d ih =>
    obtain ⟨k', v⟩ := x
    rw [List.map_cons]
    show PyDict.get? ((k', v.map f) :: d.map (onIds f)) k = _
    rw [PyDict.get?_cons, PyDict.get?_cons, ih]
    split_ifs <;> rfl

theorem set_onIds (f : ℤ → ℤ) (d : PyDict String (List ℤ)) (k : String) (v : List ℤ) :
    PyDict.set (d.map (onIds f)) k (v.map f) = (PyDict.set d k v).map (onIds f) := by
  induction d with
  | nil => rfl
  | cons x d ih =>
    obtain ⟨k', w⟩ := x
    rw [List.map_cons]
    show PyDict.set ((k', w.map f) :: d.map (onIds f)) k (v.map f) = _
    unfold PyDict.set
    split_ifs
    · rfl
    · rw [List.map_cons, ih]; rfl

theorem groupFold_map (f : ℤ → ℤ) (l : List (String × ℤ)) (d : PyDict String (List ℤ)) :
    (l.map fun x => (x.1, f x.2)).foldl (fun d x => groupAppend d x.1 x.2) (d.map (onIds f))
      = (l.foldl (fun d x => groupAppend d x.1 x.2) d).map (onIds f) := by
  induction l generalizing d with
  | nil => rfl
  | cons x l ih =>
    rw [List.map_cons, List.foldl_cons, List.foldl_cons, ← ih]
    congr 1
    unfold groupAppend
    rw [get?_onIds, ← set_onIds]
    congr 1
    cases PyDict.get? d x.1 <;> simp

/-- The IDs in groups are those that were added. -/
theorem groupFold_mem (l : List (String × ℤ)) (d : PyDict String (List ℤ)) (K : List ℤ)
    (hl : ∀ x ∈ l, x.2 ∈ K) (hd : ∀ x ∈ d, ∀ i ∈ x.2, i ∈ K) :
    ∀ x ∈ l.foldl (fun d x => groupAppend d x.1 x.2) d, ∀ i ∈ x.2, i ∈ K := by
  induction l generalizing d with
  | nil => exact hd
  | cons y l ih =>
    rw [List.foldl_cons]
    apply ih _ (fun x hx => hl x (.tail _ hx))
    have hset : ∀ (d : PyDict String (List ℤ)) (k : String) (v : List ℤ),
        (∀ x ∈ d, ∀ i ∈ x.2, i ∈ K) → (∀ i ∈ v, i ∈ K) →
        ∀ x ∈ PyDict.set d k v, ∀ i ∈ x.2, i ∈ K := by
      intro d k v
      induction d with
      | nil =>
        intro _ hv x hx
        unfold PyDict.set at hx
        rw [List.mem_singleton] at hx
        subst hx
        exact hv
      | cons z d ih =>
        obtain ⟨k', w⟩ := z
        intro hd hv x hx
        unfold PyDict.set at hx
        split_ifs at hx
        · rcases List.mem_cons.1 hx with rfl | hx
          · exact hv
          · exact hd x (.tail _ hx)
        · rcases List.mem_cons.1 hx with rfl | hx
          · exact hd _ (.head _)
          · exact ih (fun x hx => hd x (.tail _ hx)) hv x hx
    apply hset d _ _ hd
    intro i hi
    rw [List.mem_append, List.mem_singleton] at hi
    rcases hi with hi | rfl
    · cases hg : PyDict.get? d y.1 with
      | none => rw [hg] at hi; cases hi
      | some v =>
        rw [hg] at hi
        exact hd (y.1, v) (PyDict.mem_of_get? hg) i hi
    · exact hl y (.head _)

theorem outgoing_sub (t : Topology) {k : ℤ} (h : k ∈ t.outgoing) : k ∈ PyDict.keys t.edges := by
  unfold Topology.outgoing at h
  rw [sortedSet_mem] at h
  obtain ⟨x, hx, rfl⟩ := List.mem_map.1 h
  exact List.mem_map.2 ⟨x, (List.mem_filter.1 hx).1, rfl⟩

/-- The transition with normalised IDs. -/
def normT {E N : Type} (t : Transition E N) : Transition E N :=
  ⟨normalizeTopology t.topology, normStates t.states, t.interactions⟩

theorem mapM_mem {α β : Type} {f : α → Py β} {l : List α} {r : List β} (h : l.mapM f = .ok r)
    {b : β} (hb : b ∈ r) : ∃ a ∈ l, f a = .ok b := by
  rw [mapM_ok_iff] at h
  induction h with
  | nil => cases hb
  | cons h1 _ ih =>
    rcases List.mem_cons.1 hb with rfl | hb
    · exact ⟨_, .head _, h1⟩
    · obtain ⟨a, ha, h⟩ := ih hb
      exact ⟨a, .tail _ ha, h⟩

theorem finalStates_normT {E N : Type} (t : Transition E N) (hv : Valid t) :
    (normT t).finalStates = t.finalStates.map (List.map (onKey (rank (PyDict.keys t.states)))) := by
  have hf : rank (PyDict.keys t.topology.edges) = rank (PyDict.keys t.states) :=
    funext (rank_congr hv.sameEdges)
  unfold Transition.finalStates filterStates
  have h1 : (normT t).topology.outgoing = t.topology.outgoing.map (rank (PyDict.keys t.states)) := by
    rw [← hf]
    exact select_normalize t.topology hv.edges (fun e => e.dest.isNone)
  rw [h1]
  apply mapM_map_except
  intro k hk
  have hk' := (hv.sameEdges k).1 (outgoing_sub _ hk)
  have hg : PyDict.get (normT t).states (rank (PyDict.keys t.states) k) = PyDict.get t.states k := by
    unfold PyDict.get
    rw [show PyDict.get? (normT t).states _ = _ from (normStates_relabelled t.states).2 k hk']
  rw [hg]
  cases PyDict.get t.states k <;> rfl

theorem equalFinalStateIds_normT {N : Type} (t : Transition QObj N) (hv : Valid t) :
    equalFinalStateIds (normT t)
      = (equalFinalStateIds t).map (List.map (rank (PyDict.keys t.states))) := by
  unfold equalFinalStateIds
  rw [finalStates_normT t hv]
  cases hfin : t.finalStates with
  | error e => rfl
  | ok fin =>
    simp only [Except.map, bind, Except.bind]
    have hnamed := mapM_map_except
      (fun x : ℤ × QObj => (do return (← uniquenessRepr x.2, x.1) : Py (String × ℤ)))
      (fun x : ℤ × QObj => (do return (← uniquenessRepr x.2, x.1) : Py (String × ℤ)))
      (onKey (rank (PyDict.keys t.states))) (fun x => (x.1, rank (PyDict.keys t.states) x.2)) fin
      (fun x _ => by
        show (do return (← uniquenessRepr x.2, _) : Py (String × ℤ)) = _
        cases uniquenessRepr x.2 <;> rfl)
    simp only [bind, Except.bind] at hnamed
    rw [hnamed]
    cases hn : (fin.mapM (fun x : ℤ × QObj =>
        (do return (← uniquenessRepr x.2, x.1) : Py (String × ℤ)))) with
    | error e =>
      simp only [bind, Except.bind] at hn
      rw [hn]; rfl
    | ok named =>
      have hids : ∀ x ∈ named, x.2 ∈ PyDict.keys t.states := by
        intro x hx
        obtain ⟨y, hy, hyx⟩ := mapM_mem hn hx
        obtain ⟨k, hk, hky⟩ := mapM_mem hfin hy
        have h1 : y.1 = k := by
          cases hg : PyDict.get t.states k with
          | error e => rw [hg] at hky; cases hky
          | ok v => rw [hg] at hky; injection hky with hky; rw [← hky]
        have h2 : x.2 = y.1 := by
          cases hg : uniquenessRepr y.2 with
          | error e => rw [hg] at hyx; cases hyx
          | ok v => rw [hg] at hyx; injection hyx with hyx; rw [← hyx]
        rw [h2, h1]
        exact (hv.sameEdges k).1 (outgoing_sub _ hk)
      simp only [bind, Except.bind] at hn
      rw [hn]
      simp only [Except.map]
      have := groupFold_map (rank (PyDict.keys t.states)) named []
      rw [List.map_nil] at this
      rw [this]
      have hK := groupFold_mem named [] (PyDict.keys t.states) hids (fun x hx => by cases hx)
      generalize named.foldl (fun d x => groupAppend d x.1 x.2) [] = g at hK
      rw [List.map_map, show (Prod.snd ∘ onIds (rank (PyDict.keys t.states)))
        = (List.map (rank (PyDict.keys t.states))) ∘ Prod.snd from rfl, ← List.map_map,
        List.filter_map]
      have hcomp : ((fun ids : List ℤ => decide (ids.length > 1)) ∘
          List.map (rank (PyDict.keys t.states))) = fun ids => decide (ids.length > 1) := by
        funext ids; simp
      rw [hcomp]
      cases hfl : (g.map Prod.snd).filter (fun ids => decide (ids.length > 1)) with
      | nil => rfl
      | cons ids rest =>
        simp only [List.map_cons, pure, Except.pure]
        congr 1
        have hmem : ids ∈ g.map Prod.snd :=
          (List.mem_filter.1 (by rw [hfl]; exact .head _ :
            ids ∈ (g.map Prod.snd).filter (fun ids => decide (ids.length > 1)))).1
        obtain ⟨x, hx, rfl⟩ := List.mem_map.1 hmem
        exact sortedSet_map (K := PyDict.keys t.states)
          (fun a ha b _ h => rank_lt ha h) (hK x hx)

theorem equalFinalStateIds_sub {N : Type} {t : Transition QObj N} {ids : List ℤ}
    (h : equalFinalStateIds t = .ok ids) : ∀ i ∈ ids, i ∈ t.topology.outgoing := by
  unfold equalFinalStateIds at h
  cases hfin : t.finalStates with
  | error e => rw [hfin] at h; cases h
  | ok fin =>
    rw [hfin] at h
    simp only [bind, Except.bind] at h
    cases hn : (fin.mapM (fun x : ℤ × QObj =>
        (do return (← uniquenessRepr x.2, x.1) : Py (String × ℤ)))) with
    | error e =>
      simp only [bind, Except.bind] at hn
      rw [hn] at h; cases h
    | ok named =>
      have hids : ∀ x ∈ named, x.2 ∈ t.topology.outgoing := by
        intro x hx
        obtain ⟨y, hy, hyx⟩ := mapM_mem hn hx
        obtain ⟨k, hk, hky⟩ := mapM_mem hfin hy
        have h1 : y.1 = k := by
          cases hg : PyDict.get t.states k with
          | error e => rw [hg] at hky; cases hky
          | ok v => rw [hg] at hky; injection hky with hky; rw [← hky]
        have h2 : x.2 = y.1 := by
          cases hg : uniquenessRepr y.2 with
          | error e => rw [hg] at hyx; cases hyx
          | ok v => rw [hg] at hyx; injection hyx with hyx; rw [← hyx]
        rw [h2, h1]
        exact hk
      simp only [bind, Except.bind] at hn
      rw [hn] at h
      simp only at h
      have hK := groupFold_mem named [] t.topology.outgoing hids (fun x hx => by cases hx)
      generalize named.foldl (fun d x => groupAppend d x.1 x.2) [] = g at hK h
      cases hfl : (g.map Prod.snd).filter (fun ids => decide (ids.length > 1)) with
      | nil =>
        rw [hfl] at h
        simp only [pure, Except.pure] at h
        injection h with h
        subst h
        intro i hi
        cases hi
      | cons ids' rest =>
        rw [hfl] at h
        simp only [pure, Except.pure] at h
        injection h with h
        subst h
        have hmem : ids' ∈ g.map Prod.snd :=
          (List.mem_filter.1 (by rw [hfl]; exact .head _ :
            ids' ∈ (g.map Prod.snd).filter (fun ids => decide (ids.length > 1)))).1
        obtain ⟨x, hx, rfl⟩ := List.mem_map.1 hmem
        intro i hi
        exact hK x hx i ((sortedSet_mem _ _).1 hi)

/-- The transition with the edges `x` and `y` exchanged. -/
def swapT {E N : Type} (t : Transition E N) (x : ℤ × ℤ) : Transition E N :=
  ⟨t.topology.swapEdges x.1 x.2, t.states, t.interactions⟩

theorem swapT_keys {E N : Type} {t : Transition E N} (hv : Valid t) {x : ℤ × ℤ}
    (h1 : x.1 ∈ PyDict.keys t.topology.edges) (h2 : x.2 ∈ PyDict.keys t.topology.edges) (k : ℤ) :
    k ∈ PyDict.keys (swapT t x).topology.edges ↔ k ∈ PyDict.keys t.topology.edges :=
  keys_swapEdges t.topology x.1 x.2 hv.edges h1 h2 k

theorem swapT_valid {E N : Type} {t : Transition E N} (hv : Valid t) {x : ℤ × ℤ}
    (h1 : x.1 ∈ PyDict.keys t.topology.edges) (h2 : x.2 ∈ PyDict.keys t.topology.edges) :
    Valid (swapT t x) where
  edges := by
    show (PyDict.keys (t.topology.swapEdges x.1 x.2).edges).Nodup
    rw [swapEdges_eq _ _ _ hv.edges]
    rw [show PyDict.keys (t.topology.edges.map fun e => (exch x.1 x.2 e.1, e.2))
      = (PyDict.keys t.topology.edges).map (exch x.1 x.2) from keys_map_key _ _]
    exact hv.edges.map fun a b h => exch_inj _ _ h
  states := hv.states
  interactions := hv.interactions
  sameEdges := fun i => by rw [swapT_keys hv h1 h2]; exact hv.sameEdges i
  sameNodes := fun i => hv.sameNodes i

theorem new_of_valid {E N : Type} {t : Transition E N} (hv : Valid t) :
    Transition.new t.topology t.states t.interactions = .ok t := by
  unfold Transition.new
  rw [if_pos]
  rw [Bool.and_eq_true, setEq_iff, setEq_iff]
  exact ⟨hv.sameNodes, hv.sameEdges⟩

theorem normT_swapT {E N : Type} {t : Transition E N} (hv : Valid t) {x : ℤ × ℤ}
    (h1 : x.1 ∈ PyDict.keys t.topology.edges) (h2 : x.2 ∈ PyDict.keys t.topology.edges)
    (hv' : Valid (normT t)) :
    normT (swapT t x) = swapT (normT t) (rank (PyDict.keys t.states) x.1,
      rank (PyDict.keys t.states) x.2) := by
  have hf : rank (PyDict.keys t.topology.edges) = rank (PyDict.keys t.states) :=
    funext (rank_congr hv.sameEdges)
  have hsame : (normT (swapT t x)).topology = (swapT (normT t) (rank (PyDict.keys t.states) x.1,
      rank (PyDict.keys t.states) x.2)).topology := by
    show normalizeTopology (t.topology.swapEdges x.1 x.2)
      = (normalizeTopology t.topology).swapEdges _ _
    rw [normalizeTopology_eq (t.topology.swapEdges x.1 x.2) (swapT_valid hv h1 h2).edges,
      swapEdges_eq (normalizeTopology t.topology) _ _ hv'.edges]
    have hr : rank (PyDict.keys (t.topology.swapEdges x.1 x.2).edges)
        = rank (PyDict.keys t.states) := by
      rw [← hf]
      exact funext (rank_congr (swapT_keys hv h1 h2))
    rw [hr, swapEdges_eq _ _ _ hv.edges, normalizeTopology_eq _ hv.edges, hf]
    simp only [List.map_map, Topology.mk.injEq, true_and]
    apply List.map_congr_left
    intro e he
    have hk : e.1 ∈ PyDict.keys t.topology.edges := List.mem_map.2 ⟨e, he, rfl⟩
    simp only [Function.comp]
    congr 1
    have hi : ∀ a, a ∈ PyDict.keys t.topology.edges →
        (rank (PyDict.keys t.states) e.1 = rank (PyDict.keys t.states) a ↔ e.1 = a) := by
      intro a ha
      exact ⟨fun h => rank_inj ((hv.sameEdges _).1 hk) ((hv.sameEdges _).1 ha) h,
        fun h => by rw [h]⟩
    unfold exch
    simp only [hi _ h1, hi _ h2]
    split_ifs <;> rfl
  unfold normT swapT at *
  simp only at hsame
  simp only [hsame]

theorem normT_valid {E N : Type} {t : Transition E N} (hv : Valid t) : Valid (normT t) where
  edges := by
    show (PyDict.keys (normalizeTopology t.topology).edges).Nodup
    rw [normalizeTopology_eq _ hv.edges, keys_map_key]
    exact List.Nodup.map_on (fun a ha b hb => rank_inj ha hb) hv.edges
  states := (keys_normStates_sorted t.states).imp ne_of_lt
  interactions := hv.interactions
  sameEdges := by
    intro i
    show i ∈ PyDict.keys (normalizeTopology t.topology).edges ↔ i ∈ PyDict.keys (normStates t.states)
    rw [normalizeTopology_eq _ hv.edges, keys_map_key, keys_normStates,
      funext (rank_congr hv.sameEdges), List.mem_map, List.mem_map]
    simp only [sortedSet_mem, hv.sameEdges]
  sameNodes := fun i => by
    show i ∈ (normalizeTopology t.topology).nodes ↔ _
    rw [normalizeTopology_eq _ hv.edges]
    exact hv.sameNodes i

theorem normT_topology {E N : Type} {t : Transition E N} (hv : Valid t) :
    (normT t).topology = t.topology.mapIds (rank (PyDict.keys t.topology.edges)) :=
  normalizeTopology_eq _ hv.edges

theorem mapM_new_swap {E N : Type} {t : Transition E N} (hv : Valid t) (l : List (ℤ × ℤ))
    (hl : ∀ x ∈ l, x.1 ∈ PyDict.keys t.topology.edges ∧ x.2 ∈ PyDict.keys t.topology.edges) :
    (l.mapM fun x => Transition.new (t.topology.swapEdges x.1 x.2) t.states t.interactions)
      = .ok (l.map (swapT t)) := by
  induction l with
  | nil => rfl
  | cons x l ih =>
    rw [List.mapM_cons, ih fun y hy => hl y (.tail _ hy),
      show Transition.new (t.topology.swapEdges x.1 x.2) t.states t.interactions = .ok (swapT t x)
        from new_of_valid (swapT_valid hv (hl x (.head _)).1 (hl x (.head _)).2)]
    rfl

theorem permute_normT {N : Type} (t : Transition QObj N) (hv : Valid t) :
    permuteEqualFinalStates (normT t)
      = (permuteEqualFinalStates t).map (List.map normT) := by
  have hv' := normT_valid hv
  unfold permuteEqualFinalStates
  rw [equalFinalStateIds_normT t hv]
  cases hids : equalFinalStateIds t with
  | error e => rfl
  | ok ids =>
    have hsub : ∀ i ∈ ids, i ∈ PyDict.keys t.topology.edges :=
      fun i hi => outgoing_sub _ (equalFinalStateIds_sub hids i hi)
    have hpairs : ∀ x ∈ pairs ids, x.1 ∈ PyDict.keys t.topology.edges ∧
        x.2 ∈ PyDict.keys t.topology.edges :=
      fun x hx => ⟨hsub _ (mem_pairs_of hx).1, hsub _ (mem_pairs_of hx).2⟩
    simp only [Except.map, bind, Except.bind, List.isEmpty_map]
    by_cases he : ids.isEmpty = true
    · rw [if_pos he, if_pos he]; rfl
    rw [if_neg he, if_neg he]
    rw [mapM_new_swap hv _ hpairs, pairs_map, mapM_new_swap hv']
    · simp only
      have hK : ∀ u ∈ t :: (pairs ids).map (swapT t), Valid u ∧
          ∀ k, k ∈ PyDict.keys u.topology.edges ↔ k ∈ PyDict.keys t.topology.edges := by
        intro u hu
        rcases List.mem_cons.1 hu with rfl | hu
        · exact ⟨hv, fun _ => Iff.rfl⟩
        · obtain ⟨x, hx, rfl⟩ := List.mem_map.1 hu
          exact ⟨swapT_valid hv (hpairs x hx).1 (hpairs x hx).2,
            swapT_keys hv (hpairs x hx).1 (hpairs x hx).2⟩
      have hmap : normT t :: List.map (swapT (normT t))
          ((pairs ids).map fun x => (rank (PyDict.keys t.states) x.1,
            rank (PyDict.keys t.states) x.2)) = (t :: (pairs ids).map (swapT t)).map normT := by
        rw [List.map_cons, List.map_map, List.map_map]
        congr 1
        apply List.map_congr_left
        intro x hx
        exact (normT_swapT hv (hpairs x hx).1 (hpairs x hx).2 hv').symm
      rw [hmap]
      have htop : ∀ u ∈ t :: (pairs ids).map (swapT t),
          (normT u).topology = u.topology.mapIds (rank (PyDict.keys t.topology.edges)) := by
        intro u hu
        rw [normT_topology (hK u hu).1, funext (rank_congr (hK u hu).2)]
      have hmono : ∀ a ∈ PyDict.keys t.topology.edges, ∀ b ∈ PyDict.keys t.topology.edges,
          a < b → rank (PyDict.keys t.topology.edges) a < rank (PyDict.keys t.topology.edges) b :=
        fun a ha b _ h => rank_lt ha h
      rw [pySet_map (fun x : Transition QObj N => x.topology.key) _ normT]
      · rw [pySorted_map (fun x : Transition QObj N => x.topology.key) _
          (fun a b => a.topology.comparable b.topology)]
        · rfl
        · intro a ha b hb
          rw [htop a (pySet_sub ha), htop b (pySet_sub hb)]
          exact mapIds_le_iff hmono (fun k hk => ((hK a (pySet_sub ha)).2 k).1 hk)
            (fun k hk => ((hK b (pySet_sub hb)).2 k).1 hk)
        · intro a ha b hb
          rw [htop a (pySet_sub ha), htop b (pySet_sub hb)]
          exact mapIds_comparable hmono (fun k hk => ((hK a (pySet_sub ha)).2 k).1 hk)
            (fun k hk => ((hK b (pySet_sub hb)).2 k).1 hk)
      · intro a ha b hb
        rw [htop a ha, htop b hb]
        exact mapIds_eq_iff hmono (fun k hk => ((hK a ha).2 k).1 hk)
          (fun k hk => ((hK b hb).2 k).1 hk)
    · intro x hx
      obtain ⟨y, hy, rfl⟩ := List.mem_map.1 hx
      have hmem : ∀ k ∈ PyDict.keys t.topology.edges,
          rank (PyDict.keys t.states) k ∈ PyDict.keys (normT t).topology.edges := by
        intro k hk
        rw [normT_topology hv]
        unfold Topology.mapIds
        rw [show PyDict.keys (t.topology.edges.map (onKey _)) = _ from keys_map_key _ _]
        rw [← funext (rank_congr hv.sameEdges)]
        exact List.mem_map.2 ⟨k, hk, rfl⟩
      exact ⟨hmem _ (hpairs y hy).1, hmem _ (hpairs y hy).2⟩

/-- All permuted transitions are valid. -/
theorem permute_valid {N : Type} {t : Transition QObj N} (hv : Valid t)
    {us : List (Transition QObj N)} (h : permuteEqualFinalStates t = .ok us) : ∀ u ∈ us, Valid u := by
  unfold permuteEqualFinalStates at h
  cases hids : equalFinalStateIds t with
  | error e => rw [hids] at h; cases h
  | ok ids =>
    rw [hids] at h
    simp only [bind, Except.bind] at h
    have hpairs : ∀ x ∈ pairs ids, x.1 ∈ PyDict.keys t.topology.edges ∧
        x.2 ∈ PyDict.keys t.topology.edges :=
      fun x hx => ⟨outgoing_sub _ (equalFinalStateIds_sub hids _ (mem_pairs_of hx).1),
        outgoing_sub _ (equalFinalStateIds_sub hids _ (mem_pairs_of hx).2)⟩
    rw [mapM_new_swap hv _ hpairs] at h
    split_ifs at h
    · injection h with h
      subst h
      intro u hu
      rw [List.mem_singleton] at hu
      rw [hu]; exact hv
    · obtain ⟨hp, -, -⟩ := pySorted_ok h
      intro u hu
      have := pySet_sub (hp.mem_iff.1 hu)
      rcases List.mem_cons.1 this with rfl | hu
      · exact hv
      · obtain ⟨x, hx, rfl⟩ := List.mem_map.1 hu
        exact swapT_valid hv (hpairs x hx).1 (hpairs x hx).2

end Verif.Qrules
