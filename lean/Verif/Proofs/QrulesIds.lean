import Verif.Proofs.Order
import Verif.Spec.Qrules
import Mathlib.Order.Interval.Finset.Nat
import Mathlib.Data.Int.Interval
import Mathlib.Data.List.FinRange

/-! Lemmas about relabelling of IDs and three-body topologies. -/
namespace Verif
open Verif.ThreeBody

namespace PyDict
variable {κ ν : Type} [DecidableEq κ]

theorem set_of_not_mem {d : PyDict κ ν} {k : κ} (v : ν) (h : k ∉ keys d) : set d k v = d ++ [(k, v)] := by
  induction d with
  | nil => rfl
  | cons x d ih =>
    obtain ⟨a, b⟩ := x
    simp only [keys, List.map_cons, List.mem_cons, not_or] at h
    unfold set
    rw [if_neg (Ne.symm h.1), ih h.2]
    rfl

theorem update_disjoint (d e : PyDict κ ν) (h : (keys (d ++ e)).Nodup) : update d e = d ++ e := by
  induction e generalizing d with
  | nil => simp [update]
  | cons x e ih =>
    obtain ⟨a, b⟩ := x
    have ha : a ∉ keys d := by
      intro ha
      simp only [keys, List.map_append, List.map_cons] at h
      rw [List.nodup_append] at h
      exact h.2.2 a ha a (List.mem_cons_self ..) rfl
    show update (set d a b) e = _
    rw [set_of_not_mem b ha, ih _ (by simpa using h)]
    simp

theorem ofItems_of_nodup {e : List (κ × ν)} (h : (keys e).Nodup) : ofItems e = e := by
  unfold ofItems
  rw [update_disjoint [] e (by simpa using h)]
  rfl

theorem get?_map_key {μ : Type} [DecidableEq μ] (d : PyDict κ ν) (f : κ → μ) {k : κ}
    (hinj : ∀ a ∈ keys d, f a = f k → a = k) :
    get? (d.map fun x => (f x.1, x.2)) (f k) = get? d k := by
  induction d with
  | nil => rfl
  | cons x d ih =>
    obtain ⟨a, b⟩ := x
    simp only [List.map_cons, get?_cons]
    by_cases h : a = k
    · subst h; simp
    · have h' : f a ≠ f k := fun hh => h (hinj a (List.mem_cons_self ..) hh)
      rw [if_neg h, if_neg h', ih (fun a' ha => hinj a' (List.mem_cons_of_mem _ ha))]

end PyDict

namespace Qrules

theorem rank_eq (ids : List ℤ) (k : ℤ) :
    rank ids k = (((sortedSet ids).filter fun i => i < k).length : ℤ) := by
  unfold rank sortedSet
  congr 1
  exact (List.Perm.filter _ (List.mergeSort_perm _ _).symm).length_eq

theorem rank_congr {ids ids' : List ℤ} (h : ∀ x, x ∈ ids ↔ x ∈ ids') (k : ℤ) :
    rank ids k = rank ids' k := by
  rw [rank_eq, rank_eq, sortedSet_ext h]

theorem rank_nonneg (ids : List ℤ) (k : ℤ) : 0 ≤ rank ids k := by unfold rank; omega

theorem rank_lt {ids : List ℤ} {k k' : ℤ} (hk : k ∈ ids) (h : k < k') : rank ids k < rank ids k' := by
  unfold rank
  have hs : (ids.dedup.filter fun i => decide (i < k)).length
      < (ids.dedup.filter fun i => decide (i < k')).length := by
    have h1 : (ids.dedup.filter fun i => decide (i < k))
        = ((ids.dedup.filter fun i => decide (i < k')).filter fun i => decide (i < k)) := by
      rw [List.filter_filter]
      congr 1
      funext i
      by_cases h2 : i < k
      · simp [h2, lt_trans h2 h]
      · simp [h2]
    rw [h1]
    apply lt_of_le_of_ne (List.length_filter_le _ _)
    intro he
    have := List.length_filter_eq_length_iff.1 he k
      (List.mem_filter.2 ⟨List.mem_dedup.2 hk, by simpa using h⟩)
    simp at this
  exact_mod_cast hs

theorem rank_inj {ids : List ℤ} {k k' : ℤ} (hk : k ∈ ids) (hk' : k' ∈ ids)
    (h : rank ids k = rank ids k') : k = k' := by
  rcases lt_trichotomy k k' with h1 | h1 | h1
  · exact absurd h (ne_of_lt (rank_lt hk h1))
  · exact h1
  · exact absurd h.symm (ne_of_lt (rank_lt hk' h1))

theorem lt_of_rank_lt {ids : List ℤ} {k k' : ℤ} (hk' : k' ∈ ids)
    (h : rank ids k < rank ids k') : k < k' := by
  rcases lt_trichotomy k k' with h1 | h1 | h1
  · exact h1
  · rw [h1] at h; exact absurd h (lt_irrefl _)
  · exact absurd h (not_lt_of_gt (rank_lt hk' h1))

theorem rank_lt_length {ids : List ℤ} {k : ℤ} (hk : k ∈ ids) :
    rank ids k < (ids.dedup.length : ℤ) := by
  unfold rank
  have : (ids.dedup.filter fun i => decide (i < k)).length < ids.dedup.length := by
    apply lt_of_le_of_ne (List.length_filter_le _ _)
    intro he
    have := List.length_filter_eq_length_iff.1 he k (List.mem_dedup.2 hk)
    simp at this
  exact_mod_cast this

theorem zipIdx_get? (s : List ℤ) (hs : s.Pairwise (· < ·)) (n : ℕ) (k : ℤ) (hk : k ∈ s) :
    PyDict.get? ((s.zipIdx n).map fun x => (x.1, (x.2 : ℤ))) k
      = some ((n : ℤ) + ((s.filter fun i => i < k).length : ℤ)) := by
  induction s generalizing n with
  | nil => cases hk
  | cons a s ih =>
    rw [List.zipIdx_cons, List.map_cons, PyDict.get?_cons]
    rw [List.pairwise_cons] at hs
    by_cases h : a = k
    · subst h
      have : (a :: s).filter (fun i => decide (i < a)) = [] := by
        rw [List.filter_eq_nil_iff]
        intro x hx
        rcases List.mem_cons.1 hx with rfl | hx
        · simp
        · simp [not_lt_of_gt (hs.1 x hx)]
      rw [this]
      simp
    · have hk' : k ∈ s := by
        rcases List.mem_cons.1 hk with rfl | h'
        · exact absurd rfl h
        · exact h'
      rw [if_neg h, ih hs.2 (n + 1) hk', List.filter_cons, if_pos (by simpa using hs.1 k hk')]
      congr 1
      push_cast [List.length_cons]
      ring

theorem rankMapping_get? {ids : List ℤ} {k : ℤ} (hk : k ∈ ids) :
    PyDict.get? (rankMapping ids) k = some (rank ids k) := by
  unfold rankMapping
  rw [zipIdx_get? _ (sortedSet_pairwise ids) 0 k ((sortedSet_mem _ _).2 hk), rank_eq]
  simp

theorem keys_map_key {α : Type} (d : PyDict ℤ α) (f : ℤ → ℤ) :
    PyDict.keys (d.map fun x => (f x.1, x.2)) = (PyDict.keys d).map f := by
  simp [PyDict.keys, List.map_map, Function.comp_def]

theorem relabel_eq (t : Topology) (m : PyDict ℤ ℤ) (f : ℤ → ℤ)
    (hm : ∀ k ∈ PyDict.keys t.edges, (PyDict.get? m k).getD k = f k)
    (hn : (PyDict.keys t.edges).Nodup)
    (hf : ∀ a ∈ PyDict.keys t.edges, ∀ b ∈ PyDict.keys t.edges, f a = f b → a = b) :
    t.relabelEdges m = ⟨t.nodes, t.edges.map fun x => (f x.1, x.2)⟩ := by
  unfold Topology.relabelEdges
  have h : (t.edges.map fun x => ((PyDict.get? m x.1).getD x.1, x.2))
      = t.edges.map fun x => (f x.1, x.2) := by
    apply List.map_congr_left
    rintro ⟨k, e⟩ hx
    simp only
    rw [hm k (List.mem_map.2 ⟨_, hx, rfl⟩)]
  rw [h, PyDict.ofItems_of_nodup]
  rw [keys_map_key]
  exact List.Nodup.map_on (fun a ha b hb => hf a ha b hb) hn

theorem normalizeTopology_eq (t : Topology) (hn : (PyDict.keys t.edges).Nodup) :
    normalizeTopology t =
      ⟨t.nodes, t.edges.map fun x => (rank (PyDict.keys t.edges) x.1, x.2)⟩ := by
  unfold normalizeTopology
  exact relabel_eq t _ (rank (PyDict.keys t.edges))
    (fun k hk => by rw [rankMapping_get? hk]; rfl) hn
    (fun a ha b hb => rank_inj ha hb)

theorem relabelled_map {α : Type} (d : PyDict ℤ α) (f : ℤ → ℤ)
    (hf : ∀ a ∈ PyDict.keys d, ∀ b ∈ PyDict.keys d, f a = f b → a = b) :
    Relabelled f d (d.map fun x => (f x.1, x.2)) := by
  refine ⟨fun k => ?_, fun i hi => ?_⟩
  · rw [keys_map_key, List.mem_map]
  · exact PyDict.get?_map_key d f (fun a ha h => hf a ha i hi h)

/-- The states of a normalised transition. -/
def normStates {E : Type} (d : PyDict ℤ E) : PyDict ℤ E :=
  (dictItems d).map fun x => (rank (PyDict.keys d) x.1, x.2)

theorem normStates_mapM {E : Type} (d : PyDict ℤ E) :
    ((sortedSet (PyDict.keys d)).zipIdx.mapM fun x => do
      return ((x.2 : ℤ), ← PyDict.get d x.1) : Py (PyDict ℤ E)) = .ok (normStates d) := by
  rw [mapM_ok_iff]
  have key : ∀ (s : List ℤ) (n : ℕ), s.Pairwise (· < ·) → (∀ k ∈ s, k ∈ PyDict.keys d) →
      (∀ k ∈ s, rank (PyDict.keys d) k = n + ((s.filter fun i => i < k).length : ℤ)) →
      List.Forall₂ (fun (a : ℤ × ℕ) (b : ℤ × E) =>
        ((do return ((a.2 : ℤ), ← PyDict.get d a.1)) : Py (ℤ × E)) = .ok b) (s.zipIdx n)
        ((s.filterMap fun k => (PyDict.get? d k).map fun v => (k, v)).map
          fun x => (rank (PyDict.keys d) x.1, x.2)) := by
    intro s
    induction s with
    | nil => intro n _ _ _; simp
    | cons a s ih =>
      intro n hs hk hr
      rw [List.pairwise_cons] at hs
      obtain ⟨v, hv⟩ := PyDict.mem_keys_iff.1 (hk a (List.mem_cons_self ..))
      rw [List.zipIdx_cons, List.filterMap_cons]
      simp only [hv, Option.map_some, List.map_cons]
      refine .cons ?_ (ih (n + 1) hs.2 (fun k hk' => hk k (List.mem_cons_of_mem _ hk')) ?_)
      · simp only [PyDict.get, hv, bind, Except.bind, pure, Except.pure]
        have h1 := hr a (List.mem_cons_self ..)
        have h2 : (a :: s).filter (fun i => decide (i < a)) = [] := by
          rw [List.filter_eq_nil_iff]
          intro x hx
          rcases List.mem_cons.1 hx with rfl | hx
          · simp
          · simp [not_lt_of_gt (hs.1 x hx)]
        rw [h2] at h1
        simp only [List.length_nil, Nat.cast_zero, add_zero] at h1
        rw [h1]
      · intro k hk'
        have h1 := hr k (List.mem_cons_of_mem _ hk')
        rw [List.filter_cons, if_pos (by simpa using hs.1 k hk'), List.length_cons] at h1
        rw [h1]
        push_cast
        ring
  exact key _ 0 (sortedSet_pairwise _) (fun k hk => (sortedSet_mem _ _).1 hk)
    (fun k _ => by rw [rank_eq]; simp)

theorem get?_dictItems {α : Type} (d : PyDict ℤ α) (k : ℤ) :
    PyDict.get? (dictItems d) k = PyDict.get? d k := by
  have hn : (PyDict.keys (dictItems d)).Nodup := by
    unfold PyDict.keys
    rw [keys_dictItems]
    exact sortedSet_nodup _
  apply Option.ext
  intro v
  rw [← PyDict.mem_iff_get? hn, mem_dictItems]

theorem mem_keys_dictItems {α : Type} (d : PyDict ℤ α) (k : ℤ) :
    k ∈ PyDict.keys (dictItems d) ↔ k ∈ PyDict.keys d := by
  unfold PyDict.keys
  rw [keys_dictItems, sortedSet_mem]
  rfl

theorem setEq_iff {α : Type} [DecidableEq α] (a b : List α) :
    setEq a b = true ↔ ∀ x, x ∈ a ↔ x ∈ b := by
  unfold setEq
  simp only [Bool.and_eq_true, List.all_eq_true, decide_eq_true_eq]
  exact ⟨fun h x => ⟨h.1 x, h.2 x⟩, fun h => ⟨fun x => (h x).1, fun x => (h x).2⟩⟩

theorem normStates_relabelled {E : Type} (d : PyDict ℤ E) :
    Relabelled (rank (PyDict.keys d)) d (normStates d) := by
  have h := relabelled_map (dictItems d) (rank (PyDict.keys d))
    (fun a ha b hb => rank_inj ((mem_keys_dictItems d a).1 ha) ((mem_keys_dictItems d b).1 hb))
  refine ⟨fun k => ?_, fun i hi => ?_⟩
  · unfold normStates
    rw [h.1 k]
    simp only [mem_keys_dictItems]
  · unfold normStates
    rw [h.2 i ((mem_keys_dictItems d i).2 hi), get?_dictItems]

theorem normalizeTransition_eq {E N : Type} (t : Transition E N) (hv : Valid t) :
    normalizeTransition t = .ok ⟨normalizeTopology t.topology, normStates t.states, t.interactions⟩ := by
  unfold normalizeTransition
  rw [normStates_mapM]
  simp only [bind, Except.bind]
  unfold Transition.new
  rw [if_pos]
  rw [Bool.and_eq_true, setEq_iff, setEq_iff]
  rw [normalizeTopology_eq _ hv.edges]
  refine ⟨hv.sameNodes, fun x => ?_⟩
  rw [(normStates_relabelled t.states).1 x, keys_map_key, List.mem_map]
  rw [funext (rank_congr hv.sameEdges)]
  constructor
  · rintro ⟨a, ha, h⟩
    exact ⟨a, (hv.sameEdges a).1 ha, h⟩
  · rintro ⟨a, ha, h⟩
    exact ⟨a, (hv.sameEdges a).2 ha, h⟩

/-- Selecting edges by a property commutes with normalisation. -/
theorem select_normalize (t : Topology) (hn : (PyDict.keys t.edges).Nodup) (p : Edge → Bool) :
    sortedSet (PyDict.keys ((normalizeTopology t).edges.filter fun x => p x.2))
      = (sortedSet (PyDict.keys (t.edges.filter fun x => p x.2))).map
        (rank (PyDict.keys t.edges)) := by
  apply sorted_keys_unique (sortedSet_pairwise _)
  · rw [List.pairwise_map]
    apply (sortedSet_pairwise (PyDict.keys (t.edges.filter fun x => p x.2))).imp_of_mem
    intro a b ha hb h
    refine rank_lt ?_ h
    rw [sortedSet_mem] at ha
    obtain ⟨x, hx, rfl⟩ := List.mem_map.1 ha
    exact List.mem_map.2 ⟨x, (List.mem_filter.1 hx).1, rfl⟩
  · intro k
    rw [sortedSet_mem, normalizeTopology_eq _ hn, List.mem_map]
    simp only [sortedSet_mem, PyDict.keys, List.mem_map, List.mem_filter]
    constructor
    · rintro ⟨x, ⟨⟨y, hy, rfl⟩, hp⟩, rfl⟩
      exact ⟨y.1, ⟨y, ⟨hy, hp⟩, rfl⟩, rfl⟩
    · rintro ⟨i, ⟨y, ⟨hy, hp⟩, rfl⟩, rfl⟩
      exact ⟨_, ⟨⟨y, hy, rfl⟩, hp⟩, rfl⟩

end Qrules
end Verif

namespace Verif.Qrules
open Verif Verif.ThreeBody

/-- `Relabelled` with an injective function determines the values. -/
theorem Relabelled.same {α : Type} {f : ℤ → ℤ} {d d' n n' : PyDict ℤ α} (h : Relabelled f d n)
    (h' : Relabelled f d' n') (hd : SameDict d d') : SameDict n n' := by
  have hk : ∀ i, i ∈ PyDict.keys d ↔ i ∈ PyDict.keys d' := fun i => by
    rw [PyDict.mem_keys_iff, PyDict.mem_keys_iff]; simp only [hd i]
  intro k
  by_cases hm : k ∈ PyDict.keys n
  · obtain ⟨i, hi, rfl⟩ := (h.1 k).1 hm
    rw [h.2 i hi, h'.2 i ((hk i).1 hi), hd i]
  · have hm' : k ∉ PyDict.keys n' := by
      intro hm'
      obtain ⟨i, hi, rfl⟩ := (h'.1 k).1 hm'
      exact hm ((h.1 _).2 ⟨i, (hk i).2 hi, rfl⟩)
    rw [PyDict.get?_eq_none.2 hm, PyDict.get?_eq_none.2 hm']

theorem rank_surj {ids : List ℤ} (k : ℤ) :
    (∃ i ∈ ids, rank ids i = k) ↔ 0 ≤ k ∧ k < (ids.dedup.length : ℤ) := by
  constructor
  · rintro ⟨i, hi, rfl⟩
    exact ⟨rank_nonneg _ _, rank_lt_length hi⟩
  · intro hk
    have hsub : (ids.toFinset.image (rank ids)) ⊆ Finset.Ico 0 (ids.dedup.length : ℤ) := by
      intro x hx
      obtain ⟨i, hi, rfl⟩ := Finset.mem_image.1 hx
      rw [Finset.mem_Ico]
      exact ⟨rank_nonneg _ _, rank_lt_length (List.mem_toFinset.1 hi)⟩
    have hcard : (Finset.Ico (0 : ℤ) (ids.dedup.length : ℤ)).card
        ≤ (ids.toFinset.image (rank ids)).card := by
      rw [Finset.card_image_of_injOn (fun a ha b hb =>
        rank_inj (List.mem_toFinset.1 (Finset.mem_coe.1 ha))
          (List.mem_toFinset.1 (Finset.mem_coe.1 hb))), Int.card_Ico, List.card_toFinset]
      simp
    have := Finset.eq_of_subset_of_card_le hsub hcard
    have hm : k ∈ ids.toFinset.image (rank ids) := by
      rw [this, Finset.mem_Ico]; exact hk
    obtain ⟨i, hi, h⟩ := Finset.mem_image.1 hm
    exact ⟨i, List.mem_toFinset.1 hi, h⟩

theorem rank_rank {ids : List ℤ} (hn : ids.Nodup) {k : ℤ} (hk : k ∈ ids) :
    rank (ids.map (rank ids)) (rank ids k) = rank ids k := by
  have hm : (ids.map (rank ids)).Nodup := List.Nodup.map_on (fun a ha b hb => rank_inj ha hb) hn
  show (((ids.map (rank ids)).dedup.filter fun i => decide (i < rank ids k)).length : ℤ) = rank ids k
  rw [hm.dedup, List.filter_map, List.length_map]
  conv_rhs => unfold rank
  rw [hn.dedup]
  congr 2
  apply List.filter_congr
  intro i hi
  simp only [Function.comp_apply, decide_eq_decide]
  exact ⟨lt_of_rank_lt hk, rank_lt hi⟩

theorem dictItems_of_sorted {α : Type} {d : PyDict ℤ α}
    (h : (PyDict.keys d).Pairwise (· < ·)) : dictItems d = d := by
  unfold dictItems
  rw [sortedSet_of_sorted h]
  have hn : (PyDict.keys d).Nodup := h.imp ne_of_lt
  unfold PyDict.keys
  rw [List.filterMap_map]
  have : ∀ x ∈ d, ((fun k => (PyDict.get? d k).map fun v => (k, v)) ∘ Prod.fst) x = some x := by
    rintro ⟨k, v⟩ hx
    simp only [Function.comp_apply]
    rw [(PyDict.mem_iff_get? hn).1 hx]
    rfl
  rw [List.filterMap_congr this]
  simp

theorem keys_normStates {E : Type} (d : PyDict ℤ E) :
    PyDict.keys (normStates d) = (sortedSet (PyDict.keys d)).map (rank (PyDict.keys d)) := by
  unfold normStates
  rw [keys_map_key]
  congr 1
  exact keys_dictItems d

theorem keys_normStates_sorted {E : Type} (d : PyDict ℤ E) :
    (PyDict.keys (normStates d)).Pairwise (· < ·) := by
  rw [keys_normStates, List.pairwise_map]
  apply (sortedSet_pairwise _).imp_of_mem
  intro a b ha _ h
  exact rank_lt ((sortedSet_mem _ _).1 ha) h

theorem normStates_idem {E : Type} (d : PyDict ℤ E) : normStates (normStates d) = normStates d := by
  show (dictItems (normStates d)).map (fun x => (rank (PyDict.keys (normStates d)) x.1, x.2)) = _
  rw [dictItems_of_sorted (keys_normStates_sorted d)]
  conv_rhs => rw [← List.map_id (normStates d)]
  apply List.map_congr_left
  rintro ⟨k, v⟩ hx
  have hk : k ∈ PyDict.keys (normStates d) := List.mem_map.2 ⟨_, hx, rfl⟩
  have hr : rank (PyDict.keys (normStates d)) k = k := by
    rw [keys_normStates] at hk ⊢
    obtain ⟨i, hi, rfl⟩ := List.mem_map.1 hk
    have h1 : rank (PyDict.keys d) = rank (sortedSet (PyDict.keys d)) :=
      funext (rank_congr (fun x => (sortedSet_mem _ x).symm))
    rw [h1]
    exact rank_rank (sortedSet_nodup _) hi
  simp only [hr, id]

theorem normalizeTopology_idem (t : Topology) (hn : (PyDict.keys t.edges).Nodup) :
    normalizeTopology (normalizeTopology t) = normalizeTopology t := by
  have hn' : (PyDict.keys (normalizeTopology t).edges).Nodup := by
    rw [normalizeTopology_eq t hn, keys_map_key]
    exact List.Nodup.map_on (fun a ha b hb => rank_inj ha hb) hn
  rw [normalizeTopology_eq _ hn', normalizeTopology_eq t hn, keys_map_key]
  simp only [List.map_map, Topology.mk.injEq, true_and]
  apply List.map_congr_left
  rintro ⟨k, e⟩ hx
  simp only [Function.comp_apply]
  rw [rank_rank hn (List.mem_map.2 ⟨_, hx, rfl⟩)]

end Verif.Qrules
