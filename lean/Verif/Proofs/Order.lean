import Verif.Model.Qrules
import Verif.Proofs.PyDict
import Verif.Proofs.Decay

/-! Lemmas about `pySorted`, `pySet`, keys and sorted dictionary items. -/
namespace Verif
open Verif.ThreeBody

theorem mapM_ok_iff {α β : Type} (f : α → Py β) (l : List α) (r : List β) :
    l.mapM f = .ok r ↔ List.Forall₂ (fun a b => f a = .ok b) l r := by
  induction l generalizing r with
  | nil => simp [List.mapM_nil, pure, Except.pure, eq_comm]
  | cons a l ih =>
    rw [List.mapM_cons]
    cases hf : f a with
    | error e =>
      simp only [bind, Except.bind]
      constructor
      · intro h; cases h
      · intro h; cases h with | cons h1 h2 => rw [hf] at h1; cases h1
    | ok b =>
      simp only [bind, Except.bind]
      cases hl : l.mapM f with
      | error e =>
        simp only
        constructor
        · intro h; cases h
        · intro h
          cases h with | cons h1 h2 => rw [(ih _).2 h2] at hl; cases hl
      | ok bs =>
        simp only [pure, Except.pure]
        constructor
        · intro h
          injection h with h
          subst h
          exact .cons hf ((ih _).1 hl)
        · intro h
          cases h with
          | cons h1 h2 =>
            rw [hf] at h1
            injection h1 with h1
            have := (ih _).2 h2
            rw [hl] at this
            injection this with this
            rw [h1, this]

theorem pySorted_ok {α β : Type} [LinearOrder β] {key : α → β} {c : α → α → Bool} {l r : List α}
    (h : pySorted key c l = .ok r) :
    r.Perm l ∧ r.Pairwise (fun a b => key a ≤ key b) ∧ ∀ a ∈ l, ∀ b ∈ l, c a b = true := by
  unfold pySorted at h
  split at h
  · rename_i hc
    injection h with h
    subst h
    refine ⟨List.mergeSort_perm _ _, ?_, ?_⟩
    · have := List.pairwise_mergeSort (le := fun a b => decide (key a ≤ key b))
        (fun a b c => by simp only [decide_eq_true_eq]; exact le_trans)
        (fun a b => by simp only [Bool.or_eq_true, decide_eq_true_eq]; exact le_total _ _) l
      exact this.imp (fun h => of_decide_eq_true h)
    · simpa [List.all_eq_true] using hc
  · cases h

theorem pySorted_eq {α β : Type} [LinearOrder β] {key : α → β} {c : α → α → Bool} {l : List α}
    (h : ∀ a ∈ l, ∀ b ∈ l, c a b = true) : ∃ r, pySorted key c l = .ok r := by
  unfold pySorted
  rw [if_pos (by simpa [List.all_eq_true] using h)]
  exact ⟨_, rfl⟩

theorem pySorted_err {α β : Type} [LinearOrder β] {key : α → β} {c : α → α → Bool} {l : List α}
    {e : PyErr} (h : pySorted key c l = .error e) :
    e = .typeError ∧ ∃ a ∈ l, ∃ b ∈ l, c a b = false := by
  unfold pySorted at h
  split at h
  · cases h
  · rename_i hc
    injection h with h
    refine ⟨h.symm, ?_⟩
    by_contra hn
    push Not at hn
    apply hc
    rw [List.all_eq_true]
    intro a ha
    rw [List.all_eq_true]
    intro b hb
    have := hn a ha b hb
    simpa using this

/-- Sorted lists with the same set of keys, each without duplicates, have the same keys. -/
theorem sorted_keys_unique {β : Type} [LinearOrder β] {r r' : List β} (h : r.Pairwise (· < ·))
    (h' : r'.Pairwise (· < ·)) (hs : ∀ x, x ∈ r ↔ x ∈ r') : r = r' := by
  have hp : r.Perm r' := by
    rw [List.perm_ext_iff_of_nodup (h.imp ne_of_lt) (h'.imp ne_of_lt)]
    exact hs
  exact hp.eq_of_pairwise (le := (· < ·)) (fun a b _ _ h1 h2 => absurd h1 (not_lt_of_gt h2)) h h'

/-- One step of `pySet`. -/
def pySetStep {α β : Type} [DecidableEq β] (key : α → β) (acc : List α) (x : α) : List α :=
  if acc.any fun y => key y = key x then acc else acc ++ [x]

theorem pySet_eq {α β : Type} [DecidableEq β] (key : α → β) (l : List α) :
    pySet key l = l.foldl (pySetStep key) [] := rfl

theorem pySet_fold {α β : Type} [DecidableEq β] (key : α → β) (l : List α) (acc : List α)
    (hacc : (acc.map key).Nodup) :
    ((l.foldl (pySetStep key) acc).map key).Nodup ∧
    (∀ y, y ∈ l.foldl (pySetStep key) acc → y ∈ acc ∨ y ∈ l) ∧
    (∀ k, k ∈ (l.foldl (pySetStep key) acc).map key ↔ k ∈ acc.map key ∨ k ∈ l.map key) := by
  induction l generalizing acc with
  | nil => simp [hacc]
  | cons x l ih =>
    rw [List.foldl_cons]
    by_cases h : acc.any (fun y => key y = key x) = true
    · have hs : pySetStep key acc x = acc := by unfold pySetStep; rw [if_pos h]
      have hx : key x ∈ acc.map key := by
        obtain ⟨y, hy, hk⟩ := List.any_eq_true.1 h
        exact List.mem_map.2 ⟨y, hy, by simpa using hk⟩
      rw [hs]
      obtain ⟨h1, h2, h3⟩ := ih acc hacc
      refine ⟨h1, fun y hy => ?_, fun k => ?_⟩
      · rcases h2 y hy with h | h
        · exact .inl h
        · exact .inr (List.mem_cons_of_mem _ h)
      · rw [h3 k, List.map_cons, List.mem_cons]
        constructor
        · rintro (h | h)
          · exact .inl h
          · exact .inr (.inr h)
        · rintro (h | h | h)
          · exact .inl h
          · exact .inl (h ▸ hx)
          · exact .inr h
    · have hs : pySetStep key acc x = acc ++ [x] := by unfold pySetStep; rw [if_neg h]
      have hx : key x ∉ acc.map key := by
        intro hm
        obtain ⟨y, hy, hk⟩ := List.mem_map.1 hm
        exact h (List.any_eq_true.2 ⟨y, hy, by simpa using hk⟩)
      rw [hs]
      obtain ⟨h1, h2, h3⟩ := ih (acc ++ [x]) (by
        rw [List.map_append, List.map_singleton]
        rw [List.nodup_append]
        refine ⟨hacc, by simp, ?_⟩
        intro a ha b hb
        rw [List.mem_singleton] at hb
        subst hb
        rintro rfl
        exact hx ha)
      refine ⟨h1, fun y hy => ?_, fun k => ?_⟩
      · rcases h2 y hy with h | h
        · rw [List.mem_append, List.mem_singleton] at h
          rcases h with h | h
          · exact .inl h
          · exact .inr (h ▸ List.mem_cons_self ..)
        · exact .inr (List.mem_cons_of_mem _ h)
      · rw [h3 k]
        simp only [List.map_append, List.map_cons, List.map_nil, List.mem_append, List.mem_cons,
          List.not_mem_nil, or_false]
        tauto

theorem pySet_nodup {α β : Type} [DecidableEq β] (key : α → β) (l : List α) :
    ((pySet key l).map key).Nodup := (pySet_fold key l [] (by simp)).1

theorem pySet_sub {α β : Type} [DecidableEq β] {key : α → β} {l : List α} {y : α}
    (h : y ∈ pySet key l) : y ∈ l := by
  rcases (pySet_fold key l [] (by simp)).2.1 y h with h | h
  · cases h
  · exact h

theorem pySet_keys {α β : Type} [DecidableEq β] (key : α → β) (l : List α) (k : β) :
    k ∈ (pySet key l).map key ↔ k ∈ l.map key := by
  rw [pySet_eq, (pySet_fold key l [] (by simp)).2.2 k]
  simp

theorem sorted_strict {α β : Type} [LinearOrder β] {key : α → β} {r : List α}
    (h : r.Pairwise (fun a b => key a ≤ key b)) (hn : (r.map key).Nodup) :
    (r.map key).Pairwise (· < ·) := by
  rw [List.pairwise_map]
  have := (List.Pairwise.and h (List.pairwise_map.1 hn))
  exact this.imp (fun ⟨a, b⟩ => lt_of_le_of_ne a b)

/-! ### sorted dictionary items -/
namespace Qrules

theorem mem_dictItems {α : Type} (d : PyDict ℤ α) (k : ℤ) (v : α) :
    (k, v) ∈ dictItems d ↔ PyDict.get? d k = some v := by
  unfold dictItems
  rw [List.mem_filterMap]
  constructor
  · rintro ⟨k', _, h⟩
    cases hg : PyDict.get? d k' with
    | none => rw [hg] at h; cases h
    | some w =>
      rw [hg] at h
      simp only [Option.map_some, Option.some.injEq, Prod.mk.injEq] at h
      rw [← h.1, hg, h.2]
  · intro h
    refine ⟨k, (sortedSet_mem _ _).2 (PyDict.mem_keys_iff.2 ⟨v, h⟩), by rw [h]; rfl⟩

theorem sortedSet_ext {l l' : List ℤ} (h : ∀ x, x ∈ l ↔ x ∈ l') : sortedSet l = sortedSet l' :=
  sorted_keys_unique (sortedSet_pairwise l) (sortedSet_pairwise l')
    (fun x => by rw [sortedSet_mem, sortedSet_mem]; exact h x)

theorem sortedSet_of_sorted {l : List ℤ} (h : l.Pairwise (· < ·)) : sortedSet l = l :=
  sorted_keys_unique (sortedSet_pairwise l) h (fun x => sortedSet_mem l x)

theorem dictItems_eq_iff {α : Type} (d d' : PyDict ℤ α) :
    dictItems d = dictItems d' ↔ ∀ k, PyDict.get? d k = PyDict.get? d' k := by
  constructor
  · intro h k
    apply Option.ext
    intro v
    rw [← mem_dictItems, ← mem_dictItems, h]
  · intro h
    unfold dictItems
    rw [sortedSet_ext (l' := PyDict.keys d') (fun x => by
      rw [PyDict.mem_keys_iff, PyDict.mem_keys_iff]; simp only [h])]
    simp only [h]

theorem keys_dictItems {α : Type} (d : PyDict ℤ α) :
    (dictItems d).map Prod.fst = sortedSet (PyDict.keys d) := by
  unfold dictItems
  rw [List.map_filterMap]
  have : ∀ l : List ℤ, (∀ k ∈ l, k ∈ PyDict.keys d) →
      l.filterMap (fun k => Option.map Prod.fst ((PyDict.get? d k).map fun v => (k, v))) = l := by
    intro l
    induction l with
    | nil => simp
    | cons a l ih =>
      intro h
      obtain ⟨v, hv⟩ := PyDict.mem_keys_iff.1 (h a (List.mem_cons_self ..))
      rw [List.filterMap_cons]
      simp only [hv, Option.map_some]
      rw [ih (fun k hk => h k (List.mem_cons_of_mem _ hk))]
  exact this _ (fun k hk => (sortedSet_mem _ _).1 hk)

theorem toLex_inj' {α : Type} {a b : α} (h : toLex a = toLex b) : a = b := h

theorem pkey_inj {a b : Particle} (h : pkey a = pkey b) : a = b := by
  cases a; cases b
  unfold pkey at h
  simp only [EmbeddingLike.apply_eq_iff_eq, Prod.mk.injEq] at h
  obtain ⟨h1, h2, h3, h4⟩ := h
  have h5 := Prod.mk.inj h4
  have h6 := Prod.mk.inj h5.2
  rw [h1, h2, h3, h5.1, h6.1, h6.2]

theorem objKey_inj {a b : Obj} (h : objKey a = objKey b) : a = b := by
  cases a <;> cases b <;>
    simp only [objKey, EmbeddingLike.apply_eq_iff_eq, Prod.mk.injEq, Bool.false_eq_true,
      false_and, reduceCtorEq, true_and] at h
  · rw [pkey_inj h.1]
  · rename_i s t
    obtain ⟨p, i⟩ := s
    obtain ⟨q, j⟩ := t
    obtain ⟨h1, h2⟩ := h
    have := pkey_inj h1
    simp only at this h2
    rw [this, h2]

theorem lsKey_inj {a b : LS} (h : lsKey a = lsKey b) : a = b := by
  cases a; cases b
  simp only [lsKey, EmbeddingLike.apply_eq_iff_eq, Prod.mk.injEq] at h
  rw [h.1, h.2]

theorem optLsKey_inj {a b : Option LS} (h : optLsKey a = optLsKey b) : a = b := by
  cases a <;> cases b
  · rfl
  · cases h
  · cases h
  · rename_i x y
    have : some (lsKey x) = some (lsKey y) := h
    rw [lsKey_inj (Option.some.inj this)]

theorem edge_inj {a b : Edge} (h : (a.orig : WithBot ℤ) = b.orig) (h' : (a.dest : WithBot ℤ) = b.dest) :
    a = b := by
  cases a; cases b
  have h1 : _ = _ := h
  have h2 : _ = _ := h'
  simp only at h1 h2
  congr

theorem topologyKey_inj {a b : Topology} : a.key = b.key ↔
    a.nodes = b.nodes ∧ dictItems a.edges = dictItems b.edges := by
  unfold Topology.key
  simp only [EmbeddingLike.apply_eq_iff_eq, Prod.mk.injEq]
  refine and_congr_right fun _ => ⟨fun h => ?_, fun h => by rw [h]⟩
  refine List.map_injective_iff.2 ?_ h
  rintro ⟨i, e⟩ ⟨j, e'⟩ h
  simp only [EmbeddingLike.apply_eq_iff_eq, Prod.mk.injEq] at h
  have h2 := Prod.mk.inj h.2
  rw [h.1, edge_inj h2.1 h2.2]

theorem tkey_inj {a b : Transition Obj (Option LS)} : tkey a = tkey b ↔
    a.topology.key = b.topology.key ∧ dictItems a.states = dictItems b.states ∧
      dictItems a.interactions = dictItems b.interactions := by
  unfold tkey
  simp only [EmbeddingLike.apply_eq_iff_eq, Prod.mk.injEq]
  refine and_congr_right fun _ => and_congr ⟨fun h => ?_, fun h => by rw [h]⟩
    ⟨fun h => ?_, fun h => by rw [h]⟩
  · refine List.map_injective_iff.2 ?_ h
    rintro ⟨i, e⟩ ⟨j, e'⟩ h
    simp only [EmbeddingLike.apply_eq_iff_eq, Prod.mk.injEq] at h
    rw [h.1, objKey_inj h.2]
  · refine List.map_injective_iff.2 ?_ h
    rintro ⟨i, e⟩ ⟨j, e'⟩ h
    simp only [EmbeddingLike.apply_eq_iff_eq, Prod.mk.injEq] at h
    rw [h.1, optLsKey_inj h.2]

end Qrules
end Verif
