import Verif.Proofs.QrulesMin

/-! Lemmas for `permute_equal_final_states`. -/
namespace Verif.Qrules
open Verif Verif.ThreeBody

/-- Exchange of `x` and `y`. -/
def exch (x y k : ℤ) : ℤ := if k = x then y else if k = y then x else k

theorem exch_exch (x y k : ℤ) : exch x y (exch x y k) = k := by
  unfold exch; split_ifs <;> simp_all

theorem exch_inj (x y : ℤ) {a b : ℤ} (h : exch x y a = exch x y b) : a = b := by
  rw [← exch_exch x y a, h, exch_exch]

theorem swapEdges_eq (t : Topology) (x y : ℤ) (hn : (PyDict.keys t.edges).Nodup) :
    t.swapEdges x y = ⟨t.nodes, t.edges.map fun e => (exch x y e.1, e.2)⟩ := by
  unfold Topology.swapEdges
  apply relabel_eq t _ (exch x y) _ hn (fun a _ b _ h => exch_inj x y h)
  intro k _
  unfold exch
  by_cases h1 : k = x
  · subst h1; simp [PyDict.get?_cons]
  · by_cases h2 : k = y
    · subst h2; simp [PyDict.get?_cons, h1, Ne.symm h1]
    · simp [PyDict.get?_cons, h1, h2, Ne.symm h1, Ne.symm h2]

theorem get?_swapEdges (t : Topology) (x y : ℤ) (hn : (PyDict.keys t.edges).Nodup) (k : ℤ) :
    PyDict.get? (t.swapEdges x y).edges k = PyDict.get? t.edges (exch x y k) := by
  rw [swapEdges_eq t x y hn]
  have := PyDict.get?_map_key t.edges (exch x y) (k := exch x y k)
    (fun a _ h => exch_inj x y h)
  rw [exch_exch] at this
  exact this

theorem keys_swapEdges (t : Topology) (x y : ℤ) (hn : (PyDict.keys t.edges).Nodup)
    (hx : x ∈ PyDict.keys t.edges) (hy : y ∈ PyDict.keys t.edges) (k : ℤ) :
    k ∈ PyDict.keys (t.swapEdges x y).edges ↔ k ∈ PyDict.keys t.edges := by
  rw [PyDict.mem_keys_iff, get?_swapEdges t x y hn, ← PyDict.mem_keys_iff]
  unfold exch
  split_ifs with h1 h2
  · subst h1; exact ⟨fun _ => hx, fun _ => hy⟩
  · subst h2; exact ⟨fun _ => hy, fun _ => hx⟩
  · exact Iff.rfl

theorem mem_pairs_of {l : List ℤ} {x y : ℤ} (h : (x, y) ∈ pairs l) : x ∈ l ∧ y ∈ l := by
  induction l with
  | nil => cases h
  | cons a l ih =>
    unfold pairs at h
    rw [List.mem_append, List.mem_map] at h
    rcases h with ⟨z, hz, h⟩ | h
    · obtain ⟨rfl, rfl⟩ := Prod.mk.inj h
      exact ⟨.head _, .tail _ hz⟩
    · exact ⟨.tail _ (ih h).1, .tail _ (ih h).2⟩

theorem pairs_ne {l : List ℤ} (hl : l.Nodup) {x y : ℤ} (h : (x, y) ∈ pairs l) : x ≠ y := by
  induction l with
  | nil => cases h
  | cons a l ih =>
    rw [List.nodup_cons] at hl
    unfold pairs at h
    rw [List.mem_append, List.mem_map] at h
    rcases h with ⟨z, hz, h⟩ | h
    · obtain ⟨rfl, rfl⟩ := Prod.mk.inj h
      rintro rfl
      exact hl.1 hz
    · exact ih hl.2 h

theorem mem_pairs {l : List ℤ} {x y : ℤ} (hx : x ∈ l) (hy : y ∈ l) (hne : x ≠ y) :
    (x, y) ∈ pairs l ∨ (y, x) ∈ pairs l := by
  induction l with
  | nil => cases hx
  | cons a l ih =>
    unfold pairs
    simp only [List.mem_append, List.mem_map]
    rcases List.mem_cons.1 hx with rfl | hx' <;> rcases List.mem_cons.1 hy with rfl | hy'
    · exact absurd rfl hne
    · exact .inl (.inl ⟨y, hy', rfl⟩)
    · exact .inr (.inl ⟨x, hx', rfl⟩)
    · rcases ih hx' hy' with h | h
      · exact .inl (.inr h)
      · exact .inr (.inr h)

theorem ThreeBody.outgoing_mem {E N : Type} {t : Transition E N} {a s r i j : ℤ}
    (h : ThreeBody t a s r i j) (k : ℤ) : k ∈ t.topology.outgoing ↔ k = s ∨ k = i ∨ k = j := by
  unfold Topology.outgoing
  rw [mem_select _ h.valid.edges (fun e => e.dest.isNone)]
  constructor
  · rintro ⟨e, he, hd⟩
    have hk := (h.ids k).1 (PyDict.mem_keys_iff.2 ⟨e, he⟩)
    rcases hk with rfl | rfl | rfl | rfl | rfl
    · rw [h.initial] at he; cases he; cases hd
    · exact .inl rfl
    · rw [h.resonance] at he; cases he; cases hd
    · exact .inr (.inl rfl)
    · exact .inr (.inr rfl)
  · rintro (rfl | rfl | rfl)
    · exact ⟨_, h.spectator, rfl⟩
    · exact ⟨_, h.product1, rfl⟩
    · exact ⟨_, h.product2, rfl⟩

/-- The IDs that are exchanged: none if the names of the final states are different, otherwise those
with a name that occurs more than once. -/
theorem equalFinalStateIds_eq {N : Type} {t : Transition QObj N} {a s r i j : ℤ}
    (h : ThreeBody t a s r i j) (name : ℤ → String)
    (hname : ∀ k, k = s ∨ k = i ∨ k = j → HasName t k (name k)) :
    (equalFinalStateIds t = .ok [] ∧
      ∀ k ∈ t.topology.outgoing, ∀ k' ∈ t.topology.outgoing, name k = name k' → k = k') ∨
    ∃ k0 ∈ t.topology.outgoing, ∃ k1 ∈ t.topology.outgoing, k0 ≠ k1 ∧ name k0 = name k1 ∧
      ∃ ids, equalFinalStateIds t = .ok ids ∧ ids.Nodup ∧
        ∀ k, k ∈ ids ↔ k ∈ t.topology.outgoing ∧ name k = name k0 := by
  have hst : ∀ k ∈ t.topology.outgoing, ∃ o, PyDict.get? t.states k = some o ∧
      uniquenessRepr o = .ok (name k) := by
    intro k hk
    obtain ⟨o, p, h1, h2, h3⟩ := hname k ((h.outgoing_mem k).1 hk)
    exact ⟨o, h1, by simp [uniquenessRepr, h2, h3]⟩
  have : ∃ fin : PyDict ℤ QObj, t.finalStates = .ok fin ∧
      fin.mapM (fun x => do return (← uniquenessRepr x.2, x.1))
        = .ok (t.topology.outgoing.map fun k => (name k, k)) := by
    unfold Transition.finalStates
    generalize t.topology.outgoing = l at hst
    induction l with
    | nil => exact ⟨[], rfl, rfl⟩
    | cons k l ih =>
      obtain ⟨fin, h1, h2⟩ := ih fun k' hk' => hst k' (.tail _ hk')
      obtain ⟨o, ho, hu⟩ := hst k (.head _)
      refine ⟨(k, o) :: fin, ?_, ?_⟩
      · unfold filterStates at h1 ⊢
        rw [List.mapM_cons, h1]
        simp [PyDict.get, ho, bind, Except.bind, pure, Except.pure]
      · rw [List.mapM_cons, h2]
        simp [hu, bind, Except.bind, pure, Except.pure]
  obtain ⟨fin, h1, h2⟩ := this
  have hdef : equalFinalStateIds t = (match ((firsts name t.topology.outgoing).map fun k =>
      t.topology.outgoing.filter fun u => name u = name k).filter fun ids => ids.length > 1 with
    | [] => .ok []
    | ids :: _ => .ok (sortedSet ids)) := by
    unfold equalFinalStateIds
    rw [h1]
    simp only [bind, Except.bind] at h2 ⊢
    rw [h2]
    simp only [List.foldl_map]
    rw [groupFold_eq name t.topology.outgoing]
    simp only [List.map_map, Function.comp_def]
    rfl
  have hnd : t.topology.outgoing.Nodup := sortedSet_nodup _
  rw [hdef]
  cases hf : ((firsts name t.topology.outgoing).map fun k =>
      t.topology.outgoing.filter fun u => name u = name k).filter fun ids => ids.length > 1 with
  | nil =>
    refine .inl ⟨rfl, ?_⟩
    intro k hk k' hk' hkk
    rw [List.filter_eq_nil_iff] at hf
    obtain ⟨k0, hk0, hn0⟩ := firsts_all name t.topology.outgoing k hk
    have := hf _ (List.mem_map.2 ⟨k0, hk0, rfl⟩)
    simp only [gt_iff_lt, decide_eq_true_eq, not_lt] at this
    by_contra hne
    have hsub : [k, k'].Subperm (t.topology.outgoing.filter fun u => name u = name k0) := by
      apply List.subperm_of_subset (by simp [hne])
      intro z hz
      simp only [List.mem_cons, List.not_mem_nil, or_false] at hz
      rcases hz with rfl | rfl
      · simp [hk, hn0]
      · simp [hk', ← hkk, hn0]
    have := hsub.length_le
    simp at this
    omega
  | cons ids rest =>
    have hmem : ids ∈ ((firsts name t.topology.outgoing).map fun k =>
      t.topology.outgoing.filter fun u => name u = name k).filter fun ids => ids.length > 1 := by
      rw [hf]; exact .head _
    rw [List.mem_filter, List.mem_map] at hmem
    obtain ⟨⟨k0, hk0, rfl⟩, hlen⟩ := hmem
    have hk0' := (firsts_sublist _ _).subset hk0
    simp only [gt_iff_lt, decide_eq_true_eq] at hlen
    have hk1 : ∃ k1 ∈ t.topology.outgoing, k0 ≠ k1 ∧ name k0 = name k1 := by
      by_contra hno
      push Not at hno
      have hsub : (t.topology.outgoing.filter fun u => name u = name k0).Subperm [k0] := by
        apply List.subperm_of_subset (hnd.filter _)
        intro z hz
        rw [List.mem_filter, decide_eq_true_eq] at hz
        rw [List.mem_singleton]
        by_contra hne
        exact hno z hz.1 (Ne.symm hne) hz.2.symm
      have := hsub.length_le
      simp at this
      omega
    obtain ⟨k1, hk1, hne, hnn⟩ := hk1
    refine .inr ⟨k0, hk0', k1, hk1, hne, hnn, _, rfl, sortedSet_nodup _, ?_⟩
    intro k
    rw [sortedSet_mem, List.mem_filter, decide_eq_true_eq]

end Verif.Qrules
