import Verif.Spec.Decay
import Verif.Proofs.PyDict
import Mathlib.Data.List.Perm.Basic
import Mathlib.Data.List.Sort
import Mathlib.Tactic.FinCases

/-! Helper lemmas about `decay.py`. -/
namespace Verif.ThreeBody
open Verif Verif.Spec

theorem standsFor_iff (n : Node) (o : Obj) : StandsFor n o ↔ n.toParticle = o := by
  constructor
  · rintro (_ | _) <;> rfl
  · rintro rfl
    cases n
    · exact .leaf _
    · exact .isobar ..

theorem sortByIndex_perm (l : List State) : (sortByIndex l).Perm l := List.mergeSort_perm _ _

theorem dedup_length_eq_iff {l : List ℤ} {n : ℕ} (h : l.length = n) :
    l.dedup.length = n ↔ l.Nodup := by
  constructor
  · intro h2
    have hs := List.dedup_sublist l
    have := hs.eq_of_length (by rw [h2, h])
    rw [← this]; exact List.nodup_dedup l
  · intro h2
    rw [h2.dedup, h]

theorem four_ids (p0 p1 p2 s : State) :
    ((([p0] ++ sortByIndex [p1, p2, s]).map (·.index)).dedup.length = 4) ↔
      [p0.index, p1.index, p2.index, s.index].Nodup := by
  have hp : (([p0] ++ sortByIndex [p1, p2, s]).map (·.index)).Perm
      [p0.index, p1.index, p2.index, s.index] :=
    ((sortByIndex_perm [p1, p2, s]).append_left [p0]).map _
  rw [dedup_length_eq_iff (by rw [hp.length_eq]; rfl)]
  exact hp.nodup_iff

/-- What `Chain.new` does on the two shapes with an isobar and a state child. -/
theorem chainNew_shape (p0 : Obj) (R : Obj) (c1 c2 : Node) (s : State) (inc out : Option LS)
    (n : Node)
    (hn : n = .isobar p0 (.isobar R c1 c2 out) (.leaf (.state s)) inc ∨
      n = .isobar p0 (.leaf (.state s)) (.isobar R c1 c2 out) inc) :
    Chain.new n =
      match c1.toParticle, c2.toParticle, p0 with
      | .state p1, .state p2, .state q =>
        if [q.index, p1.index, p2.index, s.index].Nodup then
          .ok ⟨n, q, R, p1, p2, s, inc, out⟩
        else .error .valueError
      | .state _, .state _, .particle _ => .error .typeError
      | _, _, _ => .error .attributeError := by
  have e1 : n.decayNode = .ok (.isobar R c1 c2 out) := by rcases hn with rfl | rfl <;> rfl
  have e2 : n.decayProducts = .ok (c1.toParticle, c2.toParticle) := by
    rcases hn with rfl | rfl <;> rfl
  have e3 : n.spectator = .ok s := by rcases hn with rfl | rfl <;> rfl
  have e4 : Chain.new n = (do
      let fs ← n.finalState
      match p0 with
      | .particle _ => .error .typeError
      | .state p0 =>
        if ([p0, ] ++ fs).map (·.index) |>.dedup |>.length |> (· ≠ 4) then .error .valueError
        else
          let d ← n.decayNode
          let ps ← n.decayProducts
          return { decay := n, parent := p0, resonance := d.toParticle,
                   product1 := ← ps.1.asState, product2 := ← ps.2.asState,
                   spectator := ← n.spectator, incomingLs := inc,
                   outgoingLs := d.interaction }) := by rcases hn with rfl | rfl <;> rfl
  have e5 : n.finalState = (do
      let a ← c1.toParticle.asState
      let b ← c2.toParticle.asState
      return sortByIndex [a, b, s]) := by unfold Node.finalState; rw [e2, e3]; rfl
  rw [e4, e5, e1, e2, e3]
  clear e1 e2 e3 e4 e5
  cases h1 : c1.toParticle with
  | particle a => rfl
  | state a =>
  cases h2 : c2.toParticle with
  | particle b => rfl
  | state b =>
  cases p0 with
  | particle q => rfl
  | state q =>
    show (if (([q] ++ sortByIndex [a, b, s]).map (·.index)).dedup.length ≠ 4 then
      (.error .valueError : Py Chain) else _) = if _ then _ else _
    have := four_ids q a b s
    by_cases hN : [q.index, a.index, b.index, s.index].Nodup
    · rw [if_neg (not_not.2 (this.2 hN)), if_pos hN]; rfl
    · rw [if_pos (fun h => hN (this.1 h)), if_neg hN]

/-- `Chain.new` on every other isobar node. -/
theorem chainNew_noshape (p0 : Obj) (c1 c2 : Node) (ls : Option LS)
    (h : ¬ ((c1.isIsobar = true ∧ c2.isState = true) ∨ (c1.isState = true ∧ c2.isIsobar = true))) :
    Chain.new (.isobar p0 c1 c2 ls) = .error .valueError := by
  rcases c1 with (_ | _) | ⟨R, d1, d2, l1⟩ <;> rcases c2 with (_ | _) | ⟨R', d1', d2', l1'⟩ <;>
    first
    | rfl
    | exact absurd (by simp [Node.isIsobar, Node.isState]) h

theorem chain_shape_of_ok {n : Node} {c : Chain} (h : Chain.new n = .ok c) :
    ∃ p0 R c1 c2 s inc out, (n = .isobar p0 (.isobar R c1 c2 out) (.leaf (.state s)) inc ∨
      n = .isobar p0 (.leaf (.state s)) (.isobar R c1 c2 out) inc) := by
  cases n with
  | leaf o => cases h
  | isobar p0 c1 c2 ls =>
    by_cases hs : (c1.isIsobar = true ∧ c2.isState = true) ∨ (c1.isState = true ∧ c2.isIsobar = true)
    · rcases c1 with (_ | _) | ⟨R, d1, d2, l1⟩ <;> rcases c2 with (_ | _) | ⟨R', d1', d2', l1'⟩ <;>
        simp [Node.isIsobar, Node.isState] at hs
      · exact ⟨_, _, _, _, _, _, _, .inr rfl⟩
      · exact ⟨_, _, _, _, _, _, _, .inl rfl⟩
    · rw [chainNew_noshape _ _ _ _ hs] at h; cases h

theorem setEq_iff {α : Type} [DecidableEq α] (a b : List α) :
    setEq a b = true ↔ ∀ x, x ∈ a ↔ x ∈ b := by
  simp only [setEq, Bool.and_eq_true, List.all_eq_true, decide_eq_true_eq]
  exact ⟨fun h x => ⟨h.1 x, h.2 x⟩, fun h => ⟨fun x => (h x).1, fun x => (h x).2⟩⟩

theorem checkChains_ok (s0 : State) (final : List State) (cs : List Chain) :
    checkChains s0 final cs = .ok () ↔ ∀ c ∈ cs, c.parent = s0 ∧
      ∀ s, (s = c.spectator ∨ s = c.product1 ∨ s = c.product2) ↔ s ∈ final := by
  induction cs with
  | nil => simp [checkChains]
  | cons c cs ih =>
    simp only [checkChains, List.forall_mem_cons]
    by_cases h1 : c.parent = s0
    · by_cases h2 : setEq [c.spectator, c.product1, c.product2] final = true
      · simp only [h1, h2, ne_eq, not_true_eq_false, if_false, ih, true_and]
        rw [setEq_iff] at h2
        simp only [List.mem_cons, List.not_mem_nil, or_false] at h2
        exact ⟨fun h => ⟨h2, h⟩, fun h => h.2⟩
      · simp only [h1, h2, ne_eq, not_true_eq_false, if_false]
        rw [setEq_iff] at h2
        simp only [List.mem_cons, List.not_mem_nil, or_false] at h2
        constructor
        · intro h; cases h
        · intro h; exact absurd h.1.2 h2
    · simp [h1]

theorem checkChains_cases (s0 : State) (final : List State) (cs : List Chain) :
    checkChains s0 final cs = .ok () ∨ checkChains s0 final cs = .error .valueError := by
  induction cs with
  | nil => exact .inl rfl
  | cons c cs ih =>
    simp only [checkChains]
    split
    · exact .inr rfl
    · split
      · exact .inr rfl
      · exact ih

theorem mem_finalStateDict (states : PyDict ℤ State) (s : State) :
    s ∈ (finalStateDict states).map Prod.snd ↔
      s.index ≠ 0 ∧ LastWithIndex s (states.map Prod.snd) := by
  have hnd := PyDict.nodup_ofItems
    (((states.map Prod.snd).filter (·.index ≠ 0)).map fun s => (s.index, s))
  have h1 : ∀ {k s}, (k, s) ∈ finalStateDict states → k = s.index := by
    intro k s h
    have h := (PyDict.mem_iff_get? hnd).1 h
    rw [PyDict.get?_ofItems] at h
    have h := PyDict.mem_of_get? h
    rw [List.mem_reverse] at h
    simp only [List.mem_map] at h
    obtain ⟨a, _, h⟩ := h
    cases h; rfl
  have h2 : s ∈ (finalStateDict states).map Prod.snd ↔ (s.index, s) ∈ finalStateDict states := by
    rw [List.mem_map]
    constructor
    · rintro ⟨⟨k, s'⟩, h, rfl⟩
      have := h1 h
      subst this; exact h
    · intro h; exact ⟨_, h, rfl⟩
  rw [h2, finalStateDict, PyDict.mem_iff_get? hnd, PyDict.get?_ofItems, PyDict.get?_reverse_iff]
  generalize states.map Prod.snd = l
  constructor
  · rintro ⟨pre, post, h, hp⟩
    have hs : s ∈ l.filter (·.index ≠ 0) := by
      have : (s.index, s) ∈ (l.filter (·.index ≠ 0)).map fun s => (s.index, s) := by
        rw [h]; simp
      obtain ⟨a, ha, hae⟩ := List.mem_map.1 this
      have := (Prod.mk.inj hae).2; subst this; exact ha
    have h0 : s.index ≠ 0 := by simpa using (List.mem_filter.1 hs).2
    refine ⟨h0, ?_⟩
    obtain ⟨l1, l2, hl, hl1, hl2⟩ := List.map_eq_append_iff.1 h
    obtain ⟨a, l3, rfl, ha, hl3⟩ := List.map_eq_cons_iff.1 hl2
    have := (Prod.mk.inj ha).2; subst this
    obtain ⟨m1, m2, rfl, hm1, hm2⟩ := List.filter_eq_append_iff.1 hl
    obtain ⟨m3, m4, rfl, hm3, hm4, hm5⟩ := List.filter_eq_cons_iff.1 hm2
    refine ⟨m1 ++ m3, m4, by simp, ?_⟩
    intro t ht hidx
    have : t ∈ l3 := by
      rw [← hm5, List.mem_filter]
      exact ⟨ht, by simp [hidx, h0]⟩
    exact hp (t.index, t) (by rw [← hl3]; exact List.mem_map.2 ⟨t, this, rfl⟩) hidx
  · rintro ⟨h0, pre, post, rfl, hp⟩
    refine ⟨(pre.filter (·.index ≠ 0)).map fun s => (s.index, s),
      (post.filter (·.index ≠ 0)).map fun s => (s.index, s), ?_, ?_⟩
    · simp [h0]
    · rintro ⟨k, t⟩ ht
      obtain ⟨a, ha, hae⟩ := List.mem_map.1 ht
      cases hae
      exact hp _ (List.mem_filter.1 ha).1

theorem decayNew_ok (states : PyDict ℤ State) (chains : List Chain) (d : Decay) :
    Decay.new states chains = .ok d ↔ d = ⟨states, chains⟩ ∧
      ∃ s0, PyDict.get? states 0 = some s0 ∧ ∀ c ∈ chains, c.parent = s0 ∧
        ∀ s, (s = c.spectator ∨ s = c.product1 ∨ s = c.product2) ↔
          s.index ≠ 0 ∧ LastWithIndex s (states.map Prod.snd) := by
  unfold Decay.new initialState PyDict.get
  cases h : PyDict.get? states 0 with
  | none => simp [bind, Except.bind]
  | some s0 =>
    have key := checkChains_ok s0 ((finalStateDict states).map Prod.snd) chains
    simp only [mem_finalStateDict] at key
    rcases checkChains_cases s0 ((finalStateDict states).map Prod.snd) chains with h' | h'
    · have := key.1 h'
      simp only [h', bind, Except.bind, pure, Except.pure, Except.ok.injEq, Option.some.injEq,
        exists_eq_left']
      constructor
      · rintro rfl; exact ⟨rfl, this⟩
      · rintro ⟨rfl, _⟩; rfl
    · simp only [h', bind, Except.bind, Option.some.injEq,
        exists_eq_left']
      constructor
      · intro h; cases h
      · rintro ⟨_, h⟩; rw [key.2 h] at h'; cases h'

theorem decayNew_filter {states : PyDict ℤ State} {chains : List Chain} {d : Decay}
    (h : Decay.new states chains = .ok d) (f : Chain → Bool) :
    Decay.new states (chains.filter f) = .ok ⟨states, chains.filter f⟩ := by
  rw [decayNew_ok] at h ⊢
  obtain ⟨-, s0, h0, hc⟩ := h
  exact ⟨rfl, s0, h0, fun c hc' => hc c (List.mem_filter.1 hc').1⟩

theorem getSubsystem_eq {d : Decay} (hd : d.Valid) (k : ℤ) :
    d.getSubsystem k = .ok (⟨d.states, d.chains.filter (fun c => c.spectator.index = k)⟩,
      (d.chains.filter (fun c => c.spectator.index = k)).isEmpty) := by
  have := decayNew_filter hd.1 (fun c => decide (c.spectator.index = k))
  simp only [Decay.getSubsystem, this]; rfl

end Verif.ThreeBody

namespace Verif.ThreeBody
open Verif Verif.Spec

theorem perm_flatMap_filter {α : Type} [DecidableEq α] (f : α → ℤ) (ids : List ℤ) (l : List α)
    (hn : ids.Nodup) (h : ∀ c ∈ l, f c ∈ ids) :
    (ids.flatMap fun k => l.filter (fun c => f c = k)).Perm l := by
  rw [List.perm_iff_count]
  intro a
  rw [List.count_flatMap]
  by_cases ha : a ∈ l
  · have hfa := h a ha
    clear h
    induction ids with
    | nil => simp at hfa
    | cons k ids ih =>
      rw [List.nodup_cons] at hn
      simp only [List.map_cons, List.sum_cons, Function.comp]
      by_cases hk : f a = k
      · rw [List.count_filter (by simpa using hk)]
        have : (List.map (List.count a ∘ fun k => l.filter (fun c => f c = k)) ids).sum = 0 := by
          rw [List.sum_eq_zero]
          intro x hx
          obtain ⟨k', hk', rfl⟩ := List.mem_map.1 hx
          simp only [Function.comp, List.count_eq_zero, List.mem_filter, not_and]
          intro _ h'
          have h' := of_decide_eq_true h'
          exact hn.1 (by rw [← hk, h']; exact hk')
        rw [this, add_zero]
      · have h0 : List.count a (l.filter (fun c => f c = k)) = 0 := by
          simp [List.count_eq_zero, List.mem_filter, hk]
        rw [h0, zero_add]
        rcases List.mem_cons.1 hfa with h | h
        · exact absurd h hk
        · exact ih hn.2 h
  · rw [List.count_eq_zero.2 ha, List.sum_eq_zero]
    intro x hx
    obtain ⟨k', hk', rfl⟩ := List.mem_map.1 hx
    simp [List.count_eq_zero, List.mem_filter, ha]

theorem sortedSet_mem (l : List ℤ) (x : ℤ) : x ∈ sortedSet l ↔ x ∈ l := by
  simp [sortedSet]

theorem sortedSet_nodup (l : List ℤ) : (sortedSet l).Nodup := by
  unfold sortedSet
  exact (List.mergeSort_perm _ _).nodup_iff.2 (List.nodup_dedup l)

theorem sortedSet_pairwise (l : List ℤ) : (sortedSet l).Pairwise (· < ·) := by
  have h1 : (sortedSet l).Pairwise (fun a b => decide (a ≤ b) = true) :=
    List.pairwise_mergeSort (fun a b c => by simp; omega) (fun a b => by simp; omega) _
  have h2 := sortedSet_nodup l
  have := List.Pairwise.and h1 h2
  exact this.imp (fun ⟨a, b⟩ => lt_of_le_of_ne (of_decide_eq_true a) b)

theorem sortedSet_eq_nil (l : List ℤ) : sortedSet l = [] ↔ l = [] := by
  simp only [List.eq_nil_iff_forall_not_mem, sortedSet_mem]

theorem maxFold_spec (x : ℤ × ℕ) (xs : List (ℤ × ℕ)) :
    ∃ pre post r, xs.foldl (fun best y => if best.2 < y.2 then y else best) x = r ∧
      x :: xs = pre ++ r :: post ∧ (∀ y ∈ pre, y.2 < r.2) ∧ ∀ y ∈ post, y.2 ≤ r.2 := by
  induction xs generalizing x with
  | nil => exact ⟨[], [], x, rfl, rfl, by simp, by simp⟩
  | cons y xs ih =>
    simp only [List.foldl_cons]
    by_cases h : x.2 < y.2
    · rw [if_pos h]
      obtain ⟨pre, post, r, h1, h2, h3, h4⟩ := ih y
      refine ⟨x :: pre, post, r, h1, by rw [h2]; rfl, ?_, h4⟩
      intro z hz
      rcases List.mem_cons.1 hz with rfl | hz
      · cases pre with
        | nil => simp at h2; rw [← h2.1]; exact h
        | cons w pre =>
          simp at h2
          exact h.trans (by have := h3 w (List.mem_cons_self ..); rw [← h2.1] at this; exact this)
      · exact h3 z hz
    · rw [if_neg h]
      obtain ⟨pre, post, r, h1, h2, h3, h4⟩ := ih x
      cases pre with
      | nil =>
        simp at h2
        obtain ⟨rfl, rfl⟩ := h2
        refine ⟨[], y :: xs, x, h1, rfl, by simp, ?_⟩
        intro z hz
        rcases List.mem_cons.1 hz with rfl | hz
        · exact not_lt.1 h
        · exact h4 z hz
      | cons w pre =>
        simp at h2
        obtain ⟨rfl, rfl⟩ := h2
        refine ⟨x :: y :: pre, post, r, h1, by simp, ?_, h4⟩
        have hx := h3 x (List.mem_cons_self ..)
        intro z hz
        rcases List.mem_cons.1 hz with rfl | hz
        · exact hx
        · rcases List.mem_cons.1 hz with rfl | hz
          · exact lt_of_le_of_lt (not_lt.1 h) hx
          · exact h3 z (List.mem_cons_of_mem _ hz)

theorem mapM_ok {α β : Type} (f : α → Py β) (g : α → β) (l : List α)
    (h : ∀ a ∈ l, f a = .ok (g a)) : l.mapM f = .ok (l.map g) := by
  induction l with
  | nil => rfl
  | cons a l ih =>
    rw [List.mapM_cons, h a (List.mem_cons_self ..),
      ih (fun b hb => h b (List.mem_cons_of_mem _ hb))]
    rfl

end Verif.ThreeBody
