import Verif.Props.QrulesDecay

/-! Helpers: `to_three_body_decay` respects `==` of transitions. -/
namespace Verif.Qrules
open Verif Verif.ThreeBody Verif.Spec

theorem forall₂_filter {α β : Type} {R : α → β → Prop} {p : α → Bool} {q : β → Bool}
    (hp : ∀ a b, R a b → p a = q b) {l : List α} {l' : List β} (h : List.Forall₂ R l l') :
    List.Forall₂ R (l.filter p) (l'.filter q) := by
  induction h with
  | nil => exact .nil
  | cons h1 h2 ih =>
    rw [List.filter_cons, List.filter_cons, hp _ _ h1]
    split
    · exact .cons h1 ih
    · exact ih

theorem forall₂_firsts {α κ : Type} [DecidableEq κ] {R : α → α → Prop} {g : α → κ}
    (hg : ∀ a b, R a b → g a = g b) {l l' : List α} (h : List.Forall₂ R l l') :
    List.Forall₂ R (firsts g l) (firsts g l') := by
  induction h with
  | nil => exact .nil
  | cons h1 h2 ih =>
    refine .cons h1 (forall₂_filter (fun a b hab => ?_) ih)
    rw [hg _ _ h1, hg _ _ hab]

theorem mapM_congr₂ {α β γ : Type} {R : α → β → Prop} {f : α → Py γ} {f' : β → Py γ}
    (hf : ∀ a b, R a b → f a = f' b) {l : List α} {l' : List β} (h : List.Forall₂ R l l') :
    l.mapM f = l'.mapM f' := by
  induction h with
  | nil => rfl
  | cons h1 h2 ih => rw [List.mapM_cons, List.mapM_cons, hf _ _ h1, ih]

/-- Good transitions that are `==`. -/
structure Rel (r : ℤ) (S : ℤ → State) (f : ℤ → Bool) (c c' : Transition Obj (Option LS)) : Prop where
  same : Same c c'
  left : Good r S f c
  right : Good r S f c'

variable {r : ℤ} {S : ℤ → State} {f : ℤ → Bool} {c c' : Transition Obj (Option LS)}

theorem Rel.interactions (h : Rel r S f c c') : c.interactions = c'.interactions := by
  obtain ⟨x, y, hxy⟩ := interactions_eq h.left.nodes
  obtain ⟨x', y', hxy'⟩ := interactions_eq h.right.nodes
  have h0 := h.same.2.2 0
  have h1 := h.same.2.2 1
  rw [hxy, hxy'] at h0 h1
  simp [PyDict.get?] at h0 h1
  rw [hxy, hxy', h0, h1]

theorem ThreeBody.of_same {E N : Type} {t t' : Transition E N} {a s r i j : ℤ} (h : ThreeBody t a s r i j)
    (hs : SameTopology t.topology t'.topology) (hv : Valid t') : ThreeBody t' a s r i j where
  valid := hv
  nodes := by rw [← hs.1]; exact h.nodes
  ids := fun k => by
    rw [← h.ids k, PyDict.mem_keys_iff, PyDict.mem_keys_iff, hs.2 k]
  distinct := h.distinct
  initial := by rw [← hs.2]; exact h.initial
  spectator := by rw [← hs.2]; exact h.spectator
  resonance := by rw [← hs.2]; exact h.resonance
  product1 := by rw [← hs.2]; exact h.product1
  product2 := by rw [← hs.2]; exact h.product2
  order := h.order

theorem Rel.body (h : Rel r S f c c') : ∃ s i j, ThreeBody c 0 s r i j ∧ ThreeBody c' 0 s r i j ∧
    ((s = 1 ∧ i = 2 ∧ j = 3) ∨ (s = 2 ∧ i = 1 ∧ j = 3) ∨ (s = 3 ∧ i = 1 ∧ j = 2)) := by
  obtain ⟨s, i, j, hb, hm⟩ := h.left.ids
  obtain ⟨s', i', j', hb', -⟩ := h.right.ids
  exact ⟨s, i, j, hb, hb.of_same h.same.1 hb'.valid, hm⟩

theorem Rel.groupKey (h : Rel r S f c c') (sel : List ℤ) : groupKey sel c = groupKey sel c' := by
  obtain ⟨s, i, j, hb, hb', -⟩ := h.body
  obtain ⟨p, hp, -⟩ := h.left.resonance
  have hp' : PyDict.get? c'.states r = some (.particle p) := by rw [← h.same.2.1 r]; exact hp
  rw [groupKey_eq sel (hb.oneResonance h.left.nodes) hp, groupKey_eq sel (hb'.oneResonance h.right.nodes) hp',
    hb.outOf1, hb'.outOf1]
  unfold lsOf
  rw [h.interactions]

theorem Rel.toDecayChain (h : Rel r S f c c') : toDecayChain c = toDecayChain c' := by
  obtain ⟨s, i, j, hb, hb', hsij⟩ := h.body
  obtain ⟨p, hp, -⟩ := h.left.resonance
  have hp' : PyDict.get? c'.states r = some (.particle p) := by rw [← h.same.2.1 r]; exact hp
  have hr := h.left.later
  have o1 : ∀ k, k ∈ [s, i, j] → PyDict.get? c.states k = some (.state (S k)) := by
    intro k hk
    refine h.left.outer k ?_
    simp only [List.mem_cons, List.not_mem_nil, or_false] at hk ⊢
    omega
  have o2 : ∀ k, k ∈ [s, i, j] → PyDict.get? c'.states k = some (.state (S k)) := by
    intro k hk
    rw [← h.same.2.1 k]
    exact o1 k hk
  obtain ⟨x, y, hxy⟩ := interactions_eq h.left.nodes
  have hxy' : c'.interactions = [(0, x), (1, y)] := by rw [← h.interactions]; exact hxy
  unfold Qrules.toDecayChain
  rw [h.left.initialStates, h.left.finalStates, hb.outOf0 (by omega), hb.outOf1, hb.into1,
    h.right.initialStates, h.right.finalStates, hb'.outOf0 (by omega), hb'.outOf1, hb'.into1]
  simp only [bind, Except.bind, List.length_cons, List.length_nil, hxy, hxy', PyDict.get, o1 s (by simp),
    o1 i (by simp), o1 j (by simp), o2 s (by simp), o2 i (by simp), o2 j (by simp), hp, hp']

theorem Rel.anyNone (i : ℤ) {g g' : List (Transition Obj (Option LS))}
    (h : List.Forall₂ (Rel r S f) g g') : Qrules.anyNone i g = Qrules.anyNone i g' := by
  induction h with
  | nil => rfl
  | cons h1 _ ih =>
    unfold Qrules.anyNone
    rw [h1.interactions, ih]

theorem Rel.minTransition (sel : List ℤ) {g g' : List (Transition Obj (Option LS))}
    (h : List.Forall₂ (Rel r S f) g g') {u u' : Transition Obj (Option LS)}
    (hu : minTransition sel g = .ok u) (hu' : minTransition sel g' = .ok u') : Same u u' := by
  cases h with
  | nil => cases hu
  | cons h1 h2 =>
    rename_i t0 t0' tl tl'
    have hall : List.Forall₂ (Rel r S f) (t0 :: tl) (t0' :: tl') := .cons h1 h2
    have hmin : ∀ x, minInteraction sel (t0 :: tl) x = minInteraction sel (t0' :: tl') x := by
      intro x
      unfold minInteraction
      rw [mapM_congr₂ (f := fun t => PyDict.get t.interactions x.1)
        (f' := fun t => PyDict.get t.interactions x.1) (fun a b hab => by rw [hab.interactions]) hall, Rel.anyNone x.1 hall]
    unfold Qrules.minTransition at hu hu'
    simp only [hmin] at hu
    simp only [← h1.interactions] at hu'
    cases hm : t0.interactions.mapM (fun x => do
        return (x.1, ← minInteraction sel (t0' :: tl') x)) with
    | error e =>
      simp only [bind, Except.bind] at hu hm
      rw [hm] at hu
      cases hu
    | ok ints =>
      simp only [bind, Except.bind] at hu hu' hm
      rw [hm] at hu hu'
      simp only [Transition.new] at hu hu'
      split at hu
      · split at hu'
        · injection hu with hu
          injection hu' with hu'
          subst hu hu'
          exact ⟨h1.same.1, h1.same.2.1, fun k => rfl⟩
        · cases hu'
      · cases hu

theorem Rel.filter {ts ts' : List (Transition Obj (Option LS))} (hne : ts ≠ [])
    (h : List.Forall₂ (Rel r S f) ts ts') (nodeIds : Option (List ℤ)) :
    ∃ us us', filterMinLs ts nodeIds = .ok us ∧ filterMinLs ts' nodeIds = .ok us' ∧ us ≠ [] ∧
      List.Forall₂ (Rel r S f) us us' := by
  have hg1 : ∀ t ∈ ts, Good r S f t := by
    intro t ht
    obtain ⟨t', -, hr⟩ := forall₂_mem_left h ht
    exact hr.left
  have hg2 : ∀ t ∈ ts', Good r S f t := by
    intro t ht
    obtain ⟨t', -, hr⟩ := forall₂_mem_right h ht
    exact hr.right
  have hne' : ts' ≠ [] := by
    rintro rfl
    cases h
    exact hne rfl
  obtain ⟨us, h1, h2, h3⟩ := Good.filter ts hne hg1 nodeIds
  obtain ⟨us', h1', h2', h3'⟩ := Good.filter ts' hne' hg2 nodeIds
  refine ⟨us, us', h1, h1', h2, ?_⟩
  have hone : ∀ {ts : List (Transition Obj (Option LS))}, (∀ t ∈ ts, Good r S f t) →
      ∀ t ∈ ts, OneResonance t r 0 1 := by
    intro ts hts t ht
    obtain ⟨s, i, j, hb, -⟩ := (hts t ht).body
    exact hb.oneResonance (hts t ht).nodes
  have hsel : nodeIds.getD (ts.flatMap fun t => PyDict.keys t.interactions)
      = nodeIds.getD (ts'.flatMap fun t => PyDict.keys t.interactions) := by
    congr 1
    clear h1 h1' hne hne' hg1 hg2
    induction h with
    | nil => rfl
    | cons g1 g2 ih => rw [List.flatMap_cons, List.flatMap_cons, g1.interactions, ih]
  rw [filterMinLs_eq ts nodeIds (fun t ht => ⟨_, _, _, hone hg1 t ht⟩) hne] at h1
  rw [filterMinLs_eq ts' nodeIds (fun t ht => ⟨_, _, _, hone hg2 t ht⟩) hne', ← hsel] at h1'
  generalize nodeIds.getD (ts.flatMap fun t => PyDict.keys t.interactions) = sel at h1 h1'
  have hkey : ∀ {ts : List (Transition Obj (Option LS))}, (∀ t ∈ ts, Good r S f t) →
      ∀ t ∈ ts, ∃ k, Qrules.groupKey sel t = .ok k := by
    intro ts hts t ht
    obtain ⟨e, he⟩ := (hone hts t ht).state
    exact ⟨_, groupKey_eq sel (hone hts t ht) he⟩
  obtain ⟨t1, ht1⟩ := List.exists_mem_of_ne_nil _ hne
  obtain ⟨k1, hk1⟩ := hkey hg1 t1 ht1
  let g : Transition Obj (Option LS) → GroupKey Obj := fun t =>
    match Qrules.groupKey sel t with
    | .ok k => k
    | .error _ => k1
  have hg : ∀ {ts : List (Transition Obj (Option LS))}, (∀ t ∈ ts, Good r S f t) →
      ∀ t ∈ ts, Qrules.groupKey sel t = .ok (g t) := by
    intro ts hts t ht
    obtain ⟨k, hk⟩ := hkey hts t ht
    simp only [g, hk]
  have hgr : ∀ a b, Rel r S f a b → g a = g b := by
    intro a b hab
    simp only [g, hab.groupKey sel]
  rw [groupTransitions_eq sel g ts (hg hg1), groupFold_eq] at h1
  rw [groupTransitions_eq sel g ts' (hg hg2), groupFold_eq] at h1'
  simp only [bind, Except.bind] at h1 h1'
  rw [mapM_ok_iff, List.forall₂_map_left_iff] at h1 h1'
  have hf := forall₂_firsts hgr h
  have key : ∀ {l l' : List (Transition Obj (Option LS))}, List.Forall₂ (Rel r S f) l l' →
      ∀ {us us'}, List.Forall₂ (fun t u => Qrules.minTransition sel (ts.filter fun v => g v = g t) = .ok u) l us →
      List.Forall₂ (fun t u => Qrules.minTransition sel (ts'.filter fun v => g v = g t) = .ok u) l' us' →
      List.Forall₂ Same us us' := by
    intro l l' hl
    induction hl with
    | nil =>
      intro us us' a b
      cases a; cases b
      exact .nil
    | cons g1 g2 ih =>
      intro us us' a b
      cases a with
      | cons a1 a2 =>
        cases b with
        | cons b1 b2 =>
          refine .cons (Rel.minTransition sel (forall₂_filter (fun x y hxy => ?_) h) a1 b1) (ih a2 b2)
          rw [hgr _ _ hxy, hgr _ _ g1]
  have hs := key hf h1 h1'
  clear h1 h1' hf
  have : ∀ {us us' : List (Transition Obj (Option LS))}, List.Forall₂ Same us us' →
      (∀ u ∈ us, Good r S f u) → (∀ u ∈ us', Good r S f u) → List.Forall₂ (Rel r S f) us us' := by
    intro us us' hs
    induction hs with
    | nil => intros; exact .nil
    | cons a b ih =>
      intro ha hb
      exact .cons ⟨a, ha _ (List.mem_cons_self ..), hb _ (List.mem_cons_self ..)⟩
        (ih (fun u hu => ha u (List.mem_cons_of_mem _ hu)) (fun u hu => hb u (List.mem_cons_of_mem _ hu)))
  exact this hs h3 h3'

theorem Rel.apply {ts ts' : List (Transition Obj (Option LS))} (hne : ts ≠ [])
    (h : List.Forall₂ (Rel r S f) ts ts') (m : MinLsArg) :
    ∃ us us', applyMinLs ts m = .ok us ∧ applyMinLs ts' m = .ok us' ∧ us ≠ [] ∧
      List.Forall₂ (Rel r S f) us us' := by
  cases m with
  | bool b =>
    cases b with
    | false => exact ⟨ts, ts', rfl, rfl, hne, h⟩
    | true => exact Rel.filter hne h none
  | pair p d => exact Rel.filter hne h _

/-- The decay object depends on the converted transitions up to `==` only. -/
theorem Rel.decayOfNormalized {ts ts' : List (Transition QObj QNode)}
    {cs cs' : List (Transition Obj (Option LS))} (hc : convertTransitions ts = .ok cs)
    (hc' : convertTransitions ts' = .ok cs') (hne : cs ≠ []) (h : List.Forall₂ (Rel r S f) cs cs')
    (m : MinLsArg) : decayOfNormalized ts m = decayOfNormalized ts' m := by
  obtain ⟨us, us', h1, h1', h2, h3⟩ := Rel.apply hne h m
  unfold Qrules.decayOfNormalized
  rw [hc, hc']
  simp only [bind, Except.bind]
  rw [h1, h1']
  cases h3 with
  | nil => exact absurd rfl h2
  | cons g1 g2 =>
    simp only
    rw [g1.left.initialStates, g1.left.finalStates, g1.right.initialStates, g1.right.finalStates]
    have hm := mapM_congr₂ (f := Qrules.toDecayChain) (f' := Qrules.toDecayChain)
      (fun a b hab => hab.toDecayChain) (List.Forall₂.cons g1 g2)
    simp only [hm]

end Verif.Qrules
