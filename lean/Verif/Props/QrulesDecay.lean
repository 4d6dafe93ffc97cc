import Verif.Proofs.QrulesReturns

/-!
Property C49: `to_three_body_decay`.
-/
namespace Verif.Qrules
open Verif Verif.ThreeBody Verif.Spec

/-- C49: without transitions, `ValueError` is raised. -/
theorem C49_empty (m : MinLsArg) : toThreeBodyDecay [] m = .error .valueError := rfl

theorem stage_members {ts ts1 : List (Transition QObj QNode)}
    (h : ts1 = ts ∨ normalizeTransitions ts = .ok ts1)
    (hw : ∀ t ∈ ts, WellFormed t ∧ PyDict.keys t.interactions = [0, 1]) :
    (∀ t1 ∈ ts1, WellFormed t1 ∧ PyDict.keys t1.interactions = [0, 1]) ∧
    (∀ t1 ∈ ts1, ∃ t ∈ ts, ∀ ch, Describes t1 ch → Describes t ch) ∧
    (∀ t ∈ ts, ∃ t1 ∈ ts1, ∀ ch, Describes t1 ch → Describes t ch) := by
  rcases h with rfl | h
  · exact ⟨hw, fun t ht => ⟨t, ht, fun _ h => h⟩, fun t ht => ⟨t, ht, fun _ h => h⟩⟩
  · unfold normalizeTransitions at h
    rw [mapM_ok_iff] at h
    refine ⟨?_, ?_, ?_⟩
    · intro t1 ht1
      obtain ⟨t, ht, hn⟩ := forall₂_mem_right h ht1
      refine ⟨normalizeTransition_wellFormed (hw t ht).1 hn, ?_⟩
      obtain ⟨u, h1, -, -, -, -, h2, -⟩ := C43_transition t (hw t ht).1.valid
      rw [hn] at h1
      injection h1 with h1
      subst h1
      rw [h2]
      exact (hw t ht).2
    · intro t1 ht1
      obtain ⟨t, ht, hn⟩ := forall₂_mem_right h ht1
      exact ⟨t, ht, fun ch => describes_of_normalized (hw t ht).1.valid hn⟩
    · intro t ht
      obtain ⟨t1, ht1, hn⟩ := forall₂_mem_left h ht
      exact ⟨t1, ht1, fun ch => describes_of_normalized (hw t ht).1.valid hn⟩

/-- C49: if `to_three_body_decay` returns, then the decay satisfies the invariants of the constructors,
and its chains are, in sorted order, the chains of the transitions that remain after relabelling
(`ts1`), conversion (`cs`) and the filter (`us`): one for each, with the states and couplings of that
transition. The filter is the one that `min_ls` asks for.

Partial, because it assumes that the interaction dictionaries list node 0 before node 1; see
`C49_coupling_order_fails`. -/
theorem C49_result_partial (ts : List (Transition QObj QNode)) (m : MinLsArg) (d : Decay)
    (hw : ∀ t ∈ ts, WellFormed t ∧ PyDict.keys t.interactions = [0, 1])
    (h : toThreeBodyDecay ts m = .ok d) :
    d.Valid ∧ ∃ ts1 cs us chains, (ts1 = ts ∨ normalizeTransitions ts = .ok ts1) ∧
      convertTransitions ts1 = .ok cs ∧
      (m = .bool false → us = cs) ∧
      (m = .bool true → filterMinLs cs none = .ok us) ∧
      (∀ p q, m = .pair p q → ∃ sel, filterMinLs cs (some sel) = .ok us ∧
        ∀ n, n ∈ sel ↔ (n = 0 ∧ p = true) ∨ (n = 1 ∧ q = true)) ∧
      List.Forall₂ IsChainOf us chains ∧ us ≠ [] ∧
      d.chains.Perm chains ∧ d.chains.Pairwise (fun a b => chainKey a ≤ chainKey b) := by
  obtain ⟨ts1, hn, h⟩ := toThreeBodyDecay_stages h
  obtain ⟨cs, us, chains, states, h1, h2, h3, h4, h5, h6, h7⟩ := decayOfNormalized_stages h
  obtain ⟨hw1, -, -⟩ := stage_members hn hw
  rw [mapM_ok_iff] at h4
  obtain ⟨hp, hs, -⟩ := pySorted_ok h5
  refine ⟨⟨by rw [h6]; exact h7, fun c hc => ?_⟩, ts1, cs, us, chains, hn, h1, ?_, ?_, ?_, ?_, h3, hp, hs⟩
  · obtain ⟨u, -, hu⟩ := forall₂_mem_right h4 (hp.mem_iff.1 hc)
    exact chain_of_toDecayChain hu
  · rintro rfl
    injection h2 with h2
    exact h2.symm
  · rintro rfl
    exact h2
  · rintro p q rfl
    refine ⟨_, h2, fun n => ?_⟩
    cases p <;> cases q <;> simp
  · have : ∀ u ∈ us, WellFormed u ∧ Typed u ∧ PyDict.keys u.interactions = [0, 1] := by
      intro u hu
      obtain ⟨c, hc, e1, e2, e3⟩ := applyMinLs_from h2 hu
      obtain ⟨t, ht, htc⟩ := (C45_result ts1 cs h1).2.2.1 c hc
      have hwc := convertTransition_wellFormed (hw1 t ht).1 htc
      have hty := convertTransition_typed htc
      refine ⟨hwc.congr e1 (by rw [e2]) e3, ?_, ?_⟩
      · unfold Typed
        rw [e1, e2]
        exact hty
      · rw [e3, (convertTransition_keys htc).2]
        exact (hw1 t ht).2
    clear h2 h3 hp hs h5
    induction h4 with
    | nil => exact .nil
    | @cons u c us cs' hu _ ih =>
      obtain ⟨w1, w2, w3⟩ := this u (List.mem_cons_self ..)
      exact .cons (toDecayChain_isChainOf w1 w2 w3 hu)
        (ih fun v hv => this v (List.mem_cons_of_mem _ hv))

/-- C49: without `min_ls`, every transition is described by a chain of the decay, with the same
particles and the same couplings, and every chain describes one of the transitions.

Partial for the same reason as above. -/
theorem C49_every_transition_partial (ts : List (Transition QObj QNode)) (d : Decay)
    (hw : ∀ t ∈ ts, WellFormed t ∧ PyDict.keys t.interactions = [0, 1])
    (h : toThreeBodyDecay ts (.bool false) = .ok d) :
    (∀ t ∈ ts, ∃ c ∈ d.chains, Describes t c) ∧ (∀ c ∈ d.chains, ∃ t ∈ ts, Describes t c) := by
  obtain ⟨-, ts1, cs, us, chains, hn, h1, h2, -, -, h3, -, hp, -⟩ :=
    C49_result_partial ts (.bool false) d hw h
  obtain rfl := h2 rfl
  obtain ⟨hw1, hto, hfrom⟩ := stage_members hn hw
  obtain ⟨-, -, hr1, hr2⟩ := C45_result ts1 us h1
  constructor
  · intro t ht
    obtain ⟨t1, ht1, hdesc⟩ := hfrom t ht
    obtain ⟨c, hc, r, hr, hs⟩ := hr2 t1 ht1
    obtain ⟨ch, hch, hchain⟩ := forall₂_mem_left h3 hr
    refine ⟨ch, hp.mem_iff.2 hch, hdesc ch (describes_of_isChainOf (hw1 t1 ht1).1.valid hc ?_)⟩
    exact isChainOf_same hs (convertTransition_wellFormed (hw1 t1 ht1).1 hc).valid hchain
  · intro ch hch
    obtain ⟨r, hr, hchain⟩ := forall₂_mem_right h3 (hp.mem_iff.1 hch)
    obtain ⟨t1, ht1, hc⟩ := hr1 r hr
    obtain ⟨t, ht, hdesc⟩ := hto t1 ht1
    exact ⟨t, ht, hdesc ch (describes_of_isChainOf (hw1 t1 ht1).1.valid hc hchain)⟩

/-- C49: transitions whose IDs are not 0 and 1, 2, 3 are first relabelled. -/
theorem C49_relabels (t0 : Transition QObj QNode) (ts ts1 : List (Transition QObj QNode)) (m : MinLsArg)
    (hv : Valid t0) (hn : normalizeTransitions (t0 :: ts) = .ok ts1)
    (hids : ¬ (t0.topology.incoming = [0] ∧ t0.topology.outgoing = [1, 2, 3]))
    (hnew : ∀ u ∈ ts1, Valid u ∧ u.topology.incoming = [0] ∧ u.topology.outgoing = [1, 2, 3]) :
    toThreeBodyDecay (t0 :: ts) m = toThreeBodyDecay ts1 m := by
  have total : ∀ {t : Transition QObj QNode}, Valid t → ∃ a b, t.initialStates = .ok a ∧
      t.finalStates = .ok b ∧ PyDict.keys a = t.topology.incoming ∧
      PyDict.keys b = t.topology.outgoing := by
    intro t hv
    obtain ⟨a, ha, -⟩ := filterStates_total (states := t.states) (ids := t.topology.incoming) (by
      intro k hk
      refine get?_of_keys ((hv.sameEdges k).1 ?_)
      obtain ⟨e, he, -⟩ := (mem_select _ hv.edges (fun e => e.orig.isNone) k).1 hk
      exact keys_of_get? he)
    obtain ⟨b, hb, -⟩ := filterStates_total (states := t.states) (ids := t.topology.outgoing) (by
      intro k hk
      refine get?_of_keys ((hv.sameEdges k).1 ?_)
      obtain ⟨e, he, -⟩ := (mem_select _ hv.edges (fun e => e.dest.isNone) k).1 hk
      exact keys_of_get? he)
    exact ⟨a, b, ha, hb, filterStates_keys ha, filterStates_keys hb⟩
  have hset : ∀ {l l' : List ℤ}, l'.Pairwise (· < ·) → setEq (sortedSet l) l' = true →
      sortedSet l = l' := by
    intro l l' hl' he
    rw [setEq_iff] at he
    exact sortedSet_eq hl' he
  obtain ⟨a, b, ha, hb, ka, kb⟩ := total hv
  have hc : ¬ setEq (PyDict.keys a) [0] = true ∨ ¬ setEq (PyDict.keys b) [1, 2, 3] = true := by
    by_contra hcon
    push Not at hcon
    rw [ka, kb] at hcon
    exact hids ⟨hset (by decide) hcon.1, hset (by decide) hcon.2⟩
  have e1 : toThreeBodyDecay (t0 :: ts) m = decayOfNormalized ts1 m := by
    unfold toThreeBodyDecay
    simp only [ha, hb, bind, Except.bind]
    rw [if_pos hc, hn]
  rw [e1]
  cases ts1 with
  | nil =>
    unfold normalizeTransitions at hn
    rw [mapM_ok_iff] at hn
    cases hn
  | cons u us =>
    obtain ⟨hvu, hi, ho⟩ := hnew u (List.mem_cons_self ..)
    obtain ⟨a', b', ha', hb', ka', kb'⟩ := total hvu
    unfold toThreeBodyDecay
    simp only [ha', hb', bind, Except.bind]
    rw [if_neg]
    rw [ka', kb', hi, ho]
    decide

theorem toState_of_same {o : QObj} {k : ℤ} {s : State} (h : SameParticle o s.toParticle)
    (hp : s.parity ≠ none) (hs : IsHalfInteger s.spin) (hk : s.index = k)
    (hi : ∀ s', o = .dpd (.state s') → s'.index = k) : toState o (some k) = .ok s := by
  obtain ⟨q, h1, h2, h3, h4, h5, h6, h7⟩ := h
  have hidx : o.indexOr (some k) = some k := by
    unfold QObj.indexOr
    split
    · rw [hi _ rfl]
    · rfl
  unfold toState
  rw [hidx, h1]
  simp only
  cases hq : q.parity with
  | none => rw [hq] at h5; exact absurd h5 hp
  | some x =>
    have hsq : Spin.assertSpinValue q.spin = .ok () := halfInt_ok (by rw [← h4]; exact hs)
    simp only [intParity, bind, Except.bind, State.new, hsq, pure, Except.pure]
    obtain ⟨⟨_, _, _, _, _, _⟩, _⟩ := s
    simp only at h2 h3 h4 h5 h6 h7 hk
    rw [h2, h3, h4, h5, h6, h7, hk, hq]

theorem toParticle_of {o : QObj} {q : QParticle} (h : o.attrs = some q) (hp : q.parity ≠ none)
    (hs : IsHalfInteger q.spin) : ∃ p, toParticle o = .ok p ∧ p.parity ≠ none ∧ IsHalfInteger p.spin := by
  obtain ⟨p, hp'⟩ := (C50_outcome o q h 0).2.2.2.2.1.2 ⟨hp, hs⟩
  obtain ⟨q', h1, -, -, h5, h2, h3, -⟩ := C50_particle_values o p hp'
  rw [h] at h1
  injection h1 with h1
  exact ⟨p, hp', by rw [h2]; exact h3, by rw [h5, ← h1]; exact hs⟩

theorem toLsCoupling_of {x : QNode} {y : Option LS} (h : HasCoupling x y)
    (hs : ∀ ls, y = some ls → IsHalfInteger ls.S) : toLsCoupling x = .ok y := by
  cases x with
  | none => cases h; rfl
  | ls x => cases h; rfl
  | other => cases h
  | props l s =>
    cases l with
    | none => cases h; rfl
    | some l =>
      cases s with
      | none => cases h; rfl
      | some s =>
        cases h
        have := halfInt_ok (hs _ rfl)
        simp only [toLsCoupling, LS.new, this, bind, Except.bind, pure, Except.pure]

theorem forall₂_exists {α β : Type} {R : α → β → Prop} (l : List α) (h : ∀ a ∈ l, ∃ b, R a b) :
    ∃ l', List.Forall₂ R l l' := by
  induction l with
  | nil => exact ⟨[], .nil⟩
  | cons a l ih =>
    obtain ⟨b, hb⟩ := h a (List.mem_cons_self ..)
    obtain ⟨l', hl⟩ := ih fun x hx => h x (List.mem_cons_of_mem _ hx)
    exact ⟨b :: l', .cons hb hl⟩

/-- C49 with a description of the result. -/
theorem good_converted (ts : List (Transition QObj QNode)) (hne : ts ≠ [])
    (r : ℤ) (hr : 3 < r) (S : ℤ → State) (f : ℤ → Bool)
    (hS : ∀ k, k ∈ [0, 1, 2, 3] → (S k).index = k ∧ (S k).parity ≠ none ∧ IsHalfInteger (S k).spin)
    (hbody : ∀ t ∈ ts, ∃ s i j, ThreeBody t 0 s r i j ∧
      ∀ k, (k = s ∨ k = i ∨ k = j) ↔ (k = 1 ∨ k = 2 ∨ k = 3))
    (hnodes : ∀ t ∈ ts, PyDict.keys t.interactions = [0, 1])
    (hres : ∀ t ∈ ts, ∃ o q, PyDict.get? t.states r = some o ∧ o.attrs = some q ∧ q.parity ≠ none ∧
      IsHalfInteger q.spin)
    (houter : ∀ t ∈ ts, ∀ k, k ∈ [0, 1, 2, 3] → ∃ o, PyDict.get? t.states k = some o ∧
      SameParticle o (S k).toParticle ∧ ∀ s', o = .dpd (.state s') → s'.index = k)
    (hls : ∀ t ∈ ts, ∀ n x, PyDict.get? t.interactions n = some x → ∃ y, HasCoupling x y ∧
      y.isSome = f n ∧ ∀ ls, y = some ls → IsHalfInteger ls.S) :
    ∃ cs rs, List.Forall₂ (fun t c => convertTransition t = .ok c ∧ Good r S f c) ts cs ∧
      convertTransitions ts = .ok rs ∧ rs ≠ [] ∧ (∀ c ∈ rs, Good r S f c) ∧
      ∀ m, toThreeBodyDecay ts m = decayOfNormalized ts m := by
  -- conversion of one transition
  have hconv : ∀ t ∈ ts, ∃ c, convertTransition t = .ok c ∧ Good r S f c := by
    intro t ht
    obtain ⟨s, i, j, hb, hm⟩ := hbody t ht
    have hv := hb.valid
    have hk : ∀ k, k ∈ [0, 1, 2, 3] → k ≠ r := by
      intro k hk
      simp only [List.mem_cons, List.not_mem_nil, or_false] at hk
      omega
    obtain ⟨states, hstates⟩ := forall₂_exists (R := ConvState t) t.states (by
      rintro ⟨k, o⟩ hko
      have hg := PyDict.get?_of_mem hv.states hko
      by_cases hkr : k = r
      · subst hkr
        obtain ⟨o', q, h1, h2, h3, h4⟩ := hres t ht
        rw [hg] at h1
        injection h1 with h1
        subst h1
        obtain ⟨p, hp, -⟩ := toParticle_of h2 h3 h4
        exact ⟨(k, .particle p), rfl, .inl ⟨by rw [hb.intermediate]; simp, p, hp, rfl⟩⟩
      · have hk4 : k ∈ [0, 1, 2, 3] := by
          have h1 := (hb.ids k).1 ((hv.sameEdges k).2 (keys_of_get? hg))
          have h2 := hm k
          simp only [List.mem_cons, List.not_mem_nil, or_false]
          omega
        obtain ⟨o', h1, h2, h3⟩ := houter t ht k hk4
        rw [hg] at h1
        injection h1 with h1
        subst h1
        exact ⟨(k, .state (S k)), rfl, .inr ⟨by rw [hb.intermediate]; simpa using hkr, S k,
          toState_of_same h2 (hS k hk4).2.1 (hS k hk4).2.2 (hS k hk4).1 h3, rfl⟩⟩)
    obtain ⟨ints, hints⟩ := forall₂_exists
      (R := fun x y => ConvNode x y ∧ y.2.isSome = f y.1) t.interactions (by
      rintro ⟨n, x⟩ hnx
      obtain ⟨y, h1, h2, h3⟩ := hls t ht n x (PyDict.get?_of_mem hv.interactions hnx)
      exact ⟨(n, y), ⟨rfl, toLsCoupling_of h1 h3⟩, h2⟩)
    have hc := convertTransition_eq hv hstates (hints.imp fun x y h => h.1)
    have hkeys := convertTransition_keys hc
    have fwd : ∀ k ∈ PyDict.keys t.states, ∃ o y, PyDict.get? t.states k = some o ∧
        PyDict.get? states k = some y ∧ ConvState t (k, o) (k, y) := by
      intro k hk
      rw [← hkeys.1] at hk
      obtain ⟨y, hy⟩ := get?_of_keys hk
      obtain ⟨o, ho, h⟩ := get?_forall₂ hstates (fun x y h => h.1) hy
      exact ⟨o, y, ho, hy, h⟩
    refine ⟨_, hc, ?_⟩
    constructor
    · refine ⟨s, i, j, hb.of_topology ?_ rfl, hm⟩
      exact ⟨hv.edges, by rw [hkeys.1]; exact hv.states, by rw [hkeys.2]; exact hv.interactions,
        fun k => by rw [hkeys.1]; exact hv.sameEdges k, fun k => by rw [hkeys.2]; exact hv.sameNodes k⟩
    · exact hr
    · rw [hkeys.2]; exact hnodes t ht
    · intro k hk4
      obtain ⟨o, h1, h2, h3⟩ := houter t ht k hk4
      obtain ⟨o', y, g1, g2, -, g3⟩ := fwd k (keys_of_get? h1)
      rw [h1] at g1
      injection g1 with g1
      subst g1
      rcases g3 with ⟨g3, -⟩ | ⟨-, s', hs', rfl⟩
      · rw [hb.intermediate] at g3
        exact absurd (by simpa using g3) (hk k hk4)
      · rw [toState_of_same h2 (hS k hk4).2.1 (hS k hk4).2.2 (hS k hk4).1 h3] at hs'
        injection hs' with hs'
        rw [hs']
        exact g2
    · obtain ⟨o, q, h1, h2, h3, h4⟩ := hres t ht
      obtain ⟨o', y, g1, g2, -, g3⟩ := fwd r (keys_of_get? h1)
      rw [h1] at g1
      injection g1 with g1
      subst g1
      rcases g3 with ⟨-, p, hp, rfl⟩ | ⟨g3, -⟩
      · obtain ⟨p', hp', hpar⟩ := toParticle_of h2 h3 h4
        rw [hp] at hp'
        injection hp' with hp'
        subst hp'
        exact ⟨p, g2, hpar⟩
      · rw [hb.intermediate] at g3
        exact absurd (by simp) g3
    · intro n v hn
      obtain ⟨x, -, -, h⟩ := get?_forall₂ hints (fun x y h => h.1.1) hn
      exact h
  obtain ⟨cs, hcs⟩ := forall₂_exists (R := fun t c => convertTransition t = .ok c ∧ Good r S f c) ts hconv
  have hgood : ∀ c ∈ cs, Good r S f c := fun c hc => by
    obtain ⟨t, -, -, h⟩ := forall₂_mem_right hcs hc
    exact h
  have hout : ∀ t ∈ ts, t.topology.incoming = [0] ∧ t.topology.outgoing = [1, 2, 3] ∧
      t.topology.intermediate = [r] := by
    intro t ht
    obtain ⟨s, i, j, hb, hm⟩ := hbody t ht
    exact ⟨hb.incoming, hb.outgoing (by decide) (fun k => by rw [hm]; simp), hb.intermediate⟩
  obtain ⟨rs, hrs⟩ := C45_returns ts cs (fun t ht => by
      obtain ⟨s, i, j, hb, -⟩ := hbody t ht
      exact hb.valid) (hcs.imp fun t c h => h.1) (fun t ht u hu => by
      obtain ⟨h1, h2, h3⟩ := hout t ht
      obtain ⟨g1, g2, g3⟩ := hout u hu
      exact ⟨by rw [h1, g1], by rw [h2, g2], by rw [h3, g3]⟩) (fun c hc d hd n x y hx hy => by
      have h1 := (hgood c hc).ls n x hx
      have h2 := (hgood d hd).ls n y hy
      rw [← h2] at h1
      cases x <;> cases y <;> simp at h1 ⊢)
  obtain ⟨-, -, hr1, hr2⟩ := C45_result ts rs hrs
  have hrsne : rs ≠ [] := by
    obtain ⟨t, ht⟩ := List.exists_mem_of_ne_nil _ hne
    obtain ⟨_, -, r', hr', -⟩ := hr2 t ht
    exact List.ne_nil_of_mem hr'
  refine ⟨cs, rs, hcs, hrs, hrsne, fun c hc => ?_, fun m => ?_⟩
  · obtain ⟨t, ht, h⟩ := hr1 c hc
    obtain ⟨c', h', hg⟩ := hconv t ht
    rw [h] at h'
    injection h' with h'
    rw [h']
    exact hg
  cases ts with
  | nil => exact absurd rfl hne
  | cons t0 ts =>
    obtain ⟨h1, h2, -⟩ := hout t0 (List.mem_cons_self ..)
    have st : ∀ k, k ∈ [0, 1, 2, 3] → ∃ o, PyDict.get? t0.states k = some o := fun k hk => by
      obtain ⟨o, ho, -⟩ := houter t0 (List.mem_cons_self ..) k hk
      exact ⟨o, ho⟩
    obtain ⟨a, ha, -⟩ := filterStates_total (states := t0.states) (ids := [0])
      (fun k hk => st k (by simp at hk ⊢; omega))
    obtain ⟨b, hb, -⟩ := filterStates_total (states := t0.states) (ids := [1, 2, 3])
      (fun k hk => st k (by simp at hk ⊢; omega))
    have ha' : t0.initialStates = .ok a := by unfold Transition.initialStates; rw [h1]; exact ha
    have hb' : t0.finalStates = .ok b := by unfold Transition.finalStates; rw [h2]; exact hb
    unfold toThreeBodyDecay
    simp only [ha', hb', bind, Except.bind]
    rw [if_neg]
    · rw [filterStates_keys ha, filterStates_keys hb]
      decide

theorem returns_good (ts : List (Transition QObj QNode)) (hne : ts ≠ []) (m : MinLsArg)
    (r : ℤ) (hr : 3 < r) (S : ℤ → State) (f : ℤ → Bool)
    (hS : ∀ k, k ∈ [0, 1, 2, 3] → (S k).index = k ∧ (S k).parity ≠ none ∧ IsHalfInteger (S k).spin)
    (hbody : ∀ t ∈ ts, ∃ s i j, ThreeBody t 0 s r i j ∧
      ∀ k, (k = s ∨ k = i ∨ k = j) ↔ (k = 1 ∨ k = 2 ∨ k = 3))
    (hnodes : ∀ t ∈ ts, PyDict.keys t.interactions = [0, 1])
    (hres : ∀ t ∈ ts, ∃ o q, PyDict.get? t.states r = some o ∧ o.attrs = some q ∧ q.parity ≠ none ∧
      IsHalfInteger q.spin)
    (houter : ∀ t ∈ ts, ∀ k, k ∈ [0, 1, 2, 3] → ∃ o, PyDict.get? t.states k = some o ∧
      SameParticle o (S k).toParticle ∧ ∀ s', o = .dpd (.state s') → s'.index = k)
    (hls : ∀ t ∈ ts, ∀ n x, PyDict.get? t.interactions n = some x → ∃ y, HasCoupling x y ∧
      y.isSome = f n ∧ ∀ ls, y = some ls → IsHalfInteger ls.S) :
    ∃ d, toThreeBodyDecay ts m = .ok d ∧ GoodDecay S f d := by
  obtain ⟨cs, rs, -, h1, h2, h3, h4⟩ := good_converted ts hne r hr S f hS hbody hnodes hres houter hls
  rw [h4]
  exact Good.decayOfNormalized hS ts rs h1 h2 h3 m

/-- C49: `to_three_body_decay` returns, for every `min_ls`, for transitions with IDs 0 and 1, 2, 3 that
have the same outer states, defined parities, valid spins, and that agree on which nodes have LS
couplings (`f`). Here `S` are the outer states and `r` is the ID of the resonance. -/
theorem C49_returns (ts : List (Transition QObj QNode)) (hne : ts ≠ []) (m : MinLsArg)
    (r : ℤ) (hr : 3 < r) (S : ℤ → State) (f : ℤ → Bool)
    (hS : ∀ k, k ∈ [0, 1, 2, 3] → (S k).index = k ∧ (S k).parity ≠ none ∧ IsHalfInteger (S k).spin)
    (hbody : ∀ t ∈ ts, ∃ s i j, ThreeBody t 0 s r i j ∧
      ∀ k, (k = s ∨ k = i ∨ k = j) ↔ (k = 1 ∨ k = 2 ∨ k = 3))
    (hnodes : ∀ t ∈ ts, PyDict.keys t.interactions = [0, 1])
    (hres : ∀ t ∈ ts, ∃ o q, PyDict.get? t.states r = some o ∧ o.attrs = some q ∧ q.parity ≠ none ∧
      IsHalfInteger q.spin)
    (houter : ∀ t ∈ ts, ∀ k, k ∈ [0, 1, 2, 3] → ∃ o, PyDict.get? t.states k = some o ∧
      SameParticle o (S k).toParticle ∧ ∀ s', o = .dpd (.state s') → s'.index = k)
    (hls : ∀ t ∈ ts, ∀ n x, PyDict.get? t.interactions n = some x → ∃ y, HasCoupling x y ∧
      y.isSome = f n ∧ ∀ ls, y = some ls → IsHalfInteger ls.S) :
    ∃ d, toThreeBodyDecay ts m = .ok d := by
  obtain ⟨d, h, -⟩ := returns_good ts hne m r hr S f hS hbody hnodes hres houter hls
  exact ⟨d, h⟩

/-! ### Example -/

/-- An example with the IDs 0, 1, 2, 3 and 4, and the given interactions. -/
def exReady (ints : PyDict ℤ QNode) : Transition QObj QNode :=
  ⟨exTopology 0 1 4 2 3,
    [(0, .state (exQ "J/psi" 1 (some (-1))) 1), (1, .state (exQ "K0" 0 (some (-1))) 0),
      (2, .state (exQ "Sigma+" (1 / 2) (some 1)) (1 / 2)),
      (3, .state (exQ "p~" (1 / 2) (some (-1))) (1 / 2)),
      (4, .state (exQ "N" (3 / 2) (some (-1))) (1 / 2))], ints⟩

/-- Its outer states. -/
def exOuter : ℤ → State := fun k =>
  if k = 0 then ⟨⟨"J/psi", "J/psi", 1, some (-1), 1, 0⟩, 0⟩
  else if k = 1 then ⟨⟨"K0", "K0", 0, some (-1), 1, 0⟩, 1⟩
  else if k = 2 then ⟨⟨"Sigma+", "Sigma+", 1 / 2, some 1, 1, 0⟩, 2⟩
  else ⟨⟨"p~", "p~", 1 / 2, some (-1), 1, 0⟩, 3⟩

theorem exReady_valid {ints : PyDict ℤ QNode} (h1 : (PyDict.keys ints).Nodup)
    (h2 : ∀ k, k ∈ [0, 1] ↔ k ∈ PyDict.keys ints) : Valid (exReady ints) where
  edges := by simp [exReady, exTopology, PyDict.keys]
  states := by simp [exReady, PyDict.keys]
  interactions := h1
  sameEdges := fun k => by
    simp only [exReady, exTopology, PyDict.keys, List.map_cons, List.map_nil, List.mem_cons,
      List.not_mem_nil, or_false]
  sameNodes := h2

theorem exReady_threeBody {ints : PyDict ℤ QNode} (h1 : (PyDict.keys ints).Nodup)
    (h2 : ∀ k, k ∈ [0, 1] ↔ k ∈ PyDict.keys ints) : ThreeBody (exReady ints) 0 1 4 2 3 where
  valid := exReady_valid h1 h2
  nodes := rfl
  ids := fun k => by
    simp only [exReady, exTopology, PyDict.keys, List.map_cons, List.map_nil, List.mem_cons,
      List.not_mem_nil, or_false]
    omega
  distinct := by decide
  initial := rfl
  spectator := rfl
  resonance := rfl
  product1 := rfl
  product2 := rfl
  order := by decide

theorem ThreeBody.wellFormed {E N : Type} {t : Transition E N} {a s r i j : ℤ}
    (h : ThreeBody t a s r i j) : WellFormed t where
  valid := h.valid
  nodes := by rw [h.nodes]; decide
  origin := by
    intro k e n he hn
    rw [h.nodes]
    rcases h.edge he with ⟨rfl, rfl⟩ | ⟨rfl, rfl⟩ | ⟨rfl, rfl⟩ | ⟨rfl, rfl⟩ | ⟨rfl, rfl⟩ <;>
      simp at hn ⊢ <;> omega
  destination := by
    intro k e n he hn
    rw [h.nodes]
    rcases h.edge he with ⟨rfl, rfl⟩ | ⟨rfl, rfl⟩ | ⟨rfl, rfl⟩ | ⟨rfl, rfl⟩ | ⟨rfl, rfl⟩ <;>
      simp at hn ⊢ <;> omega
  noLoop := by
    intro k e n he hn
    rcases h.edge he with ⟨rfl, rfl⟩ | ⟨rfl, rfl⟩ | ⟨rfl, rfl⟩ | ⟨rfl, rfl⟩ | ⟨rfl, rfl⟩ <;>
      simp at hn ⊢ <;> omega
  entered := by
    intro n hn
    rw [h.nodes] at hn
    simp only [List.mem_cons, List.not_mem_nil, or_false] at hn
    rcases hn with rfl | rfl
    · exact ⟨a, _, h.initial, rfl⟩
    · exact ⟨r, _, h.resonance, rfl⟩

theorem exOuter_good : ∀ k, k ∈ [0, 1, 2, 3] → (exOuter k).index = k ∧ (exOuter k).parity ≠ none ∧
    IsHalfInteger (exOuter k).spin := by
  intro k hk
  simp only [List.mem_cons, List.not_mem_nil, or_false] at hk
  rcases hk with rfl | rfl | rfl | rfl
  · exact ⟨rfl, by simp [exOuter], 2, by norm_num [exOuter]⟩
  · exact ⟨rfl, by simp [exOuter], 0, by norm_num [exOuter]⟩
  · exact ⟨rfl, by simp [exOuter], 1, by norm_num [exOuter]⟩
  · exact ⟨rfl, by simp [exOuter], 1, by norm_num [exOuter]⟩

/-- Two transitions with different production couplings satisfy the hypotheses of `C49_returns`, and
hence of the theorems above, for each `min_ls`. -/
theorem exReady_returns (x y z : LS) (hx : IsHalfInteger x.S) (hy : IsHalfInteger y.S)
    (hz : IsHalfInteger z.S) (m : MinLsArg) : ∃ d, toThreeBodyDecay
    [exReady [(0, .ls x), (1, .ls z)], exReady [(0, .ls y), (1, .ls z)]] m = .ok d := by
  refine C49_returns _ (by simp) m 4 (by decide) exOuter (fun _ => true) exOuter_good ?_ ?_ ?_ ?_ ?_
  all_goals
    intro t ht
    simp only [List.mem_cons, List.not_mem_nil, or_false] at ht
  · rcases ht with rfl | rfl <;>
      exact ⟨1, 2, 3, exReady_threeBody (by simp [PyDict.keys]) (by simp [PyDict.keys]), fun k => Iff.rfl⟩
  · rcases ht with rfl | rfl <;> rfl
  · rcases ht with rfl | rfl <;>
      exact ⟨_, _, rfl, rfl, by simp [exQ], 3, by norm_num [exQ]⟩
  · intro k hk
    simp only [List.mem_cons, List.not_mem_nil, or_false] at hk
    rcases ht with rfl | rfl <;> rcases hk with rfl | rfl | rfl | rfl <;>
      exact ⟨_, rfl, ⟨_, rfl, rfl, rfl, rfl, rfl, rfl, rfl⟩, by simp⟩
  · intro n w hw
    have hmem := PyDict.mem_of_get? hw
    rcases ht with rfl | rfl
    all_goals
      simp only [exReady, List.mem_cons, Prod.mk.injEq, List.not_mem_nil, or_false] at hmem
      rcases hmem with ⟨_, rfl⟩ | ⟨_, rfl⟩
    · exact ⟨some x, rfl, rfl, fun ls h => by cases h; exact hx⟩
    · exact ⟨some z, rfl, rfl, fun ls h => by cases h; exact hz⟩
    · exact ⟨some y, rfl, rfl, fun ls h => by cases h; exact hy⟩
    · exact ⟨some z, rfl, rfl, fun ls h => by cases h; exact hz⟩

example (x y z : LS) : ∀ t ∈ [exReady [(0, .ls x), (1, .ls z)], exReady [(0, .ls y), (1, .ls z)]],
    WellFormed t ∧ PyDict.keys t.interactions = [0, 1] := by
  intro t ht
  simp only [List.mem_cons, List.not_mem_nil, or_false] at ht
  rcases ht with rfl | rfl <;>
    exact ⟨(exReady_threeBody (by simp [PyDict.keys]) (by simp [PyDict.keys])).wellFormed, rfl⟩

/-- The example with the IDs of QRules is relabelled, which gives the IDs 0 and 1, 2, 3. -/
example (p d : QNode) (m : MinLsArg) : ∃ t1, normalizeTransition (exTransition p d) = .ok t1 ∧
    toThreeBodyDecay [exTransition p d] m = toThreeBodyDecay [t1] m := by
  have hb := exTransition_threeBody p d
  obtain ⟨t1, h1, hv, -⟩ := C43_transition _ hb.valid
  have heq := normalizeTransition_eq _ hb.valid
  rw [h1] at heq
  injection heq with heq
  refine ⟨t1, h1, C49_relabels _ [] [t1] m hb.valid ?_ ?_ ?_⟩
  · simp only [normalizeTransitions, List.mapM_cons, List.mapM_nil, h1, bind, Except.bind, pure,
      Except.pure]
  · rw [hb.incoming]
    simp
  · intro u hu
    simp only [List.mem_cons, List.not_mem_nil, or_false] at hu
    subst hu
    refine ⟨hv, ?_⟩
    have := (C44_normalised_ids (exTransition p d).topology hb.valid.edges (-1) 0 1 2 3
      (by simp [exTransition, exTopology, PyDict.keys]) hb.incoming
      (hb.outgoing (by decide) (fun k => by simp)) hb.intermediate).2
      (by rw [hb.outgoing (l := [0, 1, 2]) (by decide) (fun k => by simp)]; decide)
    rw [heq]
    exact ⟨this.1, this.2.1⟩

/-! ### Order of the interactions -/

theorem convertTransitions_singleton {t : Transition QObj QNode} {c : Transition Obj (Option LS)}
    (hv : Valid t) (h : convertTransition t = .ok c) : convertTransitions [t] = .ok [c] := by
  obtain ⟨rs, hrs⟩ := C45_returns [t] [c] (by simpa using hv) (.cons h .nil) (by simp) (by
    intro a ha b hb n x y hx hy
    simp only [List.mem_cons, List.not_mem_nil, or_false] at ha hb
    subst ha hb
    rw [hx] at hy
    injection hy with hy
    rw [hy])
  have hrs' := hrs
  unfold convertTransitions at hrs
  simp only [List.mapM_cons, List.mapM_nil, h, bind, Except.bind, pure, Except.pure] at hrs
  have hp := (pySorted_ok hrs).1
  rw [hrs', List.perm_singleton.1 hp]

theorem exReady_convert {a b : ℤ} (x y : LS) (hv : Valid (exReady [(a, .ls x), (b, .ls y)])) :
    convertTransition (exReady [(a, .ls x), (b, .ls y)]) = .ok ⟨exTopology 0 1 4 2 3,
      [(0, .state (exOuter 0)), (1, .state (exOuter 1)), (2, .state (exOuter 2)),
        (3, .state (exOuter 3)), (4, .particle ⟨"N", "N", 3 / 2, some (-1), 1, 0⟩)],
      [(a, some x), (b, some y)]⟩ := by
  have s1 := halfInt_ok (s := 1) ⟨2, by norm_num⟩
  have s0 := halfInt_ok (s := 0) ⟨0, by norm_num⟩
  have sh := halfInt_ok (s := 1 / 2) ⟨1, by norm_num⟩
  have s3 := halfInt_ok (s := 3 / 2) ⟨3, by norm_num⟩
  have hi : (exReady [(a, .ls x), (b, .ls y)]).topology.intermediate = [4] :=
    sortedSet_of_sorted (l := [4]) (by decide)
  apply convertTransition_eq hv
  · refine .cons ⟨rfl, .inr ⟨by rw [hi]; decide, _, ?_, rfl⟩⟩
      (.cons ⟨rfl, .inr ⟨by rw [hi]; decide, _, ?_, rfl⟩⟩
      (.cons ⟨rfl, .inr ⟨by rw [hi]; decide, _, ?_, rfl⟩⟩
      (.cons ⟨rfl, .inr ⟨by rw [hi]; decide, _, ?_, rfl⟩⟩
      (.cons ⟨rfl, .inl ⟨by rw [hi]; decide, _, ?_, rfl⟩⟩ .nil))))
    all_goals
      simp only [toState, toParticle, QObj.indexOr, QObj.attrs, exQ, intParity, State.new,
        Particle.new, bind, Except.bind, s1, s0, sh, s3, Option.getD_none, pure, Except.pure]
      try rfl
  · exact .cons ⟨rfl, rfl⟩ (.cons ⟨rfl, rfl⟩ .nil)

theorem exReady_skip {ints : PyDict ℤ QNode} (hb : ThreeBody (exReady ints) 0 1 4 2 3) (m : MinLsArg) :
    toThreeBodyDecay [exReady ints] m = decayOfNormalized [exReady ints] m := by
  have h1 : (exReady ints).initialStates = .ok [(0, .state (exQ "J/psi" 1 (some (-1))) 1)] := by
    unfold Transition.initialStates
    rw [hb.incoming]
    rfl
  have h2 : (exReady ints).finalStates = .ok [(1, .state (exQ "K0" 0 (some (-1))) 0),
      (2, .state (exQ "Sigma+" (1 / 2) (some 1)) (1 / 2)),
      (3, .state (exQ "p~" (1 / 2) (some (-1))) (1 / 2))] := by
    unfold Transition.finalStates
    rw [hb.outgoing (l := [1, 2, 3]) (by decide) (fun k => by simp)]
    rfl
  unfold toThreeBodyDecay
  simp only [h1, h2, bind, Except.bind]
  rw [if_neg]
  simp only [PyDict.keys, List.map_cons, List.map_nil]
  decide

theorem toDecayChain_nodes (top : Topology) (st : PyDict ℤ Obj) (a b a' b' : ℤ) (p q : Option LS) :
    toDecayChain ⟨top, st, [(a, p), (b, q)]⟩ = toDecayChain ⟨top, st, [(a', p), (b', q)]⟩ := by
  unfold toDecayChain Transition.initialStates Transition.finalStates
  simp only
  generalize top.outOf 0 = A
  generalize top.outOf 1 = B
  generalize top.into 1 = C
  generalize filterStates st top.incoming = I
  generalize filterStates st top.outgoing = F
  rcases I with _ | _ | ⟨i, I⟩ <;> [rfl; rfl; skip]
  rcases A with _ | ⟨_, _ | ⟨_, _ | ⟨_, _⟩⟩⟩ <;> [rfl; rfl; skip; rfl]
  rcases B with _ | ⟨_, _ | ⟨_, _ | ⟨_, _⟩⟩⟩ <;> [rfl; rfl; skip; rfl]
  rcases C with _ | ⟨_, _⟩ <;> rfl

/-- C49 fails if the interaction dictionary lists node 1 before node 0: the couplings are taken in the
order of insertion, so that the chain has production and decay coupling exchanged. -/
theorem C49_coupling_order_fails : ∃ (t : Transition QObj QNode) (d : Decay), WellFormed t ∧
    toThreeBodyDecay [t] (.bool false) = .ok d ∧ d.chains ≠ [] ∧ ∀ c ∈ d.chains, ¬ Describes t c := by
  let x : LS := ⟨0, 1 / 2⟩
  let y : LS := ⟨1, 1 / 2⟩
  have hx : IsHalfInteger x.S := ⟨1, by norm_num [x]⟩
  have hy : IsHalfInteger y.S := ⟨1, by norm_num [y]⟩
  let t := exReady [(1, .ls y), (0, .ls x)]
  let t' := exReady [(0, .ls y), (1, .ls x)]
  have hb : ThreeBody t 0 1 4 2 3 := exReady_threeBody (by simp [PyDict.keys]) (by
    simp [PyDict.keys]; omega)
  have hb' : ThreeBody t' 0 1 4 2 3 := exReady_threeBody (by simp [PyDict.keys]) (by simp [PyDict.keys])
  -- the other order
  obtain ⟨d, hd⟩ : ∃ d, toThreeBodyDecay [t'] (.bool false) = .ok d := by
    refine C49_returns _ (by simp) _ 4 (by decide) exOuter (fun _ => true) exOuter_good ?_ ?_ ?_ ?_ ?_
    all_goals
      intro u hu
      simp only [List.mem_cons, List.not_mem_nil, or_false] at hu
      subst hu
    · exact ⟨1, 2, 3, hb', fun k => Iff.rfl⟩
    · rfl
    · exact ⟨_, _, rfl, rfl, by simp [exQ], 3, by norm_num [exQ]⟩
    · intro k hk
      simp only [List.mem_cons, List.not_mem_nil, or_false] at hk
      rcases hk with rfl | rfl | rfl | rfl <;>
        exact ⟨_, rfl, ⟨_, rfl, rfl, rfl, rfl, rfl, rfl, rfl⟩, by simp⟩
    · intro n w hw
      have hmem := PyDict.mem_of_get? hw
      simp only [t', exReady, List.mem_cons, Prod.mk.injEq, List.not_mem_nil, or_false] at hmem
      rcases hmem with ⟨_, rfl⟩ | ⟨_, rfl⟩
      · exact ⟨some y, rfl, rfl, fun ls h => by cases h; exact hy⟩
      · exact ⟨some x, rfl, rfl, fun ls h => by cases h; exact hx⟩
  -- gives the same decay
  have heq : toThreeBodyDecay [t] (.bool false) = toThreeBodyDecay [t'] (.bool false) := by
    rw [exReady_skip hb, exReady_skip hb']
    unfold decayOfNormalized
    rw [convertTransitions_singleton hb.valid (exReady_convert y x hb.valid),
      convertTransitions_singleton hb'.valid (exReady_convert y x hb'.valid)]
    simp only [applyMinLs, bind, Except.bind, List.mapM_cons, List.mapM_nil]
    rw [toDecayChain_nodes _ _ 1 0 0 1]
    rfl
  obtain ⟨h1, h2⟩ := C49_every_transition_partial [t'] d (by
    intro u hu
    simp only [List.mem_cons, List.not_mem_nil, or_false] at hu
    subst hu
    exact ⟨hb'.wellFormed, rfl⟩) hd
  refine ⟨t, d, hb.wellFormed, by rw [heq]; exact hd, ?_, ?_⟩
  · obtain ⟨c, hc, -⟩ := h1 t' (by simp)
    exact List.ne_nil_of_mem hc
  · intro c hc hdesc
    obtain ⟨u, hu, hdesc'⟩ := h2 c hc
    simp only [List.mem_cons, List.not_mem_nil, or_false] at hu
    subst hu
    obtain ⟨_, _, _, _, _, _, _, _, _, _, n0, _, -, -, -, -, -, -, ⟨e0, g0⟩, -⟩ := hdesc
    obtain ⟨_, _, _, _, _, _, _, _, _, _, n0', _, -, -, -, -, -, -, ⟨e0', g0'⟩, -⟩ := hdesc'
    have k1 : n0 = .ls x := by
      have : PyDict.get? t.interactions 0 = some (.ls x) := rfl
      rw [this] at e0
      injection e0 with e0
      exact e0.symm
    have k2 : n0' = .ls y := by
      have : PyDict.get? t'.interactions 0 = some (.ls y) := rfl
      rw [this] at e0'
      injection e0' with e0'
      exact e0'.symm
    subst k1 k2
    simp only [HasCoupling] at g0 g0'
    rw [g0] at g0'
    injection g0' with g
    have := congrArg LS.L g
    revert this
    decide

/-- C49: the spectator is taken to be the smaller of the IDs of the states that leave the production
node, so a transition whose resonance has a smaller ID than the spectator has no chain: an exception is
raised instead of a decay with the wrong spectator. -/
theorem C49_resonance_before_spectator (t : Transition QObj QNode) (u : Transition Obj (Option LS))
    (a s r i j : ℤ) (hb : ThreeBody t a s r i j) (hrs : r < s) (h : convertTransition t = .ok u) :
    ∃ e, toDecayChain u = .error e := by
  cases hc : toDecayChain u with
  | error e => exact ⟨e, rfl⟩
  | ok c =>
    exfalso
    have hu : ThreeBody u a s r i j :=
      hb.of_topology (convertTransition_wellFormed hb.wellFormed h).valid (convertTransition_ok h).1
    have h0 : u.topology.outOf 0 = [r, s] := by
      refine sortedSet_eq (by simpa using hrs) fun k => ?_
      rw [show sortedSet _ = u.topology.outOf 0 from rfl, mem_outOf hu.valid]
      constructor
      · rintro ⟨e, he, ho⟩
        rcases hu.edge he with ⟨rfl, rfl⟩ | ⟨rfl, rfl⟩ | ⟨rfl, rfl⟩ | ⟨rfl, rfl⟩ | ⟨rfl, rfl⟩ <;>
          simp at ho ⊢
      · intro hk
        simp only [List.mem_cons, List.not_mem_nil, or_false] at hk
        rcases hk with rfl | rfl
        · exact ⟨_, hu.resonance, rfl⟩
        · exact ⟨_, hu.spectator, rfl⟩
    obtain ⟨_, _, _, x, y, _, _, _, _, _, _, _, _, -, -, -, hx, -, -, -, _, _, _, o, -, -, -, hxo, hnew⟩ :=
      toDecayChain_data hc
    rw [h0] at hx
    injection hx with hx _
    subst hx
    obtain ⟨p, hp⟩ := (convertTransition_typed h r o hxo).2 (by rw [hu.intermediate]; simp)
    subst hp
    obtain ⟨⟨⟨_, _, -, -, hshape⟩, -⟩, -⟩ := (C16_chain_constructor _ c).1 hnew
    rcases hshape with hshape | hshape
    · injection hshape with _ _ e3 _
      cases e3
    · cases hshape

/-- Such transitions exist. -/
example : ∃ t : Transition QObj QNode, ThreeBody t 0 3 1 2 4 ∧ (1 : ℤ) < 3 := by
  refine ⟨⟨exTopology 0 3 1 2 4, [(0, .other), (3, .other), (1, .other), (2, .other), (4, .other)],
    [(0, .none), (1, .none)]⟩, ?_, by decide⟩
  exact {
    valid := {
      edges := by simp [exTopology, PyDict.keys]
      states := by simp [PyDict.keys]
      interactions := by simp [PyDict.keys]
      sameEdges := fun k => by
        simp only [exTopology, PyDict.keys, List.map_cons, List.map_nil, List.mem_cons,
          List.not_mem_nil, or_false]
        omega
      sameNodes := fun k => by simp [exTopology, PyDict.keys] }
    nodes := rfl
    ids := fun k => by
      simp only [exTopology, PyDict.keys, List.map_cons, List.map_nil, List.mem_cons,
        List.not_mem_nil, or_false]
      omega
    distinct := by decide
    initial := rfl
    spectator := rfl
    resonance := rfl
    product1 := rfl
    product2 := rfl
    order := by decide }

end Verif.Qrules
