import Verif.Proofs.PyOrder
import Verif.Props.QrulesDecay
import Verif.Props.Serialization

/-! Property C96: the order of the decay chains and of the converted transitions. -/
namespace Verif
open Verif.ThreeBody Verif.Spec Verif.Qrules

theorem pyLt_agrees {α β : Type} [LinearOrder β] {p : α → PyVal} {k : α → β} {c : α → α → Bool} (h : Agrees p k c)
    (hself : ∀ a, pyLt (p a) (p a) = some false) (hc : ∀ a b, k a = k b → c a b = true) (a b : α) :
    pyLt (p a) (p b) = if c a b then some (decide (k a < k b)) else none := by
  by_cases hk : k a = k b
  · rw [hc a b hk, ((h a b).1).2 hk, hself, hk]
    simp
  · exact (h a b).2 hk

theorem listComparable_self {α : Type} [DecidableEq α] (c : α → α → Bool) (l : List α) : listComparable c l l = true := by
  induction l with
  | nil => rfl
  | cons a l ih => simp [listComparable, ih]

theorem pyLt_transition (a b : Transition Obj (Option LS)) : pyLt (pyTransition a) (pyTransition b) =
    if tcomparable a b then some (decide (tkey a < tkey b)) else none := by
  refine pyLt_agrees agrees_transition (fun a => ?_) (fun a b h => ?_) a b
  · unfold pyTransition
    rw [pyLt, if_pos rfl, pyLt_self_tuple]
  · rw [tkey_inj] at h
    unfold tcomparable
    rw [if_neg (by simpa using h.1), if_neg (by simpa using h.2.1), h.2.2, listComparable_self]

theorem pyLt_chain {a b : Chain} (ha : a.decay = decayOf a) (hb : b.decay = decayOf b) : pyLt (pyChain a) (pyChain b) =
    if chainComparable a b then some (decide (chainKey a < chainKey b)) else none := by
  unfold pyChain
  rw [ha, hb]
  refine pyLt_agrees agrees_decay (fun a => ?_) (fun a b h => ?_) a b
  · rw [pyLt, if_pos rfl, pyLt_self_tuple]
  · unfold chainKey at h
    simp only [EmbeddingLike.apply_eq_iff_eq, Prod.mk.injEq] at h
    obtain ⟨h1, ⟨h2, h3, h4, h5⟩, h6, h7⟩ := h
    have hs {x y : State} (h : objKey (.state x) = objKey (.state y)) : x = y := by injection objKey_inj h
    unfold chainComparable
    simp [hs h1, objKey_inj h2, hs h3, hs h4, optLsKey_inj h5, hs h6, optLsKey_inj h7, optComparable]

theorem decay_of_toDecayChain {t : Transition Obj (Option LS)} {c : Chain} (h : Qrules.toDecayChain t = .ok c) :
    c.decay = decayOf c := by
  obtain ⟨_, _, _, _, _, _, _, _, _, _, _, _, _, -, -, -, -, -, -, -, _, _, _, _, -, -, -, -, hnew⟩ :=
    toDecayChain_data h
  obtain ⟨⟨⟨c1, c2, h1, h2, hn⟩, -⟩, hd⟩ := (C16_chain_constructor _ c).1 hnew
  rw [hd]
  rcases hn with hn | hn
  · injection hn with e1 e2 e3 e4
    injection e2 with f1 f2 f3 f4
    subst f2 f3
    cases h1
    cases h2
    rw [e1, f1, f4, e3, e4]
    rfl
  · injection hn with e1 e2
    cases e2

/-- C96: `convert_transitions` returns different transitions in ascending order: each is less, in the sense of Python's
`<`, than all later ones. -/
theorem C96_converted {ts : List (Transition QObj QNode)} {cs : List (Transition Obj (Option LS))}
    (h : convertTransitions ts = .ok cs) :
    cs.Pairwise fun a b => pyLt (pyTransition a) (pyTransition b) = some true := by
  unfold convertTransitions at h
  cases hm : ts.mapM convertTransition with
  | error e => rw [hm] at h; cases h
  | ok us =>
    rw [hm] at h
    obtain ⟨hp, hs, hc⟩ := pySorted_ok (l := pySet tkey us) h
    have hn : (cs.map tkey).Nodup := by
      rw [(hp.map tkey).nodup_iff, pySet_eq]
      exact (pySet_fold tkey us [] (by simp)).1
    have hlt : cs.Pairwise fun a b => tkey a < tkey b :=
      (hs.and (List.pairwise_map.1 hn)).imp fun h => lt_of_le_of_ne h.1 h.2
    refine hlt.imp_of_mem fun {a b} ha hb h => ?_
    rw [pyLt_transition, hc a (hp.mem_iff.1 ha) b (hp.mem_iff.1 hb), if_pos rfl, decide_eq_true h]

/-- C96: `convert_transitions` raises `TypeError` if Python cannot compare two of the converted transitions, and returns
otherwise. -/
theorem C96_converted_error {ts : List (Transition QObj QNode)} {us : List (Transition Obj (Option LS))}
    (h : List.Forall₂ (fun t u => convertTransition t = .ok u) ts us) :
    ((∃ a ∈ us, ∃ b ∈ us, pyLt (pyTransition a) (pyTransition b) = none) →
      convertTransitions ts = .error .typeError) ∧
    ((∀ a ∈ us, ∀ b ∈ us, pyLt (pyTransition a) (pyTransition b) ≠ none) → ∃ cs, convertTransitions ts = .ok cs) := by
  have hm := (mapM_ok_iff convertTransition ts us).2 h
  have e : convertTransitions ts = pySorted tkey tcomparable (pySet tkey us) := by
    unfold convertTransitions
    rw [hm]
    rfl
  obtain ⟨-, hsub, hkeys⟩ := pySet_fold tkey us [] (by simp)
  rw [← pySet_eq] at hsub hkeys
  have hn (a b) : pyLt (pyTransition a) (pyTransition b) = none ↔ tcomparable a b = false := by
    rw [pyLt_transition]
    cases tcomparable a b <;> simp
  rw [e]
  constructor
  · rintro ⟨a, ha, b, hb, hab⟩
    have rep {x} (hx : x ∈ us) : ∃ y ∈ pySet tkey us, pyTransition y = pyTransition x := by
      have := (hkeys (tkey x)).2 (.inr (List.mem_map_of_mem hx))
      obtain ⟨y, hy, hk⟩ := List.mem_map.1 this
      exact ⟨y, hy, (agrees_transition y x).1.2 hk⟩
    obtain ⟨a', ha', ea⟩ := rep ha
    obtain ⟨b', hb', eb⟩ := rep hb
    rw [← ea, ← eb, hn] at hab
    cases hs : pySorted tkey tcomparable (pySet tkey us) with
    | error e => rw [(pySorted_err hs).1]
    | ok r =>
      have := (pySorted_ok hs).2.2 a' ha' b' hb'
      rw [hab] at this
      cases this
  · intro hall
    refine pySorted_eq fun a ha b hb => ?_
    have ha' : a ∈ us := by simpa using hsub a ha
    have hb' : b ∈ us := by simpa using hsub b hb
    have := hall a ha' b hb'
    rw [ne_eq, hn] at this
    simpa using this

/-- C96: the chains of the decay that `to_three_body_decay` returns are in ascending order: no chain is less, in the sense
of Python's `<`, than an earlier one, and no comparison raises. -/
theorem C96_to_three_body_decay {ts : List (Transition QObj QNode)} {m : MinLsArg} {d : Decay}
    (h : toThreeBodyDecay ts m = .ok d) :
    d.chains.Pairwise (fun a b => pyLt (pyChain b) (pyChain a) = some false) ∧
    ∀ a ∈ d.chains, ∀ b ∈ d.chains, pyLt (pyChain a) (pyChain b) ≠ none := by
  obtain ⟨ts1, -, h⟩ := toThreeBodyDecay_stages h
  obtain ⟨cs, us, chains, states, -, -, -, h4, h5, -, -⟩ := decayOfNormalized_stages h
  rw [mapM_ok_iff] at h4
  obtain ⟨hp, hs, hc⟩ := pySorted_ok h5
  have hd : ∀ c ∈ d.chains, c.decay = decayOf c := by
    intro c hc
    obtain ⟨u, -, hu⟩ := forall₂_mem_right h4 (hp.mem_iff.1 hc)
    exact decay_of_toDecayChain hu
  constructor
  · refine hs.imp_of_mem fun {a b} ha hb h => ?_
    rw [pyLt_chain (hd b hb) (hd a ha), hc b (hp.mem_iff.1 hb) a (hp.mem_iff.1 ha), if_pos rfl,
      decide_eq_false (not_lt_of_ge h)]
  · intro a ha b hb
    rw [pyLt_chain (hd a ha) (hd b hb), hc a (hp.mem_iff.1 ha) b (hp.mem_iff.1 hb), if_pos rfl]
    simp

/-- C96: for chains whose first child is the decay node, as in both front-ends, `sorted` raises `TypeError` if Python cannot
compare two of them, and returns them in ascending order otherwise. -/
theorem C96_sorted_chains {chains : List Chain} (hd : ∀ c ∈ chains, c.decay = decayOf c) :
    ((∃ a ∈ chains, ∃ b ∈ chains, pyLt (pyChain a) (pyChain b) = none) →
      pySorted chainKey chainComparable chains = .error .typeError) ∧
    ((∀ a ∈ chains, ∀ b ∈ chains, pyLt (pyChain a) (pyChain b) ≠ none) →
      ∃ r, pySorted chainKey chainComparable chains = .ok r ∧ r.Perm chains ∧
        r.Pairwise fun a b => pyLt (pyChain b) (pyChain a) = some false) := by
  constructor
  · rintro ⟨a, ha, b, hb, hab⟩
    rw [pyLt_chain (hd a ha) (hd b hb)] at hab
    cases hs : pySorted chainKey chainComparable chains with
    | error e => rw [(pySorted_err hs).1]
    | ok r =>
      have := (pySorted_ok hs).2.2 a ha b hb
      rw [this] at hab
      cases hab
  · intro hall
    have hc : ∀ a ∈ chains, ∀ b ∈ chains, chainComparable a b = true := by
      intro a ha b hb
      have := hall a ha b hb
      rw [pyLt_chain (hd a ha) (hd b hb)] at this
      by_contra h
      rw [if_neg h] at this
      exact this rfl
    obtain ⟨r, hr⟩ := pySorted_eq (key := chainKey) hc
    obtain ⟨hp, hs, -⟩ := pySorted_ok hr
    refine ⟨r, hr, hp, hs.imp_of_mem fun {a b} ha hb h => ?_⟩
    have ha := hp.mem_iff.1 ha
    have hb := hp.mem_iff.1 hb
    rw [pyLt_chain (hd b hb) (hd a ha), hc b hb a ha, if_pos rfl, decide_eq_false (not_lt_of_ge h)]

/-- C96: the chains of the decay that `to_decay` returns are in ascending order: each is less, in the sense of Python's `<`,
than all later ones. -/
theorem C96_to_decay {m : Serialization.ModelDefinition} {f : String → String} {d : Decay}
    (h : Serialization.toDecay m f = .ok d) :
    d.chains.Pairwise fun a b => pyLt (pyChain a) (pyChain b) = some true := by
  obtain ⟨D, p0, ps, hs, -, -, hmem, hlt, -⟩ := Serialization.toDecay_facts.1 h
  have hp : ∀ c ∈ d.chains, Serialization.Plain f p0 c := by
    intro c hc
    obtain ⟨x, -, hx⟩ := (hmem c).1 hc
    exact hs.plain hx
  have hd : ∀ c ∈ d.chains, c.decay = decayOf c := by
    intro c hc
    obtain ⟨_, _, _, _, _, -, -, -, rfl⟩ := hp c hc
    rfl
  refine (List.pairwise_map.1 hlt).imp_of_mem fun {a b} ha hb h => ?_
  rw [pyLt_chain (hd a ha) (hd b hb), (hp a ha).comparable (hp b hb), if_pos rfl, decide_eq_true h]

/-- Python's `<`: names first, then the other fields; particles and states are not comparable; `None` is not comparable with
a coupling, but this only matters if all fields before are equal. -/
example :
    let p (n : String) (j : ℚ) (P : Option ℤ) : Particle := ⟨n, n, j, P, 1, 0⟩
    pyLt (pyObj (.particle (p "K*(892)0" 1 (some (-1))))) (pyObj (.particle (p "L(1520)" (3/2) (some (-1))))) = some true ∧
    pyLt (pyObj (.particle (p "L(1520)" (3/2) (some (-1))))) (pyObj (.particle (p "L(1520)" (1/2) none))) = some false ∧
    pyLt (pyObj (.particle (p "L(1520)" (3/2) (some (-1))))) (pyObj (.particle (p "L(1520)" (3/2) none))) = none ∧
    pyLt (pyObj (.state ⟨p "p" (1/2) none, 1⟩)) (pyObj (.state ⟨p "p" (1/2) none, 2⟩)) = some true ∧
    pyLt (pyObj (.particle (p "a" 0 none))) (pyObj (.state ⟨p "p" (1/2) none, 2⟩)) = none ∧
    pyLt (pyLs (some ⟨0, 1/2⟩)) (pyLs (some ⟨2, 3/2⟩)) = some true ∧ pyLt (pyLs none) (pyLs (some ⟨2, 3/2⟩)) = none := by
  decide +kernel

/-- Two chains of the example decay in the other order. -/
example : ∃ r, pySorted chainKey chainComparable [exChainL, exChainK] = .ok r ∧ r.Perm [exChainL, exChainK] ∧
    r.Pairwise fun a b => pyLt (pyChain b) (pyChain a) = some false :=
  (C96_sorted_chains (by decide +kernel)).2 (by decide +kernel)

/-- A chain with LS couplings and one without cannot be sorted. -/
example : pySorted chainKey chainComparable [exChainK, { exChainK with
    decay := decayOf { exChainK with outgoingLs := none }, outgoingLs := none }] = .error .typeError :=
  (C96_sorted_chains (by decide +kernel)).1 (by decide +kernel)

/-- Transitions with different LS couplings are converted and sorted; with and without they are not comparable. -/
example (x z : LS) :
    pyLt (pyTransition ⟨(exTransition .none .none).topology, exObjs, [(0, some x), (1, some z)]⟩)
      (pyTransition ⟨(exTransition .none .none).topology, exObjs, [(0, none), (1, none)]⟩) = none ∧
    convertTransitions [exTransition (.ls x) (.ls z), exTransition .none .none] = .error .typeError := by
  have key : pyLt (pyTransition ⟨(exTransition .none .none).topology, exObjs, [(0, some x), (1, some z)]⟩)
      (pyTransition ⟨(exTransition .none .none).topology, exObjs, [(0, none), (1, none)]⟩) = none := by
    have h : dictItems [((0 : ℤ), some x), (1, some z)] = [(0, some x), (1, some z)] :=
      dictItems_of_sorted (by simp [PyDict.keys])
    have h' : dictItems [((0 : ℤ), (none : Option LS)), (1, none)] = [(0, none), (1, none)] :=
      dictItems_of_sorted (by simp [PyDict.keys])
    simp [pyTransition, pyFrozenDict, h, h', PyVal.tuple, pyLt, pyLs]
  refine ⟨key, (C96_converted_error (.cons (exTransition_convert (some x) (some z))
    (.cons (exTransition_convert none none) .nil))).1 ⟨_, .head _, _, .tail _ (.head _), key⟩⟩

/-- The example model can be converted; so its chains are sorted. -/
example : ∃ d, Serialization.toDecay Serialization.exModel Serialization.identityFunction = .ok d ∧
    d.chains.Pairwise fun a b => pyLt (pyChain a) (pyChain b) = some true := by
  obtain ⟨D, rest, h1, h2, h3⟩ := Serialization.exModel_wf
  obtain ⟨d, hd⟩ := Serialization.C53_returns h1 h2 h3 Serialization.identityFunction
  exact ⟨d, hd, C96_to_decay hd⟩

end Verif
