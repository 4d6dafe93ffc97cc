import Verif.Proofs.Example
import Verif.Props.Spin

/-! Properties C16-C21 (`decay.py`) and the constructor part of C07. -/
namespace Verif.ThreeBody
open Verif Verif.Spec Verif.Spin

/-! ### C07 for the constructors -/

/-- **C07** `Particle`, `State` and `LSCoupling` can be constructed iff the spin is an integer or
half-integer, otherwise `ValueError`; the fields are stored unchanged. -/
theorem C07_constructors (name latex : String) (spin : ℚ) (parity : Option ℤ) (mass width : ℚ)
    (index L : ℤ) :
    Particle.new name latex spin parity mass width =
      (if spin.den ∈ [1, 2] then .ok ⟨name, latex, spin, parity, mass, width⟩
        else .error .valueError) ∧
    ((∃ p, Particle.new name latex spin parity mass width = .ok p) ↔ IsHalfInteger spin) ∧
    ((∃ s, State.new name latex spin parity mass width index = .ok s) ↔ IsHalfInteger spin) ∧
    ((∃ x, LS.new L spin = .ok x) ↔ IsHalfInteger spin) ∧
    (¬ IsHalfInteger spin →
      Particle.new name latex spin parity mass width = .error .valueError ∧
      State.new name latex spin parity mass width index = .error .valueError ∧
      LS.new L spin = .error .valueError) := by
  obtain ⟨h1, h2⟩ := C07_spin_validation spin
  have hfirst : Particle.new name latex spin parity mass width =
      (if spin.den ∈ [1, 2] then .ok ⟨name, latex, spin, parity, mass, width⟩
        else .error .valueError) := by
    unfold Particle.new assertSpinValue
    split <;> rfl
  refine ⟨hfirst, ?_⟩
  by_cases h : IsHalfInteger spin
  · have := h1.2 h
    simp [Particle.new, State.new, LS.new, this, h, bind, Except.bind, pure, Except.pure]
  · have := h2.2 h
    simp [Particle.new, State.new, LS.new, this, h, bind, Except.bind]

example : IsHalfInteger (3 / 2) ∧ ¬ IsHalfInteger (1 / 3) := by
  refine ⟨⟨3, by norm_num⟩, ?_⟩
  rintro ⟨n, hn⟩
  have h : ((3 * n : ℤ) : ℚ) = (2 : ℤ) := by push_cast; linarith
  have : 3 * n = 2 := by exact_mod_cast h
  omega

/-! ### C16 -/

/-- **C16** The chain constructor succeeds exactly on well-formed three-body chains, and the
properties of the result are those of the picture `p0 → (R → p1 p2) s`. -/
theorem C16_chain_constructor (n : Node) (c : Chain) :
    Chain.new n = .ok c ↔
      IsThreeBodyChain n c.parent c.resonance c.product1 c.product2 c.spectator
        c.incomingLs c.outgoingLs ∧ c.decay = n := by
  constructor
  · intro h
    obtain ⟨p0, R, c1, c2, s, inc, out, hn⟩ := chain_shape_of_ok h
    rw [chainNew_shape p0 R c1 c2 s inc out n hn] at h
    cases h1 : c1.toParticle with
    | particle a => rw [h1] at h; cases h2 : c2.toParticle <;> rw [h2] at h <;> cases h
    | state a =>
      cases h2 : c2.toParticle with
      | particle b => rw [h1, h2] at h; cases h
      | state b =>
        cases p0 with
        | particle q => rw [h1, h2] at h; cases h
        | state q =>
          rw [h1, h2] at h
          simp only at h
          split at h
          · rename_i hN
            cases h
            exact ⟨⟨⟨c1, c2, (standsFor_iff ..).2 h1, (standsFor_iff ..).2 h2, hn⟩, hN⟩, rfl⟩
          · cases h
  · rintro ⟨⟨⟨c1, c2, h1, h2, hn⟩, hN⟩, hd⟩
    rw [chainNew_shape _ _ c1 c2 _ _ _ n hn, (standsFor_iff ..).1 h1, (standsFor_iff ..).1 h2]
    simp only
    rw [if_pos hN, ← hd]

example : ∃ n c, Chain.new n = .ok c ∧ c.spectator.index = 1 := ⟨_, _, exK_ok, rfl⟩

/-- **C16** After construction every accessor succeeds; `final_state` contains exactly the decay
products and the spectator, strictly sorted by ID. -/
theorem C16_accessors {n : Node} {c : Chain} (h : Chain.new n = .ok c) :
    n.finalState = .ok c.finalState ∧
    n.spectator = .ok c.spectator ∧
    n.decayProducts = .ok (.state c.product1, .state c.product2) ∧
    n.resonance = .ok c.resonance ∧
    n.interaction = c.incomingLs ∧
    (∃ dn, n.decayNode = .ok dn ∧ dn.interaction = c.outgoingLs ∧ dn.toParticle = c.resonance) ∧
    c.finalState.Perm [c.product1, c.product2, c.spectator] ∧
    c.finalState.Pairwise (fun a b => a.index < b.index) := by
  obtain ⟨⟨⟨c1, c2, h1, h2, hn⟩, hN⟩, -⟩ := (C16_chain_constructor n c).1 h
  rw [standsFor_iff] at h1 h2
  have e1 : n.decayNode = .ok (.isobar c.resonance c1 c2 c.outgoingLs) := by
    rcases hn with rfl | rfl <;> rfl
  have e2 : n.decayProducts = .ok (.state c.product1, .state c.product2) := by
    rw [← h1, ← h2]; rcases hn with rfl | rfl <;> rfl
  have e3 : n.spectator = .ok c.spectator := by rcases hn with rfl | rfl <;> rfl
  refine ⟨?_, e3, e2, ?_, ?_, ⟨_, e1, rfl, rfl⟩, sortByIndex_perm _, ?_⟩
  · unfold Node.finalState; rw [e2, e3]; rfl
  · unfold Node.resonance; rw [e1]; rfl
  · rcases hn with rfl | rfl <;> rfl
  · have hs : c.finalState.Pairwise (fun a b => decide (a.index ≤ b.index) = true) :=
      List.pairwise_mergeSort (fun a b c => by simp; omega) (fun a b => by simp; omega) _
    have hp : (c.finalState.map (·.index)).Perm
        [c.product1.index, c.product2.index, c.spectator.index] :=
      (sortByIndex_perm _).map _
    have hnd : (c.finalState.map (·.index)).Nodup :=
      hp.nodup_iff.2 (List.Nodup.of_cons hN)
    have hnd' : c.finalState.Pairwise (fun a b => a.index ≠ b.index) :=
      List.pairwise_map.1 hnd
    exact (hs.and hnd').imp (fun ⟨a, b⟩ => lt_of_le_of_ne (of_decide_eq_true a) b)

/-- **C16** The LS coupling of a node can be given as `None`, as `LSCoupling` or as tuple `(L, S)`; a tuple
of another length or with a wrong spin raises `ValueError`, anything else `TypeError`. -/
theorem C16_interaction (parent : Obj) (c1 c2 : Node) (a : LSArg) :
    (∀ n, Node.new parent c1 c2 a = .ok n ↔
      ∃ i, GivesCoupling a i ∧ n = .isobar parent c1 c2 i) ∧
    (∀ e, Node.new parent c1 c2 a = .error e ↔
      ((a = .otherTuple ∨ ∃ L S, a = .pair L S ∧ ¬ IsHalfInteger S) ∧ e = .valueError) ∨
      (a = .other ∧ e = .typeError)) := by
  unfold Node.new
  cases a with
  | none => simp [toLs, GivesCoupling, bind, Except.bind, pure, Except.pure, eq_comm]
  | ls x => simp [toLs, GivesCoupling, bind, Except.bind, pure, Except.pure, eq_comm]
  | pair L S =>
    obtain ⟨h1, h2⟩ := C07_spin_validation S
    by_cases h : IsHalfInteger S
    · have hok : toLs (.pair L S) = .ok (some ⟨L, S⟩) := by
        simp [toLs, LS.new, h1.2 h, bind, Except.bind, pure, Except.pure]
      rw [hok]
      constructor
      · intro n
        constructor
        · intro hn
          injection hn with hn
          exact ⟨_, ⟨_, rfl, rfl, rfl, h⟩, hn.symm⟩
        · rintro ⟨i, ⟨x, rfl, rfl, rfl, -⟩, rfl⟩
          rfl
      · intro e
        constructor
        · intro he; cases he
        · rintro (⟨h' | ⟨L', S', h', hS⟩, -⟩ | ⟨h', -⟩)
          · cases h'
          · injection h' with _ hS'
            rw [← hS'] at hS
            exact absurd h hS
          · cases h'
    · have herr : toLs (.pair L S) = .error .valueError := by
        simp [toLs, LS.new, h2.2 h, bind, Except.bind]
      rw [herr]
      constructor
      · intro n
        constructor
        · intro hn; cases hn
        · rintro ⟨i, ⟨x, rfl, rfl, rfl, h'⟩, rfl⟩
          exact absurd h' h
      · intro e
        constructor
        · intro he
          injection he with he
          exact .inl ⟨.inr ⟨L, S, rfl, h⟩, he.symm⟩
        · rintro (⟨-, rfl⟩ | ⟨h', -⟩)
          · rfl
          · cases h'
  | otherTuple => simp [toLs, GivesCoupling, bind, Except.bind, eq_comm]
  | other => simp [toLs, GivesCoupling, bind, Except.bind, eq_comm]

example (parent : Obj) (c1 c2 : Node) :
    Node.new parent c1 c2 (.pair 1 (3 / 2)) = .ok (.isobar parent c1 c2 (some ⟨1, 3 / 2⟩)) :=
  ((C16_interaction parent c1 c2 _).1 _).2 ⟨_, ⟨⟨1, 3 / 2⟩, rfl, rfl, rfl, 3, by norm_num⟩, rfl⟩

/-- **C16** Errors: not a node: `TypeError`; not one isobar and one state child: `ValueError`; a
decay product that is not a `State`: `AttributeError` (not the intended `TypeError`); an initial
state that is not a `State`: `TypeError`; equal IDs: `ValueError`. -/
theorem C16_errors :
    (∀ o, Chain.new (.leaf o) = .error .typeError) ∧
    (∀ p c1 c2 ls, ¬ ((∃ R d1 d2 l s, c1 = .isobar R d1 d2 l ∧ c2 = .leaf (.state s)) ∨
        (∃ R d1 d2 l s, c2 = .isobar R d1 d2 l ∧ c1 = .leaf (.state s))) →
      Chain.new (.isobar p c1 c2 ls) = .error .valueError) ∧
    (∀ p R d1 d2 l s ls n, (n = .isobar p (.isobar R d1 d2 l) (.leaf (.state s)) ls ∨
        n = .isobar p (.leaf (.state s)) (.isobar R d1 d2 l) ls) →
      ((∃ q, StandsFor d1 (.particle q) ∨ StandsFor d2 (.particle q)) →
        Chain.new n = .error .attributeError) ∧
      (∀ s1 s2, StandsFor d1 (.state s1) → StandsFor d2 (.state s2) →
        ((∃ q, p = .particle q) → Chain.new n = .error .typeError) ∧
        (∀ s0, p = .state s0 → ¬ [s0.index, s1.index, s2.index, s.index].Nodup →
          Chain.new n = .error .valueError))) := by
  refine ⟨fun _ => rfl, ?_, ?_⟩
  · intro p c1 c2 ls h
    apply chainNew_noshape
    rcases c1 with (_ | _) | ⟨R, d1, d2, l1⟩ <;> rcases c2 with (_ | _) | ⟨R', d1', d2', l1'⟩ <;>
      simp [Node.isIsobar, Node.isState] at h ⊢
  · intro p R d1 d2 l s ls n hn
    rw [chainNew_shape p R d1 d2 s ls l n hn]
    simp only [standsFor_iff]
    refine ⟨?_, ?_⟩
    · rintro ⟨q, h | h⟩
      · rw [h]
      · rw [h]; cases d1.toParticle <;> rfl
    · intro s1 s2 h1 h2
      rw [h1, h2]
      refine ⟨?_, ?_⟩
      · rintro ⟨q, rfl⟩; rfl
      · rintro s0 rfl hN
        simp only
        rw [if_neg hN]

/-! ### C17 -/

/-- **C17** The decay constructor succeeds iff `states[0]` exists and every chain has this initial
state and, as final state, exactly the states with a non-zero index (if several states have the
same index, the last one). It raises `KeyError` without `states[0]`, otherwise `ValueError`. -/
theorem C17_decay_constructor (states : PyDict ℤ State) (chains : List Chain) :
    (∀ d, Decay.new states chains = .ok d ↔ d = ⟨states, chains⟩ ∧
      ∃ s0, PyDict.get? states 0 = some s0 ∧ ∀ c ∈ chains, c.parent = s0 ∧
        ∀ s, (s = c.spectator ∨ s = c.product1 ∨ s = c.product2) ↔
          s.index ≠ 0 ∧ LastWithIndex s (states.map Prod.snd)) ∧
    (Decay.new states chains = .error .keyError ↔ PyDict.get? states 0 = none) ∧
    (∀ e, Decay.new states chains = .error e → e = .keyError ∨ e = .valueError) := by
  refine ⟨decayNew_ok states chains, ?_, ?_⟩
  · unfold Decay.new initialState PyDict.get
    cases h : PyDict.get? states 0 with
    | none => simp [bind, Except.bind]
    | some s0 =>
      rcases checkChains_cases s0 ((finalStateDict states).map Prod.snd) chains with h' | h' <;>
        simp [h', bind, Except.bind, pure, Except.pure]
  · intro e
    unfold Decay.new initialState PyDict.get
    cases h : PyDict.get? states 0 with
    | none => simp [bind, Except.bind]; exact fun h => .inl h.symm
    | some s0 =>
      rcases checkChains_cases s0 ((finalStateDict states).map Prod.snd) chains with h' | h' <;>
        simp [h', bind, Except.bind, pure, Except.pure]
      exact fun h => .inr h.symm

/-- **C17** Consequences for a valid decay with at least one chain: the initial state has index 0,
and there are exactly three final states, with three different non-zero indices, which each chain
splits into spectator and decay products. -/
theorem C17_valid_decay {d : Decay} (hd : d.Valid) {c : Chain} (hc : c ∈ d.chains) :
    (∃ s0, PyDict.get? d.states 0 = some s0 ∧ s0.index = 0 ∧ c.parent = s0) ∧
    ((finalStateDict d.states).map Prod.snd).Perm [c.product1, c.product2, c.spectator] ∧
    [c.product1.index, c.product2.index, c.spectator.index].Nodup ∧
    (∀ s ∈ [c.product1, c.product2, c.spectator], s.index ≠ 0) := by
  obtain ⟨-, s0, h0, hall⟩ := (decayNew_ok _ _ _).1 hd.1
  obtain ⟨hpar, hset⟩ := hall c hc
  obtain ⟨⟨_, hN⟩, -⟩ := (C16_chain_constructor c.decay c).1 (hd.2 c hc)
  have hne : ∀ s ∈ [c.product1, c.product2, c.spectator], s.index ≠ 0 := by
    intro s hs
    exact ((hset s).1 (by simp at hs; tauto)).1
  have hnd : [c.product1.index, c.product2.index, c.spectator.index].Nodup := List.Nodup.of_cons hN
  have hs0 : s0.index = 0 := by
    by_contra h
    -- the last state with the same index as `s0` is a final state of the chain
    have hmem : s0 ∈ d.states.map Prod.snd :=
      List.mem_map.2 ⟨_, PyDict.mem_of_get? h0, rfl⟩
    have hlast : ∃ s, s.index = s0.index ∧ LastWithIndex s (d.states.map Prod.snd) := by
      generalize d.states.map Prod.snd = l at hmem
      clear hset hall
      induction l using List.reverseRecOn with
      | nil => simp at hmem
      | append_singleton l t ih =>
        by_cases ht : t.index = s0.index
        · exact ⟨t, ht, l, [], rfl, by simp⟩
        · have : s0 ∈ l := by
            rcases List.mem_append.1 hmem with h | h
            · exact h
            · simp at h; subst h; exact absurd rfl ht
          obtain ⟨s, hs, pre, post, rfl, hp⟩ := ih this
          refine ⟨s, hs, pre, post ++ [t], by simp, ?_⟩
          intro u hu
          rcases List.mem_append.1 hu with hu | hu
          · exact hp u hu
          · simp at hu; subst hu; rw [hs]; exact ht
    obtain ⟨s, hs, hl⟩ := hlast
    have := (hset s).2 ⟨by rw [hs]; exact h, hl⟩
    rw [← hpar] at hs
    simp only [List.nodup_cons, List.mem_cons, List.not_mem_nil, or_false, not_or] at hN
    rcases this with rfl | rfl | rfl
    · exact hN.1.2.2 hs.symm
    · exact hN.1.1 hs.symm
    · exact hN.1.2.1 hs.symm
  refine ⟨⟨s0, h0, hs0, hpar⟩, ?_, hnd, hne⟩
  have hk := PyDict.nodup_ofItems
    (((d.states.map Prod.snd).filter (·.index ≠ 0)).map fun s => (s.index, s))
  have hkey : ∀ x ∈ finalStateDict d.states, x.1 = x.2.index := by
    rintro ⟨k, s⟩ h
    have h := (PyDict.mem_iff_get? hk).1 h
    rw [PyDict.get?_ofItems] at h
    have h := PyDict.mem_of_get? h
    rw [List.mem_reverse] at h
    simp only [List.mem_map] at h
    obtain ⟨a, _, h⟩ := h
    have := Prod.mk.inj h
    rw [← this.1, ← this.2]
  have hnd1 : ((finalStateDict d.states).map Prod.snd).Nodup := by
    apply List.Nodup.of_map (fun s : State => s.index)
    rw [List.map_map]
    have : (finalStateDict d.states).map ((fun s : State => s.index) ∘ Prod.snd) =
        PyDict.keys (finalStateDict d.states) :=
      List.map_congr_left (fun x hx => (hkey x hx).symm)
    rw [this]; exact hk
  have hnd2 : [c.product1, c.product2, c.spectator].Nodup :=
    List.Nodup.of_map (fun s : State => s.index) hnd
  rw [List.perm_ext_iff_of_nodup hnd1 hnd2]
  intro s
  rw [mem_finalStateDict, ← hset s]
  simp only [List.mem_cons, List.not_mem_nil, or_false]
  tauto

example : exDecay.Valid ∧ exDecay.chains ≠ [] := ⟨exDecay_valid, by simp [exDecay]⟩

/-- The keys of the states mapping are not checked against the indices. -/
example : ∃ states d, Decay.new states [] = .ok d ∧ (∃ s ∈ states, s.1 ≠ s.2.index) :=
  ⟨[(0, exState "a" 0 1 5)], _, rfl, _, List.mem_cons_self .., by decide⟩

/-! ### C18 -/

/-- **C18** `get_subsystem(k)` on a valid decay: never raises, keeps exactly the chains with
spectator `k` in order and the same states, warns iff there are none, returns a valid decay and is
idempotent. -/
theorem C18_get_subsystem {d : Decay} (hd : d.Valid) (k : ℤ) :
    ∃ d' w, d.getSubsystem k = .ok (d', w) ∧
      d'.chains = d.chains.filter (fun c => c.spectator.index = k) ∧
      d'.states = d.states ∧
      (w = true ↔ ∀ c ∈ d.chains, c.spectator.index ≠ k) ∧
      d'.Valid ∧ d'.getSubsystem k = .ok (d', w) := by
  refine ⟨_, _, getSubsystem_eq hd k, rfl, rfl, ?_, ?_, ?_⟩
  · simp [List.isEmpty_iff, List.filter_eq_nil_iff]
  · exact ⟨decayNew_filter hd.1 _, fun c hc => hd.2 c (List.mem_filter.1 hc).1⟩
  · rw [getSubsystem_eq ⟨decayNew_filter hd.1 _, fun c hc => hd.2 c (List.mem_filter.1 hc).1⟩]
    simp [List.filter_filter]

/-- **C18** The selections over the existing subsystem IDs partition the chains; each is
non-empty. -/
theorem C18_partition {d : Decay} (hd : d.Valid) :
    (∀ k, k ∈ d.subsystemIds ↔ ∃ c ∈ d.chains, c.spectator.index = k) ∧
    d.subsystemIds.Nodup ∧
    ∃ sub : ℤ → Decay, (∀ k, ∃ w, d.getSubsystem k = .ok (sub k, w)) ∧
      (d.subsystemIds.flatMap fun k => (sub k).chains).Perm d.chains := by
  have hmem : ∀ k, k ∈ d.subsystemIds ↔ ∃ c ∈ d.chains, c.spectator.index = k := by
    intro k
    rw [Decay.subsystemIds, sortedSet_mem, List.mem_map]
  refine ⟨hmem, sortedSet_nodup _, _, fun k => ⟨_, getSubsystem_eq hd k⟩, ?_⟩
  exact perm_flatMap_filter (fun c : Chain => c.spectator.index) _ _ (sortedSet_nodup _)
    (fun c hc => (hmem _).2 ⟨c, hc, rfl⟩)

example : exDecay.Valid ∧ exDecay.subsystemIds = [1, 2] := by
  refine ⟨exDecay_valid, ?_⟩
  simp [Decay.subsystemIds, exDecay, exChainK, exChainL, exState, sortedSet, List.mergeSort,
    List.MergeSort.Internal.splitInTwo]

/-! ### C19 -/

/-- **C19** `find_chain(name)` returns `c` iff `c` is the first chain whose resonance has that
name; it raises `KeyError` iff there is none. -/
theorem C19_find_chain (d : Decay) (name : String) :
    (∀ c, d.findChain name = .ok c ↔ ∃ pre post, d.chains = pre ++ c :: post ∧
      c.resonance.toP.name = name ∧ ∀ x ∈ pre, x.resonance.toP.name ≠ name) ∧
    (d.findChain name = .error .keyError ↔ ∀ c ∈ d.chains, c.resonance.toP.name ≠ name) ∧
    (∀ e, d.findChain name = .error e → e = .keyError) := by
  refine ⟨?_, ?_, ?_⟩
  · intro c
    have h0 : d.findChain name = .ok c ↔
        d.chains.find? (fun c => c.resonance.toP.name = name) = some c := by
      unfold Decay.findChain
      split <;> rename_i h <;> simp [h]
    rw [h0, List.find?_eq_some_iff_append]
    simp only [decide_eq_true_eq, Bool.not_eq_true', decide_eq_false_iff_not]
    constructor
    · rintro ⟨h, pre, post, h1, h2⟩; exact ⟨pre, post, h1, h, h2⟩
    · rintro ⟨pre, post, h1, h, h2⟩; exact ⟨h, pre, post, h1, h2⟩
  · unfold Decay.findChain
    split <;> rename_i h
    · have h1 := List.mem_of_find?_eq_some h
      have h2 := List.find?_some h
      simp only [decide_eq_true_eq] at h2
      simp only [reduceCtorEq, false_iff, not_forall, not_not]
      exact ⟨_, h1, h2⟩
    · simpa using h
  · intro e h
    unfold Decay.findChain at h
    split at h <;> cases h
    rfl

/-! ### C20 -/

/-- **C20** `get_decay_product_ids(k)` succeeds iff `k ∈ {1,2,3}` and completes `k` to an even
permutation; otherwise `ValueError`. -/
theorem C20_decay_product_ids (k : ℤ) :
    (∀ i j, getDecayProductIds k = .ok (i, j) ↔ EvenPerm i j k) ∧
    (k ∈ ([1, 2, 3] : List ℤ) → ∃ i j, getDecayProductIds k = .ok (i, j)) ∧
    (k ∉ ([1, 2, 3] : List ℤ) → getDecayProductIds k = .error .valueError) := by
  refine ⟨?_, ?_, ?_⟩
  · intro i j
    unfold getDecayProductIds EvenPerm
    split_ifs with h1 h2 h3 <;> simp [*] <;> omega
  · intro h
    simp only [List.mem_cons, List.not_mem_nil, or_false] at h
    rcases h with rfl | rfl | rfl <;> exact ⟨_, _, rfl⟩
  · intro h
    simp only [List.mem_cons, List.not_mem_nil, or_false, not_or] at h
    simp [getDecayProductIds, h]

example : getDecayProductIds 2 = .ok (3, 1) := rfl

/-! ### C21 -/

/-- Number of chains of subsystem `k`. -/
def chainCount (d : Decay) (k : ℤ) : ℕ := (d.chains.filter (fun c => c.spectator.index = k)).length

/-- **C21** The default reference subsystem is an existing subsystem with the maximal number of
chains, whatever the iteration order `ids` of the set of subsystems. -/
theorem C21_best_reference_any_order {d : Decay} (hd : d.Valid) {ids : List ℤ}
    (hids : ids.Perm d.subsystemIds) :
    (∀ k, bestReferenceFrom d ids = .ok k →
      k ∈ d.subsystemIds ∧ ∀ k', chainCount d k' ≤ chainCount d k) ∧
    (d.chains ≠ [] → ∃ k, bestReferenceFrom d ids = .ok k ∧
      ∃ pre post, ids = pre ++ k :: post ∧ ∀ k' ∈ pre, chainCount d k' < chainCount d k) ∧
    (bestReferenceFrom d ids = .error .valueError ↔ d.chains = []) := by
  have hnil : ids = [] ↔ d.chains = [] := by
    have : d.subsystemIds = [] ↔ d.chains = [] := by
      unfold Decay.subsystemIds; rw [sortedSet_eq_nil]; simp
    rw [← this]
    constructor
    · intro h; rw [h] at hids; exact hids.symm.eq_nil
    · intro h; rw [h] at hids; exact hids.eq_nil
  have hmap : (ids.mapM fun k => do
      let r ← d.getSubsystem k
      return (k, r.1.chains.length) : Py (List (ℤ × ℕ))) =
      .ok (ids.map fun k => (k, chainCount d k)) := by
    apply mapM_ok
    intro k _
    rw [getSubsystem_eq hd]; rfl
  have key : ids ≠ [] → ∃ k pre post, bestReferenceFrom d ids = .ok k ∧
      ids = pre ++ k :: post ∧ (∀ k' ∈ pre, chainCount d k' < chainCount d k) ∧
      (∀ k' ∈ post, chainCount d k' ≤ chainCount d k) := by
    intro hne
    obtain ⟨x, xs, hx⟩ := List.exists_cons_of_ne_nil hne
    obtain ⟨pre, post, r, h1, h2, h3, h4⟩ := maxFold_spec (x, chainCount d x)
      (xs.map fun k => (k, chainCount d k))
    have h2' : (x :: xs).map (fun k => (k, chainCount d k)) = pre ++ r :: post := by
      simpa using h2
    obtain ⟨l1, l2, hl, hl1, hl2⟩ := List.map_eq_append_iff.1 h2'
    obtain ⟨k, l3, hl3, hk, hl4⟩ := List.map_eq_cons_iff.1 hl2
    have hmax : maxBySnd (ids.map fun k => (k, chainCount d k)) = some r := by
      rw [hx]; simp [maxBySnd, h1]
    refine ⟨k, l1, l3, ?_, ?_, ?_, ?_⟩
    · unfold bestReferenceFrom
      have : ids.isEmpty = false := by rw [hx]; rfl
      rw [this]
      simp only [Bool.false_eq_true, if_false]
      rw [hmap]
      simp only [bind, Except.bind, hmax, pure, Except.pure]
      rw [← hk]
    · rw [hx, hl, hl3]
    · intro k' hk'
      have := h3 (k', chainCount d k') (by rw [← hl1]; exact List.mem_map.2 ⟨k', hk', rfl⟩)
      rw [← hk] at this; exact this
    · intro k' hk'
      have := h4 (k', chainCount d k') (by rw [← hl4]; exact List.mem_map.2 ⟨k', hk', rfl⟩)
      rw [← hk] at this; exact this
  refine ⟨?_, ?_, ?_⟩
  · intro k hk
    by_cases hne : ids = []
    · subst hne; cases hk
    · obtain ⟨k', pre, post, h1, h2, h3, h4⟩ := key hne
      rw [h1] at hk; cases hk
      refine ⟨hids.subset (by rw [h2]; simp), ?_⟩
      intro k'
      by_cases hk' : k' ∈ ids
      · rw [h2] at hk'
        rcases List.mem_append.1 hk' with h | h
        · exact (h3 k' h).le
        · rcases List.mem_cons.1 h with rfl | h
          · exact le_refl _
          · exact h4 k' h
      · have : chainCount d k' = 0 := by
          unfold chainCount
          rw [List.length_eq_zero_iff, List.filter_eq_nil_iff]
          intro c hc h
          apply hk'
          apply hids.symm.subset
          rw [Decay.subsystemIds, sortedSet_mem, List.mem_map]
          exact ⟨c, hc, of_decide_eq_true h⟩
        omega
  · intro hne
    obtain ⟨k, pre, post, h1, h2, h3, h4⟩ := key (fun h => hne (hnil.1 h))
    exact ⟨k, h1, pre, post, h2, h3⟩
  · rw [← hnil]
    constructor
    · intro h
      by_contra hne
      obtain ⟨k, _, _, h1, _⟩ := key hne
      rw [h1] at h; cases h
    · rintro rfl; rfl

/-- **C21** With ascending iteration (CPython's order for small integers) ties are resolved to the
smallest ID. -/
theorem C21_best_reference {d : Decay} (hd : d.Valid) :
    (∀ k, d.bestReference = .ok k → k ∈ d.subsystemIds ∧
      (∀ k', chainCount d k' ≤ chainCount d k) ∧
      ∀ k' ∈ d.subsystemIds, chainCount d k' = chainCount d k → k ≤ k') ∧
    (d.chains ≠ [] → ∃ k, d.bestReference = .ok k) ∧
    (d.bestReference = .error .valueError ↔ d.chains = []) := by
  obtain ⟨h1, h2, h3⟩ := C21_best_reference_any_order hd (List.Perm.refl d.subsystemIds)
  refine ⟨?_, fun h => (h2 h).imp (fun _ h => h.1), h3⟩
  intro k hk
  refine ⟨(h1 k hk).1, (h1 k hk).2, ?_⟩
  intro k' hk' heq
  have hne : d.chains ≠ [] := fun h => by
    have := h3.2 h
    rw [Decay.bestReference, this] at hk; cases hk
  obtain ⟨k0, hk0, pre, post, hids, hpre⟩ := h2 hne
  rw [Decay.bestReference, hk0] at hk
  cases hk
  have hsorted := sortedSet_pairwise (d.chains.map (·.spectator.index))
  change d.subsystemIds.Pairwise (· < ·) at hsorted
  rw [hids, List.pairwise_append, List.pairwise_cons] at hsorted
  rw [hids] at hk'
  rcases List.mem_append.1 hk' with h | h
  · have := hpre k' h; omega
  · rcases List.mem_cons.1 h with rfl | h
    · exact le_refl _
    · exact (hsorted.2.1.1 k' h).le

example : exDecay.Valid ∧ exDecay.chains ≠ [] := ⟨exDecay_valid, by simp [exDecay]⟩

/-- C16, C18, C21 for the example. -/
example : ∃ n, Chain.new n = .ok exChainK ∧ n.spectator = .ok exChainK.spectator ∧
    exChainK.finalState.Pairwise (fun a b => a.index < b.index) :=
  ⟨_, exK_ok, (C16_accessors exK_ok).2.1, (C16_accessors exK_ok).2.2.2.2.2.2.2⟩

example : ∃ d', exDecay.getSubsystem 2 = .ok (d', false) ∧ d'.chains = [exChainL] ∧
    ∃ d'', exDecay.getSubsystem 3 = .ok (d'', true) ∧ d''.chains = [] := by
  obtain ⟨d1, w1, h1, h2, -, h3, -⟩ := C18_get_subsystem exDecay_valid 2
  obtain ⟨d2, w2, g1, g2, -, g3, -⟩ := C18_get_subsystem exDecay_valid 3
  have e1 : w1 = false := by
    cases w1 with
    | false => rfl
    | true => exact absurd rfl (h3.1 rfl exChainL (by simp [exDecay]))
  have e2 : w2 = true := g3.2 fun c hc => by
    simp only [exDecay, List.mem_cons, List.not_mem_nil, or_false] at hc
    rcases hc with rfl | rfl <;> simp [exChainK, exChainL, exState]
  subst e1 e2
  exact ⟨d1, h1, h2, d2, g1, g2⟩

/-- With the other iteration order of the set of subsystems, the other subsystem is the reference. -/
example : bestReferenceFrom exDecay [1, 2] = .ok 1 ∧ bestReferenceFrom exDecay [2, 1] = .ok 2 := by
  have hids : exDecay.subsystemIds = [1, 2] := by
    simp [Decay.subsystemIds, exDecay, exChainK, exChainL, exState, sortedSet, List.mergeSort,
      List.MergeSort.Internal.splitInTwo]
  have key : ∀ a b : ℤ, [a, b].Perm [1, 2] → bestReferenceFrom exDecay [a, b] = .ok a := by
    intro a b h
    obtain ⟨k, h1, pre, post, h2, h3⟩ := (C21_best_reference_any_order exDecay_valid (hids ▸ h)).2.1
      (by simp [exDecay])
    have hab : (a = 1 ∧ b = 2) ∨ (a = 2 ∧ b = 1) := by
      have ha := h.subset (List.mem_cons_self ..)
      have hn := (h.nodup_iff).2 (by decide)
      have hb := h.subset (List.mem_cons_of_mem _ (List.mem_cons_self ..))
      simp only [List.mem_cons, List.not_mem_nil, or_false] at ha hb
      simp only [List.nodup_cons, List.mem_cons, List.not_mem_nil, or_false] at hn
      omega
    match pre, h2, h3 with
    | [], h2, _ =>
      injection h2 with h2 _
      rw [h1, h2]
    | [x], h2, h3 =>
      simp only [List.cons_append, List.nil_append, List.cons.injEq] at h2
      obtain ⟨rfl, rfl, -⟩ := h2
      have := h3 _ (List.mem_singleton.2 rfl)
      rcases hab with ⟨rfl, rfl⟩ | ⟨rfl, rfl⟩ <;> exact absurd this (by decide)
    | x :: y :: t, h2, _ => simp at h2
  exact ⟨key 1 2 (.refl _), key 2 1 (.swap _ _ _)⟩

end Verif.ThreeBody
