import Verif.Proofs.QrulesDecay
import Verif.Props.QrulesMinLs
import Verif.Spec.Dynamics

/-! Helpers: when does `to_three_body_decay` return? -/
namespace Verif.Qrules
open Verif Verif.ThreeBody Verif.Spec

theorem sortedSet_eq {l l' : List ℤ} (h : l'.Pairwise (· < ·)) (hm : ∀ k, k ∈ sortedSet l ↔ k ∈ l') :
    sortedSet l = l' := by
  rw [← sortedSet_of_sorted h]
  exact sortedSet_ext fun k => by rw [← sortedSet_mem, hm]

/-- A converted transition with normalised IDs, outer states `S 0, ..., S 3`, resonance ID `r` and LS
couplings at the nodes for which `f` is true. -/
structure Good (r : ℤ) (S : ℤ → State) (f : ℤ → Bool) (c : Transition Obj (Option LS)) : Prop where
  body : ∃ s i j, ThreeBody c 0 s r i j ∧ ∀ k, (k = s ∨ k = i ∨ k = j) ↔ (k = 1 ∨ k = 2 ∨ k = 3)
  later : 3 < r
  nodes : PyDict.keys c.interactions = [0, 1]
  outer : ∀ k, k ∈ [0, 1, 2, 3] → PyDict.get? c.states k = some (.state (S k))
  resonance : ∃ p, PyDict.get? c.states r = some (.particle p) ∧ p.parity ≠ none ∧ IsHalfInteger p.spin
  ls : ∀ n v, PyDict.get? c.interactions n = some v → v.isSome = f n

/-- What the outer states satisfy. -/
def GoodStates (S : ℤ → State) : Prop :=
  ∀ k, k ∈ [0, 1, 2, 3] → (S k).index = k ∧ (S k).parity ≠ none ∧ IsHalfInteger (S k).spin

theorem ThreeBody.oneResonance {E N : Type} {t : Transition E N} {a s r i j : ℤ}
    (h : ThreeBody t a s r i j) (hk : PyDict.keys t.interactions = [0, 1]) : OneResonance t r 0 1 where
  valid := h.valid
  nodes := hk
  edge := h.resonance
  loop := by decide
  only := by
    intro k e he hne
    rcases (h.ids k).1 (keys_of_get? he) with rfl | rfl | rfl | rfl | rfl
    · rw [h.initial] at he; cases he; exact .inl rfl
    · rw [h.spectator] at he; cases he; exact .inr rfl
    · exact absurd rfl hne
    · rw [h.product1] at he; cases he; exact .inr rfl
    · rw [h.product2] at he; cases he; exact .inr rfl

theorem ThreeBody.edge {E N : Type} {t : Transition E N} {a s r i j : ℤ}
    (h : ThreeBody t a s r i j) {k : ℤ} {e : Edge} (he : PyDict.get? t.topology.edges k = some e) :
    (k = a ∧ e = ⟨none, some 0⟩) ∨ (k = s ∧ e = ⟨some 0, none⟩) ∨ (k = r ∧ e = ⟨some 0, some 1⟩) ∨
      (k = i ∧ e = ⟨some 1, none⟩) ∨ (k = j ∧ e = ⟨some 1, none⟩) := by
  rcases (h.ids k).1 (keys_of_get? he) with rfl | rfl | rfl | rfl | rfl
  · rw [h.initial] at he; cases he; exact .inl ⟨rfl, rfl⟩
  · rw [h.spectator] at he; cases he; exact .inr (.inl ⟨rfl, rfl⟩)
  · rw [h.resonance] at he; cases he; exact .inr (.inr (.inl ⟨rfl, rfl⟩))
  · rw [h.product1] at he; cases he; exact .inr (.inr (.inr (.inl ⟨rfl, rfl⟩)))
  · rw [h.product2] at he; cases he; exact .inr (.inr (.inr (.inr ⟨rfl, rfl⟩)))

theorem ThreeBody.outOf0 {E N : Type} {t : Transition E N} {a s r i j : ℤ}
    (h : ThreeBody t a s r i j) (hsr : s < r) : t.topology.outOf 0 = [s, r] := by
  refine sortedSet_eq (by simpa using hsr) fun k => ?_
  rw [show sortedSet _ = t.topology.outOf 0 from rfl, mem_outOf h.valid]
  constructor
  · rintro ⟨e, he, ho⟩
    rcases h.edge he with ⟨rfl, rfl⟩ | ⟨rfl, rfl⟩ | ⟨rfl, rfl⟩ | ⟨rfl, rfl⟩ | ⟨rfl, rfl⟩ <;> simp at ho ⊢
  · intro hk
    simp only [List.mem_cons, List.not_mem_nil, or_false] at hk
    rcases hk with rfl | rfl
    · exact ⟨_, h.spectator, rfl⟩
    · exact ⟨_, h.resonance, rfl⟩

theorem ThreeBody.outOf1 {E N : Type} {t : Transition E N} {a s r i j : ℤ}
    (h : ThreeBody t a s r i j) : t.topology.outOf 1 = [i, j] := by
  refine sortedSet_eq (by simpa using h.order) fun k => ?_
  rw [show sortedSet _ = t.topology.outOf 1 from rfl, mem_outOf h.valid]
  constructor
  · rintro ⟨e, he, ho⟩
    rcases h.edge he with ⟨rfl, rfl⟩ | ⟨rfl, rfl⟩ | ⟨rfl, rfl⟩ | ⟨rfl, rfl⟩ | ⟨rfl, rfl⟩ <;> simp at ho ⊢
  · intro hk
    simp only [List.mem_cons, List.not_mem_nil, or_false] at hk
    rcases hk with rfl | rfl
    · exact ⟨_, h.product1, rfl⟩
    · exact ⟨_, h.product2, rfl⟩

theorem ThreeBody.into1 {E N : Type} {t : Transition E N} {a s r i j : ℤ}
    (h : ThreeBody t a s r i j) : t.topology.into 1 = [r] := by
  refine sortedSet_eq (by simp) fun k => ?_
  rw [show sortedSet _ = t.topology.into 1 from rfl, mem_into h.valid]
  constructor
  · rintro ⟨e, he, ho⟩
    rcases h.edge he with ⟨rfl, rfl⟩ | ⟨rfl, rfl⟩ | ⟨rfl, rfl⟩ | ⟨rfl, rfl⟩ | ⟨rfl, rfl⟩ <;> simp at ho ⊢
  · intro hk
    simp only [List.mem_cons, List.not_mem_nil, or_false] at hk
    subst hk
    exact ⟨_, h.resonance, rfl⟩

theorem ThreeBody.incoming {E N : Type} {t : Transition E N} {a s r i j : ℤ}
    (h : ThreeBody t a s r i j) : t.topology.incoming = [a] := by
  refine sortedSet_eq (by simp) fun k => ?_
  rw [mem_select _ h.valid.edges (fun e => e.orig.isNone)]
  constructor
  · rintro ⟨e, he, ho⟩
    rcases h.edge he with ⟨rfl, rfl⟩ | ⟨rfl, rfl⟩ | ⟨rfl, rfl⟩ | ⟨rfl, rfl⟩ | ⟨rfl, rfl⟩ <;> simp at ho ⊢
  · intro hk
    simp only [List.mem_cons, List.not_mem_nil, or_false] at hk
    subst hk
    exact ⟨_, h.initial, rfl⟩

theorem ThreeBody.outgoing {E N : Type} {t : Transition E N} {a s r i j : ℤ}
    (h : ThreeBody t a s r i j) {l : List ℤ} (hl : l.Pairwise (· < ·))
    (hm : ∀ k, k ∈ l ↔ (k = s ∨ k = i ∨ k = j)) : t.topology.outgoing = l := by
  refine sortedSet_eq hl fun k => ?_
  rw [mem_select _ h.valid.edges (fun e => e.dest.isNone), hm]
  constructor
  · rintro ⟨e, he, ho⟩
    rcases h.edge he with ⟨rfl, rfl⟩ | ⟨rfl, rfl⟩ | ⟨rfl, rfl⟩ | ⟨rfl, rfl⟩ | ⟨rfl, rfl⟩ <;> simp at ho ⊢
  · rintro (rfl | rfl | rfl)
    · exact ⟨_, h.spectator, rfl⟩
    · exact ⟨_, h.product1, rfl⟩
    · exact ⟨_, h.product2, rfl⟩

theorem ThreeBody.intermediate {E N : Type} {t : Transition E N} {a s r i j : ℤ}
    (h : ThreeBody t a s r i j) : t.topology.intermediate = [r] := by
  refine sortedSet_eq (by simp) fun k => ?_
  rw [mem_select _ h.valid.edges (fun e => e.orig.isSome && e.dest.isSome)]
  constructor
  · rintro ⟨e, he, ho⟩
    rcases h.edge he with ⟨rfl, rfl⟩ | ⟨rfl, rfl⟩ | ⟨rfl, rfl⟩ | ⟨rfl, rfl⟩ | ⟨rfl, rfl⟩ <;> simp at ho ⊢
  · intro hk
    simp only [List.mem_cons, List.not_mem_nil, or_false] at hk
    subst hk
    exact ⟨_, h.resonance, rfl⟩

theorem Good.ids {r : ℤ} {S : ℤ → State} {f : ℤ → Bool} {c : Transition Obj (Option LS)}
    (h : Good r S f c) : ∃ s i j, ThreeBody c 0 s r i j ∧
      ((s = 1 ∧ i = 2 ∧ j = 3) ∨ (s = 2 ∧ i = 1 ∧ j = 3) ∨ (s = 3 ∧ i = 1 ∧ j = 2)) := by
  obtain ⟨s, i, j, hb, hm⟩ := h.body
  refine ⟨s, i, j, hb, ?_⟩
  have h1 := hm 1
  have h2 := hm 2
  have h3 := hm 3
  have := hb.order
  omega

theorem Good.initialStates {r : ℤ} {S : ℤ → State} {f : ℤ → Bool} {c : Transition Obj (Option LS)}
    (h : Good r S f c) : c.initialStates = .ok [(0, .state (S 0))] := by
  obtain ⟨s, i, j, hb, -⟩ := h.body
  unfold Transition.initialStates
  rw [hb.incoming]
  exact filterStates_eq (.cons ⟨rfl, h.outer 0 (by simp)⟩ .nil)

theorem Good.outgoing {r : ℤ} {S : ℤ → State} {f : ℤ → Bool} {c : Transition Obj (Option LS)}
    (h : Good r S f c) : c.topology.outgoing = [1, 2, 3] := by
  obtain ⟨s, i, j, hb, hm⟩ := h.body
  exact hb.outgoing (by decide) (fun k => by rw [hm]; simp)

theorem Good.finalStates {r : ℤ} {S : ℤ → State} {f : ℤ → Bool} {c : Transition Obj (Option LS)}
    (h : Good r S f c) :
    c.finalStates = .ok [(1, .state (S 1)), (2, .state (S 2)), (3, .state (S 3))] := by
  unfold Transition.finalStates
  rw [h.outgoing]
  exact filterStates_eq (.cons ⟨rfl, h.outer 1 (by simp)⟩ (.cons ⟨rfl, h.outer 2 (by simp)⟩
    (.cons ⟨rfl, h.outer 3 (by simp)⟩ .nil)))

/-- `_to_decay_chain` returns for good transitions. -/
theorem Good.toDecayChain {r : ℤ} {S : ℤ → State} {f : ℤ → Bool} {c : Transition Obj (Option LS)}
    (hS : GoodStates S) (h : Good r S f c) : ∃ ch s i j p, toDecayChain c = .ok ch ∧
      ((s = 1 ∧ i = 2 ∧ j = 3) ∨ (s = 2 ∧ i = 1 ∧ j = 3) ∨ (s = 3 ∧ i = 1 ∧ j = 2)) ∧
      ch.parent = S 0 ∧ ch.spectator = S s ∧ ch.product1 = S i ∧ ch.product2 = S j ∧
      ch.resonance = .particle p ∧ p.parity ≠ none ∧ ch.incomingLs.isSome = f 0 ∧
      ch.outgoingLs.isSome = f 1 ∧ IsHalfInteger p.spin ∧ PlainChain ch p true := by
  obtain ⟨s, i, j, hb, hsij⟩ := h.ids
  obtain ⟨p, hp, hpar, hspin⟩ := h.resonance
  obtain ⟨x, y, hxy⟩ := interactions_eq h.nodes
  have hr := h.later
  have hs : PyDict.get? c.states s = some (.state (S s)) := h.outer s (by simp; omega)
  have hi : PyDict.get? c.states i = some (.state (S i)) := h.outer i (by simp; omega)
  have hj : PyDict.get? c.states j = some (.state (S j)) := h.outer j (by simp; omega)
  let n : Node := .isobar (.state (S 0)) (.isobar (.particle p) (.leaf (.state (S i)))
    (.leaf (.state (S j))) y) (.leaf (.state (S s))) x
  let ch : Chain := ⟨n, S 0, .particle p, S i, S j, S s, x, y⟩
  have hnew : Chain.new n = .ok ch := by
    rw [C16_chain_constructor]
    refine ⟨⟨⟨_, _, .leaf _, .leaf _, .inl rfl⟩, ?_⟩, rfl⟩
    simp only [ch, (hS 0 (by simp)).1, (hS i (by simp; omega)).1, (hS j (by simp; omega)).1,
      (hS s (by simp; omega)).1]
    rcases hsij with ⟨rfl, rfl, rfl⟩ | ⟨rfl, rfl, rfl⟩ | ⟨rfl, rfl, rfl⟩ <;> decide
  refine ⟨ch, s, i, j, p, ?_, hsij, rfl, rfl, rfl, rfl, rfl, hpar, h.ls 0 x (by rw [hxy]; rfl),
    h.ls 1 y (by rw [hxy]; rfl), hspin, rfl⟩
  unfold Qrules.toDecayChain
  rw [h.initialStates, h.finalStates, hb.outOf0 (by omega), hb.outOf1, hb.into1]
  simp only [bind, Except.bind, List.length_cons, List.length_nil, hxy, PyDict.get, hs, hi, hj, hp]
  exact hnew

theorem particleComparable_of {a b : Particle} (ha : a.parity ≠ none) (hb : b.parity ≠ none) :
    particleComparable a b = true := by
  unfold particleComparable optComparable
  cases h1 : a.parity with
  | none => exact absurd h1 ha
  | some x =>
    cases h2 : b.parity with
    | none => exact absurd h2 hb
    | some y => simp

theorem toState_self {s : State} (hp : s.parity ≠ none) (hs : IsHalfInteger s.spin) (k : Option ℤ) :
    toState (.dpd (.state s)) k = .ok s := by
  unfold toState
  simp only [QObj.indexOr, QObj.attrs, Obj.toP]
  cases hpp : s.parity with
  | none => exact absurd hpp hp
  | some x =>
    simp only [intParity, bind, Except.bind, State.new, halfInt_ok hs, pure, Except.pure,
      Option.getD_some]
    obtain ⟨⟨_, _, _, _, _, _⟩, _⟩ := s
    simp only at hpp
    subst hpp
    rfl

/-- A decay with the outer states `S 0, ..., S 3` and chains of these states, with LS couplings at the
nodes for which `f` is true. -/
structure GoodDecay (S : ℤ → State) (f : ℤ → Bool) (d : Decay) : Prop where
  states : d.states = [(0, S 0), (1, S 1), (2, S 2), (3, S 3)]
  chains : d.chains ≠ []
  chain : ∀ ch ∈ d.chains, ∃ s i j p,
    ((s = 1 ∧ i = 2 ∧ j = 3) ∨ (s = 2 ∧ i = 1 ∧ j = 3) ∨ (s = 3 ∧ i = 1 ∧ j = 2)) ∧
    ch.parent = S 0 ∧ ch.spectator = S s ∧ ch.product1 = S i ∧ ch.product2 = S j ∧
    ch.resonance = .particle p ∧ p.parity ≠ none ∧ ch.incomingLs.isSome = f 0 ∧
    ch.outgoingLs.isSome = f 1 ∧ IsHalfInteger p.spin ∧ PlainChain ch p true

/-- Everything after the filter returns for good transitions. -/
theorem Good.decay {r : ℤ} {S : ℤ → State} {f : ℤ → Bool} (hS : GoodStates S)
    {us : List (Transition Obj (Option LS))} (hus : ∀ u ∈ us, Good r S f u) (hne : us ≠ []) :
    ∃ chains sorted d, us.mapM Qrules.toDecayChain = .ok chains ∧
      pySorted chainKey chainComparable chains = .ok sorted ∧
      Decay.new (PyDict.ofItems ([S 0, S 1, S 2, S 3].map fun s => (s.index, s))) sorted = .ok d ∧
      GoodDecay S f d := by
  have hex : ∃ chains, List.Forall₂ (fun u ch => Qrules.toDecayChain u = .ok ch) us chains := by
    clear hne
    induction us with
    | nil => exact ⟨[], .nil⟩
    | cons u us ih =>
      obtain ⟨chains, h⟩ := ih fun v hv => hus v (List.mem_cons_of_mem _ hv)
      obtain ⟨ch, s, i, j, p, h1, -⟩ := (hus u (List.mem_cons_self ..)).toDecayChain hS
      exact ⟨ch :: chains, .cons h1 h⟩
  obtain ⟨chains, hch⟩ := hex
  have hgood : ∀ ch ∈ chains, ∃ s i j p,
      ((s = 1 ∧ i = 2 ∧ j = 3) ∨ (s = 2 ∧ i = 1 ∧ j = 3) ∨ (s = 3 ∧ i = 1 ∧ j = 2)) ∧
      ch.parent = S 0 ∧ ch.spectator = S s ∧ ch.product1 = S i ∧ ch.product2 = S j ∧
      ch.resonance = .particle p ∧ p.parity ≠ none ∧ ch.incomingLs.isSome = f 0 ∧
      ch.outgoingLs.isSome = f 1 ∧ IsHalfInteger p.spin ∧ PlainChain ch p true := by
    intro ch hc
    obtain ⟨u, hu, he⟩ := forall₂_mem_right hch hc
    obtain ⟨ch', s, i, j, p, h1, h2⟩ := (hus u hu).toDecayChain hS
    rw [he] at h1
    injection h1 with h1
    subst h1
    exact ⟨s, i, j, p, h2⟩
  have hpar : ∀ k, k ∈ [0, 1, 2, 3] → (S k).parity ≠ none := fun k hk => (hS k hk).2.1
  obtain ⟨sorted, hsorted⟩ := pySorted_eq (key := chainKey) (c := chainComparable) (l := chains) (by
    intro a ha b hb
    obtain ⟨s, i, j, p, hsij, a1, a2, a3, a4, a5, a6, a7, a8, -⟩ := hgood a ha
    obtain ⟨s', i', j', p', hsij', b1, b2, b3, b4, b5, b6, b7, b8, -⟩ := hgood b hb
    have mem : ∀ {s i j : ℤ},
        ((s = 1 ∧ i = 2 ∧ j = 3) ∨ (s = 2 ∧ i = 1 ∧ j = 3) ∨ (s = 3 ∧ i = 1 ∧ j = 2)) →
        s ∈ [0, 1, 2, 3] ∧ i ∈ [0, 1, 2, 3] ∧ j ∈ [0, 1, 2, 3] := by
      rintro s i j (⟨rfl, rfl, rfl⟩ | ⟨rfl, rfl, rfl⟩ | ⟨rfl, rfl, rfl⟩) <;> simp
    obtain ⟨m1, m2, m3⟩ := mem hsij
    obtain ⟨m1', m2', m3'⟩ := mem hsij'
    unfold chainComparable
    rw [a1, b1, a2, b2, a3, b3, a4, b4, a5, b5]
    simp only [objComparable, optComparable, a7, a8, b7, b8,
      particleComparable_of (hpar s m1) (hpar s' m1'), particleComparable_of (hpar i m2) (hpar i' m2'),
      particleComparable_of (hpar j m3) (hpar j' m3'), particleComparable_of a6 b6,
      particleComparable_of (hpar 0 (by simp)) (hpar 0 (by simp)), ite_self, beq_self_eq_true])
  obtain ⟨hperm, -, -⟩ := pySorted_ok hsorted
  have i0 := (hS 0 (by simp)).1
  have i1 := (hS 1 (by simp)).1
  have i2 := (hS 2 (by simp)).1
  have i3 := (hS 3 (by simp)).1
  have hstates : PyDict.ofItems ([S 0, S 1, S 2, S 3].map fun s => (s.index, s))
      = [(0, S 0), (1, S 1), (2, S 2), (3, S 3)] := by
    simp only [List.map_cons, List.map_nil, i0, i1, i2, i3]
    exact PyDict.ofItems_of_nodup (by simp [PyDict.keys])
  refine ⟨chains, sorted, ⟨[(0, S 0), (1, S 1), (2, S 2), (3, S 3)], sorted⟩,
    (mapM_ok_iff _ _ _).2 hch, hsorted, ?_, rfl, ?_, fun ch hc => ?_⟩
  rotate_left
  · rintro (rfl : sorted = [])
    have h1 := hperm.length_eq
    have h2 := hch.length_eq
    rw [← h1] at h2
    exact hne (List.length_eq_zero_iff.1 h2)
  · obtain ⟨s, i, j, p, h⟩ := hgood ch (hperm.mem_iff.1 hc)
    exact ⟨s, i, j, p, h⟩
  rw [hstates, decayNew_ok]
  refine ⟨rfl, S 0, rfl, fun ch hc => ?_⟩
  obtain ⟨s, i, j, p, hsij, a1, a2, a3, a4, -⟩ := hgood ch (hperm.mem_iff.1 hc)
  refine ⟨a1, fun t => ?_⟩
  have hlast : t.index ≠ 0 ∧ LastWithIndex t [S 0, S 1, S 2, S 3] ↔ t = S 1 ∨ t = S 2 ∨ t = S 3 := by
    constructor
    · rintro ⟨h0, pre, post, hl, -⟩
      have : t ∈ [S 0, S 1, S 2, S 3] := by rw [hl]; simp
      simp only [List.mem_cons, List.not_mem_nil, or_false] at this
      rcases this with rfl | h
      · exact absurd i0 h0
      · exact h
    · rintro (rfl | rfl | rfl)
      · exact ⟨by rw [i1]; decide, [S 0], [S 2, S 3], rfl, by simp [i1, i2, i3]⟩
      · exact ⟨by rw [i2]; decide, [S 0, S 1], [S 3], rfl, by simp [i2, i3]⟩
      · exact ⟨by rw [i3]; decide, [S 0, S 1, S 2], [], rfl, by simp⟩
  show _ ↔ t.index ≠ 0 ∧ LastWithIndex t [S 0, S 1, S 2, S 3]
  rw [hlast, a2, a3, a4]
  rcases hsij with ⟨rfl, rfl, rfl⟩ | ⟨rfl, rfl, rfl⟩ | ⟨rfl, rfl, rfl⟩ <;> tauto

/-- A transition that differs from a good one in its interactions only. -/
theorem Good.congr {r : ℤ} {S : ℤ → State} {f : ℤ → Bool} {c u : Transition Obj (Option LS)}
    (h : Good r S f c) (h1 : u.topology = c.topology) (h2 : u.states = c.states)
    (h3 : PyDict.keys u.interactions = [0, 1])
    (h4 : ∀ n v, PyDict.get? u.interactions n = some v → v.isSome = f n) : Good r S f u where
  body := by
    obtain ⟨s, i, j, hb, hm⟩ := h.body
    refine ⟨s, i, j, hb.of_topology ?_ h1, hm⟩
    have hv := hb.valid
    refine ⟨?_, ?_, ?_, ?_, ?_⟩
    · rw [h1]; exact hv.edges
    · rw [h2]; exact hv.states
    · rw [h3]; decide
    · rw [h1, h2]; exact hv.sameEdges
    · rw [h1, h3, ← h.nodes]; exact hv.sameNodes
  later := h.later
  nodes := h3
  outer := by rw [h2]; exact h.outer
  resonance := by rw [h2]; exact h.resonance
  ls := h4

/-- `filter_min_ls` returns good transitions for good transitions. -/
theorem Good.filter {r : ℤ} {S : ℤ → State} {f : ℤ → Bool} (ts : List (Transition Obj (Option LS)))
    (hne : ts ≠ []) (hts : ∀ t ∈ ts, Good r S f t) (nodeIds : Option (List ℤ)) :
    ∃ us, filterMinLs ts nodeIds = .ok us ∧ us ≠ [] ∧ ∀ u ∈ us, Good r S f u := by
  have hone : ∀ t ∈ ts, OneResonance t r 0 1 := by
    intro t ht
    obtain ⟨s, i, j, hb, -⟩ := (hts t ht).body
    exact hb.oneResonance (hts t ht).nodes
  rw [filterMinLs_eq ts nodeIds (fun t ht => ⟨_, _, _, hone t ht⟩) hne]
  generalize nodeIds.getD (ts.flatMap fun t => PyDict.keys t.interactions) = sel
  have hkey : ∀ t ∈ ts, ∃ k, groupKey sel t = .ok k := by
    intro t ht
    obtain ⟨e, he⟩ := (hone t ht).state
    exact ⟨_, groupKey_eq sel (hone t ht) he⟩
  obtain ⟨t1, ht1⟩ := List.exists_mem_of_ne_nil _ hne
  obtain ⟨k1, hk1⟩ := hkey t1 ht1
  let g : Transition Obj (Option LS) → GroupKey Obj := fun t =>
    match groupKey sel t with
    | .ok k => k
    | .error _ => k1
  have hg : ∀ t ∈ ts, groupKey sel t = .ok (g t) := by
    intro t ht
    obtain ⟨k, hk⟩ := hkey t ht
    simp only [g, hk]
  rw [groupTransitions_eq sel g ts hg, groupFold_eq]
  simp only [bind, Except.bind]
  have hfirst : ∀ t0 ∈ firsts g ts, ∃ u,
      minTransition sel (ts.filter fun v => g v = g t0) = .ok u ∧ Good r S f u := by
    intro t0 ht0
    obtain ⟨pre, post, hp, hpre⟩ := firsts_first g ts t0 ht0
    have heq : ts.filter (fun u => decide (g u = g t0))
        = t0 :: post.filter (fun u => decide (g u = g t0)) := by
      rw [hp, List.filter_append, List.filter_eq_nil_iff.2, List.nil_append, List.filter_cons]
      · simp
      · intro u hu; simpa using hpre u hu
    have hmem : ∀ u ∈ t0 :: post.filter (fun u => decide (g u = g t0)), Good r S f u := by
      intro u hu
      rw [← heq] at hu
      exact hts u (List.mem_filter.1 hu).1
    obtain ⟨u, hu, htop, hst, hnodes, hint⟩ := minTransition_ok sel t0
      (post.filter (fun u => decide (g u = g t0)))
      (hone t0 ((firsts_sublist g ts).subset ht0)).valid (fun u hu => (hmem u hu).nodes)
    have h0 := hmem t0 (List.mem_cons_self ..)
    refine ⟨u, by rw [heq]; exact hu, h0.congr htop hst hnodes ?_⟩
    intro n w hw
    have hn : n ∈ PyDict.keys t0.interactions := by
      rw [h0.nodes, ← hnodes]; exact keys_of_get? hw
    obtain ⟨v, hv⟩ := get?_of_keys hn
    obtain ⟨w', hw', hnone, hsome⟩ := hint n v hv
    rw [hw] at hw'
    injection hw' with hw'
    subst hw'
    have hvf := h0.ls n v hv
    by_cases hex : ∃ u ∈ t0 :: post.filter (fun u => decide (g u = g t0)),
        PyDict.get? u.interactions n = some none
    · rw [hnone hex]
      obtain ⟨u', hu', he⟩ := hex
      exact (hmem u' hu').ls n none he
    · push Not at hex
      obtain ⟨h1, h2⟩ := hsome hex
      by_cases hns : n ∈ sel
      · obtain ⟨x, rfl, ⟨u', hu', he⟩, -⟩ := h2 hns
        exact (hmem u' hu').ls n _ he
      · rw [h1 hns]; exact hvf
  have hlist : ∀ l : List (Transition Obj (Option LS)), (∀ t ∈ l, t ∈ firsts g ts) → ∃ us,
      List.Forall₂ (fun t u => minTransition sel (ts.filter fun v => g v = g t) = .ok u ∧ Good r S f u)
        l us := by
    intro l
    induction l with
    | nil => exact fun _ => ⟨[], .nil⟩
    | cons t l ih =>
      intro hl
      obtain ⟨us, h⟩ := ih fun u hu => hl u (List.mem_cons_of_mem _ hu)
      obtain ⟨u, hu⟩ := hfirst t (hl t (List.mem_cons_self ..))
      exact ⟨u :: us, .cons hu h⟩
  obtain ⟨us, hus⟩ := hlist (firsts g ts) fun t ht => ht
  refine ⟨us, ?_, ?_, ?_⟩
  · rw [mapM_ok_iff, List.forall₂_map_left_iff]
    exact hus.imp fun t u h => h.1
  · rintro rfl
    cases hf : firsts g ts with
    | nil =>
      obtain ⟨u, hu, -⟩ := firsts_all g ts t1 ht1
      rw [hf] at hu
      cases hu
    | cons a l => rw [hf] at hus; cases hus
  · intro u hu
    obtain ⟨t, -, -, h⟩ := forall₂_mem_right hus hu
    exact h

theorem Good.apply {r : ℤ} {S : ℤ → State} {f : ℤ → Bool} (ts : List (Transition Obj (Option LS)))
    (hne : ts ≠ []) (hts : ∀ t ∈ ts, Good r S f t) (m : MinLsArg) :
    ∃ us, applyMinLs ts m = .ok us ∧ us ≠ [] ∧ ∀ u ∈ us, Good r S f u := by
  cases m with
  | bool b =>
    cases b with
    | false => exact ⟨ts, rfl, hne, hts⟩
    | true => exact Good.filter ts hne hts none
  | pair p d => exact Good.filter ts hne hts _

theorem Good.decayOfNormalized {r : ℤ} {S : ℤ → State} {f : ℤ → Bool} (hS : GoodStates S)
    (ts : List (Transition QObj QNode)) (cs : List (Transition Obj (Option LS)))
    (hc : convertTransitions ts = .ok cs) (hne : cs ≠ []) (hcs : ∀ c ∈ cs, Good r S f c)
    (m : MinLsArg) : ∃ d, Qrules.decayOfNormalized ts m = .ok d ∧ GoodDecay S f d := by
  obtain ⟨us, h1, h2, h3⟩ := Good.apply cs hne hcs m
  obtain ⟨chains, sorted, d, h4, h5, h6, h7⟩ := Good.decay hS h3 h2
  refine ⟨d, ?_, h7⟩
  unfold Qrules.decayOfNormalized
  rw [hc]
  simp only [bind, Except.bind]
  rw [h1]
  cases us with
  | nil => exact absurd rfl h2
  | cons u us =>
    simp only
    rw [(h3 u (List.mem_cons_self ..)).initialStates, (h3 u (List.mem_cons_self ..)).finalStates]
    have st : ∀ k, k ∈ [0, 1, 2, 3] → ∀ i, toState (.dpd (.state (S k))) i = .ok (S k) :=
      fun k hk i => toState_self (hS k hk).2.1 (hS k hk).2.2 i
    simp only [List.mapM_cons, List.mapM_nil, st 0 (by simp), st 1 (by simp), st 2 (by simp),
      st 3 (by simp), bind, Except.bind, pure, Except.pure]
    simp only [List.mapM_cons, bind, Except.bind, pure, Except.pure] at h4
    rw [h4]
    simp only
    rw [h5]
    exact h6

end Verif.Qrules
