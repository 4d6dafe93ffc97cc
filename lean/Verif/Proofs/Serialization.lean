import Verif.Spec.Serialization
import Verif.Props.Decay
import Verif.Proofs.Order
import Verif.Proofs.QrulesReturns

/-! Helper lemmas for the serialization format and the conversion to a decay. -/
namespace Verif.Serialization
open Verif Verif.ThreeBody Verif.Spec Verif.Spin Verif.Qrules

theorem assertSpin_ok {s : ℚ} (h : IsHalfInteger s) : assertSpinValue s = .ok () :=
  (C07_spin_validation s).1.2 h

theorem assertSpin_err {s : ℚ} (h : ¬ IsHalfInteger s) : assertSpinValue s = .error .valueError :=
  (C07_spin_validation s).2.2 h

theorem resonanceSpin_ok {c : ChainDefinition} {s : ℚ} : resonanceSpin c = .ok s ↔ HasSpin c s := by
  unfold resonanceSpin HasSpin
  cases c.propagators with
  | nil => simp
  | cons p t =>
    cases hp : p.spin with
    | none => simp [toRational, hp]
    | some q => simp [toRational, hp]

theorem particleNew_ok {n l : String} {s : ℚ} {r : Particle} :
    Particle.new n l s none 0 0 = .ok r ↔ IsHalfInteger s ∧ r = ⟨n, l, s, none, 0, 0⟩ := by
  unfold Particle.new
  by_cases h : IsHalfInteger s
  · rw [assertSpin_ok h]
    simp only [bind, Except.bind, pure, Except.pure, Except.ok.injEq, h, true_and]
    exact eq_comm
  · rw [assertSpin_err h]
    simp [bind, Except.bind, h]

theorem get_ok {κ ν : Type} [DecidableEq κ] {d : PyDict κ ν} {k : κ} {v : ν} :
    PyDict.get d k = .ok v ↔ PyDict.get? d k = some v := by
  unfold PyDict.get
  cases PyDict.get? d k <;> simp

theorem bind_ok {α β : Type} {x : Py α} {f : α → Py β} {b : β} :
    (x >>= f) = .ok b ↔ ∃ a, x = .ok a ∧ f a = .ok b := by
  cases x <;> simp [bind, Except.bind]

theorem chainNew_chainOf {p0 : State} {R : Particle} {p1 p2 p3 : State} {ch : Chain} :
    Chain.new (.isobar (.state p0) (.isobar (.particle R) (.leaf (.state p1)) (.leaf (.state p2)) none)
      (.leaf (.state p3)) none) = .ok ch ↔
    [p0.index, p1.index, p2.index, p3.index].Nodup ∧ ch = chainOf p0 R p1 p2 p3 := by
  rw [C16_chain_constructor]
  constructor
  · rintro ⟨⟨⟨c1, c2, h1, h2, h3⟩, h4⟩, h5⟩
    rcases h3 with h3 | h3
    · injection h3 with a1 a2 a3 a4
      injection a2 with b1 b2 b3 b4
      injection a3 with a3
      injection a1 with a1
      injection a3 with a3
      subst b2 b3
      cases h1; cases h2
      obtain ⟨d, q0, q1, q2, q3, q4, q5, q6⟩ := ch
      simp only at *
      subst a1 a3 a4 b1 b4 h5
      exact ⟨h4, rfl⟩
    · injection h3 with a1 a2 a3 a4
      cases a2
  · rintro ⟨h, rfl⟩
    exact ⟨⟨⟨_, _, .leaf _, .leaf _, .inl rfl⟩, h⟩, rfl⟩

theorem toDecayChain_ok {c : ChainDefinition} {p0 : State} {final : PyDict ℤ State}
    {f : String → String} {ch : Chain} : toDecayChain c p0 final f = .ok ch ↔
      ∃ s i j k p1 p2 p3, HasSpin c s ∧ IsHalfInteger s ∧ findDecayProductIds c.vertices = .ok (i, j) ∧
        findSpectatorId c.vertices = .ok k ∧ PyDict.get? final i = some p1 ∧
        PyDict.get? final j = some p2 ∧ PyDict.get? final k = some p3 ∧
        [p0.index, p1.index, p2.index, p3.index].Nodup ∧
        ch = chainOf p0 ⟨c.name, f c.name, s, none, 0, 0⟩ p1 p2 p3 := by
  unfold toDecayChain
  simp only [bind_ok, resonanceSpin_ok, particleNew_ok, get_ok, chainNew_chainOf]
  constructor
  · rintro ⟨s, hs, _, ⟨hi, rfl⟩, ⟨i, j⟩, hij, k, hk, p1, h1, p2, h2, p3, h3, hn, rfl⟩
    exact ⟨s, i, j, k, p1, p2, p3, hs, hi, hij, hk, h1, h2, h3, hn, rfl⟩
  · rintro ⟨s, i, j, k, p1, p2, p3, hs, hi, hij, hk, h1, h2, h3, hn, rfl⟩
    exact ⟨s, hs, _, ⟨hi, rfl⟩, ⟨i, j⟩, hij, k, hk, p1, h1, p2, h2, p3, h3, hn, rfl⟩

theorem findDecay_of {c : ChainDefinition} {p q : Vertex} {i j k : ℤ} (h : TwoVertices c p q i j k) :
    findDecayProductIds c.vertices = .ok (i, j) := by
  obtain ⟨a, b, hp⟩ := h.production
  rcases h.order with ho | ho <;> rcases hp with hp | hp <;>
    simp [ho, findDecayProductIds, hp, h.decay]

theorem findSpectator_of {c : ChainDefinition} {p q : Vertex} {i j k : ℤ}
    (h : TwoVertices c p q i j k) : findSpectatorId c.vertices = .ok k := by
  obtain ⟨a, b, hp⟩ := h.production
  rcases h.order with ho | ho <;> rcases hp with hp | hp <;>
    simp [ho, findSpectatorId, hp, h.decay, Tree.isInt, firstInt]

theorem distribution_ok {m : ModelDefinition} {D : Distribution} {w : Bool} :
    getDistributionDef m = .ok (D, w) ↔
      ∃ rest, m.distributions = D :: rest ∧ (w = true ↔ rest ≠ []) := by
  unfold getDistributionDef
  cases m.distributions with
  | nil => simp
  | cons d t =>
    simp only [List.length_cons, gt_iff_lt, Except.ok.injEq, Prod.mk.injEq, List.cons.injEq]
    constructor
    · rintro ⟨rfl, rfl⟩
      exact ⟨t, ⟨rfl, rfl⟩, by cases t <;> simp⟩
    · rintro ⟨_, ⟨rfl, rfl⟩, h⟩
      refine ⟨rfl, ?_⟩
      cases t <;> cases w <;> simp at h ⊢

theorem distribution_head {m : ModelDefinition} {D : Distribution} {rest : List Distribution}
    (h : m.distributions = D :: rest) : ∃ w, getDistributionDef m = .ok (D, w) := by
  refine ⟨decide (rest ≠ []), distribution_ok.2 ⟨rest, h, by simp⟩⟩

theorem toParticle_ok {d : StateDefinition} {f : String → String} {s : State} :
    toParticle d f = .ok s ↔ IsState d f s := by
  unfold toParticle IsState State.new
  cases hd : d.spin with
  | none => simp [toRational, bind, Except.bind]
  | some q =>
    by_cases hq : IsHalfInteger q
    · simp only [toRational, bind, Except.bind, assertSpin_ok hq, pure, Except.pure, Except.ok.injEq,
        Option.some.injEq]
      constructor
      · rintro rfl
        exact ⟨rfl, hq, rfl, rfl, rfl, rfl, rfl, rfl⟩
      · rintro ⟨rfl, -, h1, h2, h3, h4, h5, h6⟩
        obtain ⟨⟨n, l, sp, pa, ma, wi⟩, ix⟩ := s
        simp only at *
        subst h1 h2 h3 h4 h5 h6
        rfl
    · simp only [toRational, bind, Except.bind, assertSpin_err hq, Option.some.injEq]
      constructor
      · intro h; cases h
      · rintro ⟨rfl, h, -⟩; exact absurd h hq

theorem toParticle_exists {d : StateDefinition} {f : String → String}
    (h : ∃ s, d.spin = some s ∧ IsHalfInteger s) : ∃ s, toParticle d f = .ok s := by
  obtain ⟨q, hq, hh⟩ := h
  exact ⟨⟨⟨d.name, f d.name, q, none, d.mass, 0⟩, d.index⟩,
    toParticle_ok.2 ⟨hq, hh, rfl, rfl, rfl, rfl, rfl, rfl⟩⟩

/-- The final state dictionary of a list of states. -/
def finalOf (ps : List State) : PyDict ℤ State := PyDict.ofItems (ps.map fun p => (p.index, p))

theorem getFinalState_ok {m : ModelDefinition} {f : String → String} {final : PyDict ℤ State} :
    getFinalState m f = .ok final ↔ ∃ D rest ps, m.distributions = D :: rest ∧
      List.Forall₂ (fun d s => toParticle d f = .ok s) D.kinematics.finalState ps ∧
      final = finalOf ps := by
  unfold getFinalState
  simp only [bind_ok, mapM_ok_iff, pure, Except.pure, Except.ok.injEq]
  constructor
  · rintro ⟨⟨D, w⟩, hD, ps, hps, rfl⟩
    obtain ⟨rest, hr, -⟩ := distribution_ok.1 hD
    exact ⟨D, rest, ps, hr, hps, rfl⟩
  · rintro ⟨D, rest, ps, hr, hps, rfl⟩
    obtain ⟨w, hw⟩ := distribution_head hr
    exact ⟨(D, w), hw, ps, hps, rfl⟩

theorem getInitialState_ok {m : ModelDefinition} {f : String → String} {p0 : State} :
    getInitialState m f = .ok p0 ↔ ∃ D rest, m.distributions = D :: rest ∧
      toParticle D.kinematics.initialState f = .ok p0 := by
  unfold getInitialState
  simp only [bind_ok]
  constructor
  · rintro ⟨⟨D, w⟩, hD, h⟩
    obtain ⟨rest, hr, -⟩ := distribution_ok.1 hD
    exact ⟨D, rest, hr, h⟩
  · rintro ⟨D, rest, hr, h⟩
    obtain ⟨w, hw⟩ := distribution_head hr
    exact ⟨(D, w), hw, h⟩

theorem getDecayChains_ok {m : ModelDefinition} {cs : List ChainDefinition} :
    getDecayChains m = .ok cs ↔ ∃ D rest, m.distributions = D :: rest ∧ D.chains = cs := by
  unfold getDecayChains
  simp only [bind_ok, pure, Except.pure, Except.ok.injEq]
  constructor
  · rintro ⟨⟨D, w⟩, hD, h⟩
    obtain ⟨rest, hr, -⟩ := distribution_ok.1 hD
    exact ⟨D, rest, hr, h⟩
  · rintro ⟨D, rest, hr, h⟩
    obtain ⟨w, hw⟩ := distribution_head hr
    exact ⟨(D, w), hw, h⟩

/-- The states of the decay. -/
def statesOf (p0 : State) (ps : List State) : PyDict ℤ State :=
  PyDict.update [(p0.index, p0)] (finalOf ps)

/-- The stages of `to_decay`. -/
structure Stages (m : ModelDefinition) (f : String → String) (D : Distribution) (p0 : State)
    (ps : List State) : Prop where
  head : ∃ rest, m.distributions = D :: rest
  initial : toParticle D.kinematics.initialState f = .ok p0
  final : List.Forall₂ (fun d s => toParticle d f = .ok s) D.kinematics.finalState ps

theorem Stages.getInitial {m : ModelDefinition} {f : String → String} {D : Distribution} {p0 : State}
    {ps : List State} (h : Stages m f D p0 ps) : getInitialState m f = .ok p0 := by
  obtain ⟨rest, hr⟩ := h.head
  exact getInitialState_ok.2 ⟨D, rest, hr, h.initial⟩

theorem Stages.getFinal {m : ModelDefinition} {f : String → String} {D : Distribution} {p0 : State}
    {ps : List State} (h : Stages m f D p0 ps) : getFinalState m f = .ok (finalOf ps) := by
  obtain ⟨rest, hr⟩ := h.head
  exact getFinalState_ok.2 ⟨D, rest, ps, hr, h.final, rfl⟩

theorem Stages.getChains {m : ModelDefinition} {f : String → String} {D : Distribution} {p0 : State}
    {ps : List State} (h : Stages m f D p0 ps) : getDecayChains m = .ok D.chains := by
  obtain ⟨rest, hr⟩ := h.head
  exact getDecayChains_ok.2 ⟨D, rest, hr, rfl⟩

theorem Stages.getStates {m : ModelDefinition} {f : String → String} {D : Distribution} {p0 : State}
    {ps : List State} (h : Stages m f D p0 ps) :
    Serialization.getStates m f = .ok (statesOf p0 ps) := by
  unfold Serialization.getStates
  rw [h.getInitial, h.getFinal]
  rfl

theorem stages_of {m : ModelDefinition} {f : String → String} {p0 : State} {final : PyDict ℤ State}
    (h0 : getInitialState m f = .ok p0) (h1 : getFinalState m f = .ok final) :
    ∃ D ps, Stages m f D p0 ps ∧ final = finalOf ps := by
  obtain ⟨D, rest, hr, hp⟩ := getInitialState_ok.1 h0
  obtain ⟨D', rest', ps, hr', hps, rfl⟩ := getFinalState_ok.1 h1
  rw [hr] at hr'
  injection hr' with e1 e2
  subst e1
  exact ⟨D, ps, ⟨⟨rest, hr⟩, hp, hps⟩, rfl⟩

theorem toDecay_ok {m : ModelDefinition} {f : String → String} {d : Decay} :
    toDecay m f = .ok d ↔ ∃ D p0 ps chains sorted, Stages m f D p0 ps ∧
      List.Forall₂ (fun c ch => toDecayChain c p0 (finalOf ps) f = .ok ch) D.chains chains ∧
      pySorted chainKey chainComparable (pySet id chains) = .ok sorted ∧
      Decay.new (statesOf p0 ps) sorted = .ok d := by
  unfold toDecay
  simp only [bind_ok, mapM_ok_iff]
  constructor
  · rintro ⟨p0, h0, final, h1, states, h2, cs, h3, chains, h4, sorted, h5, h6⟩
    obtain ⟨D, ps, hs, rfl⟩ := stages_of h0 h1
    rw [hs.getStates] at h2
    rw [hs.getChains] at h3
    injection h2 with h2
    injection h3 with h3
    subst h2 h3
    exact ⟨D, p0, ps, chains, sorted, hs, h4, h5, h6⟩
  · rintro ⟨D, p0, ps, chains, sorted, hs, h4, h5, h6⟩
    exact ⟨p0, hs.getInitial, _, hs.getFinal, _, hs.getStates, _, hs.getChains, chains, h4, sorted, h5, h6⟩

theorem chainKey_chainOf {p0 p1 p2 p3 q0 q1 q2 q3 : State} {R S : Particle}
    (h : chainKey (chainOf p0 R p1 p2 p3) = chainKey (chainOf q0 S q1 q2 q3)) :
    chainOf p0 R p1 p2 p3 = chainOf q0 S q1 q2 q3 := by
  unfold chainKey chainOf at h
  simp only at h
  have h1 := Prod.mk.inj (toLex_inj.1 h)
  have h2 := Prod.mk.inj (toLex_inj.1 h1.2)
  have h3 := Prod.mk.inj (toLex_inj.1 h2.1)
  have h4 := Prod.mk.inj (toLex_inj.1 h3.2)
  have h5 := Prod.mk.inj (toLex_inj.1 h4.2)
  have h6 := Prod.mk.inj (toLex_inj.1 h2.2)
  have e0 := objKey_inj h1.1
  have e1 := objKey_inj h3.1
  have e2 := objKey_inj h4.1
  have e3 := objKey_inj h5.1
  have e4 := objKey_inj h6.1
  injection e0 with e0
  injection e1 with e1
  injection e2 with e2
  injection e3 with e3
  injection e4 with e4
  rw [e0, e1, e2, e3, e4]

/-- A chain as `to_decay_chain` builds it from states without parity. -/
def Plain (f : String → String) (p0 : State) (ch : Chain) : Prop :=
  ∃ n s p1 p2 p3, p1.parity = none ∧ p2.parity = none ∧ p3.parity = none ∧
    ch = chainOf p0 ⟨n, f n, s, none, 0, 0⟩ p1 p2 p3

theorem Plain.key {f : String → String} {p0 q0 : State} {a b : Chain} (ha : Plain f p0 a)
    (hb : Plain f q0 b) (h : chainKey a = chainKey b) : a = b := by
  obtain ⟨n, s, p1, p2, p3, -, -, -, rfl⟩ := ha
  obtain ⟨n', s', p1', p2', p3', -, -, -, rfl⟩ := hb
  exact chainKey_chainOf h

theorem particleComparable_none {a b : Particle} (ha : a.parity = none) (hb : b.parity = none) :
    particleComparable a b = true := by
  simp [particleComparable, ha, hb, optComparable]

theorem Plain.comparable {f : String → String} {p0 : State} {a b : Chain}
    (ha : Plain f p0 a) (hb : Plain f p0 b) : chainComparable a b = true := by
  obtain ⟨n, s, p1, p2, p3, h1, h2, h3, rfl⟩ := ha
  obtain ⟨n', s', q1, q2, q3, g1, g2, g3, rfl⟩ := hb
  unfold chainComparable chainOf
  simp only [ne_eq, not_true_eq_false, if_false, objComparable]
  rw [particleComparable_none h1 g1, particleComparable_none h2 g2, particleComparable_none h3 g3]
  rw [particleComparable_none rfl rfl]
  simp [optComparable]

theorem finalOf_mem {ps : List State} {k : ℤ} {p : State}
    (h : PyDict.get? (finalOf ps) k = some p) : p ∈ ps ∧ p.index = k := by
  unfold finalOf at h
  rw [PyDict.get?_ofItems] at h
  have h1 := List.mem_reverse.1 (PyDict.mem_of_get? h)
  obtain ⟨q, hq, he⟩ := List.mem_map.1 h1
  injection he with e1 e2
  subst e2
  exact ⟨hq, e1⟩

theorem Stages.plain {m : ModelDefinition} {f : String → String} {D : Distribution} {p0 : State}
    {ps : List State} (h : Stages m f D p0 ps) {c : ChainDefinition} {ch : Chain}
    (hc : toDecayChain c p0 (finalOf ps) f = .ok ch) : Plain f p0 ch := by
  have hpar : ∀ p ∈ ps, p.parity = none := by
    intro p hp
    obtain ⟨d, -, hd⟩ := forall₂_mem_right h.final hp
    exact (toParticle_ok.1 hd).2.2.2.2.2.2.2
  obtain ⟨s, i, j, k, p1, p2, p3, -, -, -, -, h1, h2, h3, -, rfl⟩ := toDecayChain_ok.1 hc
  exact ⟨c.name, s, p1, p2, p3, hpar _ (finalOf_mem h1).1, hpar _ (finalOf_mem h2).1,
    hpar _ (finalOf_mem h3).1, rfl⟩

/-- The chains that the definitions are converted to are sorted without an exception. -/
theorem Stages.sorted {m : ModelDefinition} {f : String → String} {D : Distribution} {p0 : State}
    {ps : List State} (h : Stages m f D p0 ps) {cs : List ChainDefinition} {chains : List Chain}
    (hch : List.Forall₂ (fun c ch => toDecayChain c p0 (finalOf ps) f = .ok ch) cs chains) :
    ∃ sorted, pySorted chainKey chainComparable (pySet id chains) = .ok sorted ∧
      (sorted.map chainKey).Pairwise (· < ·) ∧ ∀ ch, ch ∈ sorted ↔ ch ∈ chains := by
  have hplain : ∀ ch ∈ chains, Plain f p0 ch := by
    intro ch hc
    obtain ⟨c, -, he⟩ := forall₂_mem_right hch hc
    exact h.plain he
  obtain ⟨sorted, hs⟩ := pySorted_eq (key := chainKey) (c := chainComparable) (l := pySet id chains)
    (fun a ha b hb => (hplain a (pySet_sub ha)).comparable (hplain b (pySet_sub hb)))
  obtain ⟨hperm, hle, -⟩ := pySorted_ok hs
  have hmem : ∀ ch, ch ∈ sorted ↔ ch ∈ chains := by
    intro ch
    rw [hperm.mem_iff]
    have := pySet_keys (id : Chain → Chain) chains ch
    simpa using this
  have hnd : sorted.Nodup := by
    have := pySet_nodup (id : Chain → Chain) chains
    rw [List.map_id] at this
    exact hperm.nodup_iff.2 this
  refine ⟨sorted, hs, sorted_strict hle ?_, hmem⟩
  refine List.Nodup.map_on ?_ hnd
  intro a ha b hb hab
  exact (hplain a ((hmem a).1 ha)).key (hplain b ((hmem b).1 hb)) hab

theorem strict_unique {α β : Type} [LinearOrder β] {key : α → β} {l l' : List α}
    (h : (l.map key).Pairwise (· < ·)) (h' : (l'.map key).Pairwise (· < ·)) (hs : ∀ ch, ch ∈ l ↔ ch ∈ l') : l = l' := by
  rw [List.pairwise_map] at h h'
  have hp : l.Perm l' := by
    rw [List.perm_ext_iff_of_nodup (h.imp (fun h e => absurd (e ▸ h) (lt_irrefl _)))
      (h'.imp (fun h e => absurd (e ▸ h) (lt_irrefl _)))]
    exact hs
  exact hp.eq_of_pairwise (le := fun a b => key a < key b)
    (fun a b _ _ h1 h2 => absurd h1 (not_lt_of_gt h2)) h h'

theorem forall₂_exists {α β : Type} {R : α → β → Prop} {l : List α} (h : ∀ a ∈ l, ∃ b, R a b) :
    ∃ r, List.Forall₂ R l r := by
  induction l with
  | nil => exact ⟨[], .nil⟩
  | cons a l ih =>
    obtain ⟨r, hr⟩ := ih fun x hx => h x (List.mem_cons_of_mem _ hx)
    obtain ⟨b, hb⟩ := h a (List.mem_cons_self ..)
    exact ⟨b :: r, .cons hb hr⟩

theorem toDecay_facts {m : ModelDefinition} {f : String → String} {d : Decay} :
    toDecay m f = .ok d ↔ ∃ D p0 ps, Stages m f D p0 ps ∧ d.states = statesOf p0 ps ∧
      (∀ c ∈ D.chains, ∃ ch, toDecayChain c p0 (finalOf ps) f = .ok ch) ∧
      (∀ ch, ch ∈ d.chains ↔ ∃ c ∈ D.chains, toDecayChain c p0 (finalOf ps) f = .ok ch) ∧
      (d.chains.map chainKey).Pairwise (· < ·) ∧ Decay.new d.states d.chains = .ok d := by
  rw [toDecay_ok]
  constructor
  · rintro ⟨D, p0, ps, chains, sorted, hs, hch, hsort, hd⟩
    obtain ⟨sorted', h1, h2, h3⟩ := hs.sorted hch
    rw [hsort] at h1
    injection h1 with h1
    subst h1
    have hd' := (decayNew_ok _ _ _).1 hd
    have e := hd'.1
    subst e
    refine ⟨D, p0, ps, hs, rfl, fun c hc => ?_, fun ch => ?_, h2, hd⟩
    · obtain ⟨ch, -, h⟩ := forall₂_mem_left hch hc
      exact ⟨ch, h⟩
    · rw [h3]
      constructor
      · intro h
        exact forall₂_mem_right hch h
      · rintro ⟨c, hc, h⟩
        obtain ⟨ch', hm, h'⟩ := forall₂_mem_left hch hc
        rw [h] at h'
        injection h' with h'
        exact h' ▸ hm
  · rintro ⟨D, p0, ps, hs, hst, hex, hmem, hlt, hd⟩
    obtain ⟨chains, hch⟩ := forall₂_exists hex
    obtain ⟨sorted, h1, h2, h3⟩ := hs.sorted hch
    have : sorted = d.chains := by
      refine strict_unique (key := chainKey) h2 hlt fun ch => ?_
      rw [h3, hmem]
      constructor
      · intro h
        exact forall₂_mem_right hch h
      · rintro ⟨c, hc, h⟩
        obtain ⟨ch', hm, h'⟩ := forall₂_mem_left hch hc
        rw [h] at h'
        injection h' with h'
        exact h' ▸ hm
    subst this
    exact ⟨D, p0, ps, chains, d.chains, hs, hch, h1, by rw [← hst]; exact hd⟩

theorem lastWithIndex_iff {l : List State} (h : (l.map (·.index)).Nodup) {s : State} :
    LastWithIndex s l ↔ s ∈ l := by
  constructor
  · rintro ⟨pre, post, rfl, -⟩
    simp
  · intro hs
    obtain ⟨pre, post, rfl⟩ := List.append_of_mem hs
    refine ⟨pre, post, rfl, fun t ht he => ?_⟩
    rw [List.map_append, List.map_cons, List.nodup_append] at h
    exact (List.nodup_cons.1 h.2.1).1 (he ▸ List.mem_map.2 ⟨t, ht, rfl⟩)

/-- The states of well-formed kinematics. -/
theorem stages_exist {m : ModelDefinition} {f : String → String} {D : Distribution}
    (hD : ∃ rest, m.distributions = D :: rest) (hk : WellFormedKinematics D.kinematics) :
    ∃ p0 ps, Stages m f D p0 ps ∧ p0.index = 0 ∧ (ps.map (·.index)).Perm [1, 2, 3] := by
  obtain ⟨p0, h0⟩ := toParticle_exists (f := f) (hk.spins D.kinematics.initialState (List.mem_cons_self ..))
  obtain ⟨ps, hps⟩ := forall₂_exists (l := D.kinematics.finalState)
    (R := fun d s => toParticle d f = .ok s)
    fun d hd => toParticle_exists (hk.spins d (List.mem_cons_of_mem _ hd))
  refine ⟨p0, ps, ⟨hD, h0, hps⟩, ?_, ?_⟩
  · rw [(toParticle_ok.1 h0).2.2.2.2.2.1, hk.initial]
  · have : ps.map (·.index) = D.kinematics.finalState.map (·.index) := by
      generalize D.kinematics.finalState = l at hps
      induction hps with
      | nil => rfl
      | cons h _ ih =>
        rw [List.map_cons, List.map_cons, ih, (toParticle_ok.1 h).2.2.2.2.2.1]
    rw [this]
    exact hk.final

theorem finalOf_eq {ps : List State} (h : (ps.map (·.index)).Perm [1, 2, 3]) :
    finalOf ps = ps.map fun p => (p.index, p) := by
  refine PyDict.ofItems_of_nodup ?_
  unfold PyDict.keys
  rw [List.map_map]
  exact h.nodup_iff.2 (by decide)

theorem finalOf_get {ps : List State} (h : (ps.map (·.index)).Perm [1, 2, 3]) {i : ℤ}
    (hi : i ∈ [1, 2, 3]) : ∃ p ∈ ps, p.index = i ∧ PyDict.get? (finalOf ps) i = some p := by
  obtain ⟨p, hp, rfl⟩ := List.mem_map.1 (h.mem_iff.2 hi)
  refine ⟨p, hp, rfl, ?_⟩
  rw [finalOf_eq h]
  refine PyDict.get?_of_mem ?_ (List.mem_map.2 ⟨p, hp, rfl⟩)
  unfold PyDict.keys
  rw [List.map_map]
  exact h.nodup_iff.2 (by decide)

theorem statesOf_eq {p0 : State} {ps : List State} (h0 : p0.index = 0)
    (h : (ps.map (·.index)).Perm [1, 2, 3]) :
    statesOf p0 ps = (0, p0) :: ps.map fun p => (p.index, p) := by
  unfold statesOf
  rw [finalOf_eq h, h0, PyDict.update_disjoint]
  · rfl
  · simp only [PyDict.keys, List.cons_append, List.nil_append, List.map_cons, List.map_map]
    refine List.nodup_cons.2 ⟨fun hm => ?_, h.nodup_iff.2 (by decide)⟩
    have := h.mem_iff.1 (show (0 : ℤ) ∈ ps.map (·.index) from hm)
    simp at this

theorem toDecayChain_returns {c : ChainDefinition} {p0 : State} {ps : List State} (h0 : p0.index = 0)
    (h : (ps.map (·.index)).Perm [1, 2, 3]) (hc : WellFormedChain c) (f : String → String) :
    ∃ ch, toDecayChain c p0 (finalOf ps) f = .ok ch := by
  obtain ⟨p, q, i, j, k, s, ht, hp, hs, hh⟩ := hc
  obtain ⟨p1, -, i1, g1⟩ := finalOf_get h (i := i) (hp.mem_iff.1 (by simp))
  obtain ⟨p2, -, i2, g2⟩ := finalOf_get h (i := j) (hp.mem_iff.1 (by simp))
  obtain ⟨p3, -, i3, g3⟩ := finalOf_get h (i := k) (hp.mem_iff.1 (by simp))
  refine ⟨_, toDecayChain_ok.2 ⟨s, i, j, k, p1, p2, p3, hs, hh, findDecay_of ht, findSpectator_of ht,
    g1, g2, g3, ?_, rfl⟩⟩
  rw [h0, i1, i2, i3]
  exact ((hp.cons 0).nodup_iff).2 (by decide)

/-- The constructor accepts chains of well-formed definitions. -/
theorem decayNew_returns {p0 : State} {ps : List State} (h0 : p0.index = 0)
    (h : (ps.map (·.index)).Perm [1, 2, 3]) {chains : List Chain} {f : String → String}
    (hch : ∀ ch ∈ chains, ∃ c, WellFormedChain c ∧ toDecayChain c p0 (finalOf ps) f = .ok ch) :
    Decay.new (statesOf p0 ps) chains = .ok ⟨statesOf p0 ps, chains⟩ := by
  rw [decayNew_ok]
  refine ⟨rfl, p0, by rw [statesOf_eq h0 h]; rfl, fun ch hc => ?_⟩
  obtain ⟨c, ⟨p, q, i, j, k, s, ht, hp, hs, hh⟩, he⟩ := hch ch hc
  obtain ⟨s', i', j', k', p1, p2, p3, -, -, h1, h2, h3, h4, h5, h6, rfl⟩ := toDecayChain_ok.1 he
  rw [findDecay_of ht] at h1
  rw [findSpectator_of ht] at h2
  injection h1 with h1
  injection h1 with e1 e2
  injection h2 with e3
  subst e1 e2 e3
  refine ⟨rfl, fun t => ?_⟩
  have hnd : ((p0 :: ps).map (·.index)).Nodup := by
    rw [List.map_cons, List.nodup_cons, h0]
    refine ⟨fun hm => ?_, h.nodup_iff.2 (by decide)⟩
    have := h.mem_iff.1 hm
    simp at this
  have hmap : (statesOf p0 ps).map Prod.snd = p0 :: ps := by
    rw [statesOf_eq h0 h]
    simp [Function.comp_def]
  rw [hmap, lastWithIndex_iff hnd]
  obtain ⟨m1, i1⟩ := finalOf_mem h3
  obtain ⟨m2, i2⟩ := finalOf_mem h4
  obtain ⟨m3, i3⟩ := finalOf_mem h5
  have hinj := List.inj_on_of_nodup_map (h.nodup_iff.2 (by decide : [(1 : ℤ), 2, 3].Nodup))
  show (t = p3 ∨ t = p1 ∨ t = p2) ↔ _
  have hne : ∀ u ∈ ps, u.index ≠ 0 := fun u hu e => by
    have := h.mem_iff.1 (List.mem_map.2 ⟨u, hu, e⟩)
    simp at this
  constructor
  · rintro (rfl | rfl | rfl)
    · exact ⟨hne _ m3, List.mem_cons_of_mem _ m3⟩
    · exact ⟨hne _ m1, List.mem_cons_of_mem _ m1⟩
    · exact ⟨hne _ m2, List.mem_cons_of_mem _ m2⟩
  · rintro ⟨hn, ht⟩
    rcases List.mem_cons.1 ht with rfl | ht
    · exact absurd h0 hn
    · have hi : t.index ∈ [i, j, k] := hp.mem_iff.2 (h.mem_iff.1 (List.mem_map.2 ⟨t, ht, rfl⟩))
      simp only [List.mem_cons, List.not_mem_nil, or_false] at hi
      rcases hi with hi | hi | hi
      · exact .inr (.inl (hinj ht m1 (by rw [hi, i1])))
      · exact .inr (.inr (hinj ht m2 (by rw [hi, i2])))
      · exact .inl (hinj ht m3 (by rw [hi, i3]))

end Verif.Serialization
