import Verif.Proofs.QrulesIds
import Verif.Props.Spin

/-!
Properties C43, C44, C45 and C50 of the QRules adapter: relabelling of IDs, conversion of
transitions and particles.
-/
namespace Verif.Qrules
open Verif Verif.ThreeBody Verif.Spec

/-! ### Example -/

/-- A QRules particle for the examples. -/
def exQ (name : String) (spin : ℚ) (parity : Option ℤ) : QParticle := ⟨name, none, spin, parity, 1, 0⟩

/-- Topology `a → s (r → i j)`. -/
def exTopology (a s r i j : ℤ) : Topology :=
  ⟨[0, 1], [(a, ⟨none, some 0⟩), (s, ⟨some 0, none⟩), (i, ⟨some 1, none⟩), (j, ⟨some 1, none⟩),
    (r, ⟨some 0, some 1⟩)]⟩

/-- `J/psi → K0 (Sigma+ p~)` with the IDs that QRules assigns. -/
def exTransition (prod dec : QNode) : Transition QObj QNode :=
  ⟨exTopology (-1) 0 3 1 2,
    [(-1, .state (exQ "J/psi" 1 (some (-1))) 1), (0, .state (exQ "K0" 0 (some (-1))) 0),
      (1, .state (exQ "Sigma+" (1 / 2) (some 1)) (1 / 2)),
      (2, .state (exQ "p~" (1 / 2) (some (-1))) (1 / 2)),
      (3, .state (exQ "N" (3 / 2) (some (-1))) (1 / 2))],
    [(0, prod), (1, dec)]⟩

theorem exTransition_threeBody (prod dec : QNode) :
    ThreeBody (exTransition prod dec) (-1) 0 3 1 2 where
  valid := {
    edges := by simp [exTransition, exTopology, PyDict.keys]
    states := by simp [exTransition, PyDict.keys]
    interactions := by simp [exTransition, PyDict.keys]
    sameEdges := fun k => by
      simp only [exTransition, exTopology, PyDict.keys, List.map_cons, List.map_nil, List.mem_cons,
        List.not_mem_nil, or_false]
    sameNodes := fun k => by simp [exTransition, exTopology, PyDict.keys] }
  nodes := rfl
  ids := fun k => by
    simp only [exTransition, exTopology, PyDict.keys, List.map_cons, List.map_nil, List.mem_cons,
      List.not_mem_nil, or_false]
    omega
  distinct := by decide
  initial := rfl
  spectator := rfl
  resonance := rfl
  product1 := rfl
  product2 := rfl
  order := by decide

/-! ### C43 -/

/-- C43 for topologies: the new ID of an edge is the number of smaller IDs. The new IDs are exactly
`0, ..., N-1`, smaller IDs get smaller new IDs, and every edge keeps its end points. -/
theorem C43_topology (t : Topology) (hn : (PyDict.keys t.edges).Nodup) :
    (normalizeTopology t).nodes = t.nodes ∧
    Relabelled (rank (PyDict.keys t.edges)) t.edges (normalizeTopology t).edges ∧
    (∀ k, k ∈ PyDict.keys (normalizeTopology t).edges ↔ 0 ≤ k ∧ k < (t.edges.length : ℤ)) ∧
    (PyDict.keys (normalizeTopology t).edges).Nodup ∧
    ∀ a ∈ PyDict.keys t.edges, ∀ b ∈ PyDict.keys t.edges,
      a < b ↔ rank (PyDict.keys t.edges) a < rank (PyDict.keys t.edges) b := by
  have hr := relabelled_map t.edges (rank (PyDict.keys t.edges)) (fun a ha b hb => rank_inj ha hb)
  rw [normalizeTopology_eq t hn]
  refine ⟨rfl, hr, fun k => ?_, ?_, fun a ha b hb => ⟨rank_lt ha, lt_of_rank_lt hb⟩⟩
  · rw [hr.1 k, rank_surj, hn.dedup]
    simp [PyDict.keys]
  · rw [keys_map_key]
    exact List.Nodup.map_on (fun a ha b hb => rank_inj ha hb) hn

example : (PyDict.keys (exTopology (-1) 0 3 1 2).edges).Nodup := by decide

/-- C43 for transitions: normalisation succeeds, relabels topology and states in the same way and
leaves the interactions as they are. -/
theorem C43_transition {E N : Type} (t : Transition E N) (hv : Valid t) :
    ∃ t', normalizeTransition t = .ok t' ∧ Valid t' ∧
      t'.topology.nodes = t.topology.nodes ∧
      Relabelled (rank (PyDict.keys t.states)) t.topology.edges t'.topology.edges ∧
      Relabelled (rank (PyDict.keys t.states)) t.states t'.states ∧
      t'.interactions = t.interactions ∧
      ∀ k, k ∈ PyDict.keys t'.states ↔ 0 ≤ k ∧ k < (t.states.length : ℤ) := by
  refine ⟨_, normalizeTransition_eq t hv, ?_, ?_, ?_, normStates_relabelled _, rfl, ?_⟩
  · have h1 := C43_topology t.topology hv.edges
    constructor
    · exact h1.2.2.2.1
    · exact (keys_normStates_sorted t.states).imp ne_of_lt
    · exact hv.interactions
    · intro i
      rw [(normStates_relabelled t.states).1 i, h1.2.1.1 i, funext (rank_congr hv.sameEdges)]
      simp only [hv.sameEdges]
    · intro i
      rw [h1.1]
      exact hv.sameNodes i
  · exact (C43_topology t.topology hv.edges).1
  · rw [← funext (rank_congr hv.sameEdges)]
    exact (C43_topology t.topology hv.edges).2.1
  · intro k
    rw [(normStates_relabelled t.states).1 k, rank_surj, hv.states.dedup]
    simp [PyDict.keys]

example : Valid (exTransition .none .none) := (exTransition_threeBody _ _).valid

/-- C43: normalisation is idempotent. -/
theorem C43_idempotent {E N : Type} (t t' : Transition E N) (hv : Valid t)
    (h : normalizeTransition t = .ok t') : normalizeTransition t' = .ok t' := by
  obtain ⟨t1, h1, hv1, -⟩ := C43_transition t hv
  have : t1 = t' := by rw [h1] at h; injection h
  subst this
  rw [normalizeTransition_eq t hv] at h1
  injection h1 with h1
  rw [normalizeTransition_eq t1 hv1]
  rw [← h1]
  simp only [Except.ok.injEq, Transition.mk.injEq, and_true]
  exact ⟨normalizeTopology_idem _ hv.edges, normStates_idem _⟩

/-- C43: the result does not depend on the order in which edges and states were inserted. -/
theorem C43_insertion_order {E N : Type} (t u : Transition E N) (ht : Valid t) (hu : Valid u)
    (h : Same t u) :
    ∃ t' u', normalizeTransition t = .ok t' ∧ normalizeTransition u = .ok u' ∧ Same t' u' := by
  obtain ⟨⟨hnodes, hedges⟩, hstates, hint⟩ := h
  obtain ⟨t', h1, -, h2, h3, h4, h5, -⟩ := C43_transition t ht
  obtain ⟨u', g1, -, g2, g3, g4, g5, -⟩ := C43_transition u hu
  refine ⟨t', u', h1, g1, ⟨?_, ?_⟩, ?_, ?_⟩
  · rw [h2, g2, hnodes]
  all_goals
    have hk : rank (PyDict.keys u.states) = rank (PyDict.keys t.states) :=
      funext (rank_congr (fun i => by
        rw [PyDict.mem_keys_iff, PyDict.mem_keys_iff]; simp only [hstates i]))
    rw [hk] at g3 g4
  · exact h3.same g3 hedges
  · exact h4.same g4 hstates
  · rw [h5, g5]; exact hint

/-- Non-trivial instance: the same transition with its edges and states in another order. -/
example : ∃ u : Transition QObj QNode, u ≠ exTransition .none .none ∧ Valid u ∧
    Same (exTransition .none .none) u := by
  refine ⟨⟨⟨[0, 1], (exTransition .none .none).topology.edges.reverse⟩,
    (exTransition .none .none).states.reverse, (exTransition .none .none).interactions⟩, ?_, ?_, ?_⟩
  · intro h
    have := congrArg (fun t => PyDict.keys t.states) h
    revert this
    decide
  · have hv := (exTransition_threeBody .none .none).valid
    constructor
    · simpa [PyDict.keys, List.map_reverse] using hv.edges
    · simpa [PyDict.keys, List.map_reverse] using hv.states
    · exact hv.interactions
    · intro i
      have := hv.sameEdges i
      simpa [PyDict.keys] using this
    · exact hv.sameNodes
  · have hv := (exTransition_threeBody .none .none).valid
    refine ⟨⟨rfl, fun k => ?_⟩, fun k => ?_, fun k => rfl⟩
    · apply Option.ext
      intro v
      rw [← PyDict.mem_iff_get? hv.edges, ← PyDict.mem_iff_get? (by
        simpa [PyDict.keys, List.map_reverse] using hv.edges)]
      simp
    · apply Option.ext
      intro v
      rw [← PyDict.mem_iff_get? hv.states, ← PyDict.mem_iff_get? (by
        simpa [PyDict.keys, List.map_reverse] using hv.states)]
      simp

/-! ### C44 -/

/-- C44: for a transition with one initial, three final and one intermediate ID, the normalised IDs
are `{0}`, `{1, 2, 3}` and `{4}` if and only if the initial ID is smaller than the final ones and
those are smaller than the intermediate one. -/
theorem C44_normalised_ids (t : Topology) (hn : (PyDict.keys t.edges).Nodup) (a b c d r : ℤ)
    (hids : (PyDict.keys t.edges).Perm [a, b, c, d, r])
    (hinc : t.incoming = [a]) (hout : t.outgoing = [b, c, d]) (hint : t.intermediate = [r]) :
    ((normalizeTopology t).incoming = [0] ∧ (normalizeTopology t).outgoing = [1, 2, 3] ∧
      (normalizeTopology t).intermediate = [4]) ↔
    (∀ f ∈ t.outgoing, a < f ∧ f < r) := by
  have h1 : (normalizeTopology t).incoming = t.incoming.map (rank (PyDict.keys t.edges)) :=
    select_normalize t hn (fun e => e.orig.isNone)
  have h2 : (normalizeTopology t).outgoing = t.outgoing.map (rank (PyDict.keys t.edges)) :=
    select_normalize t hn (fun e => e.dest.isNone)
  have h3 : (normalizeTopology t).intermediate = t.intermediate.map (rank (PyDict.keys t.edges)) :=
    select_normalize t hn (fun e => e.orig.isSome && e.dest.isSome)
  have hmem : ∀ x, x ∈ PyDict.keys t.edges ↔ x ∈ [a, b, c, d, r] := fun x => hids.mem_iff
  have hsorted : [b, c, d].Pairwise (· < ·) := by
    rw [← hout]; exact sortedSet_pairwise _
  have hnod : [a, b, c, d, r].Nodup := hids.nodup_iff.1 hn
  rw [h1, h2, h3, hinc, hout, hint, funext (rank_congr hmem)]
  simp only [List.map_cons, List.map_nil, List.cons.injEq, and_true]
  simp only [List.pairwise_cons, List.mem_cons, List.not_mem_nil, or_false, forall_eq_or_imp,
    forall_eq, IsEmpty.forall_iff, implies_true, and_true, List.Pairwise.nil] at hsorted
  obtain ⟨⟨hbc, hbd⟩, hcd⟩ := hsorted
  constructor
  · rintro ⟨ha, ⟨hb, hc, hd⟩, hr⟩ f hf
    have hfm : f ∈ [a, b, c, d, r] := by
      simp only [List.mem_cons, List.not_mem_nil, or_false] at hf ⊢
      tauto
    have hfr : rank [a, b, c, d, r] f = 1 ∨ rank [a, b, c, d, r] f = 2 ∨
        rank [a, b, c, d, r] f = 3 := by
      simp only [List.mem_cons, List.not_mem_nil, or_false] at hf
      rcases hf with rfl | rfl | rfl <;> tauto
    constructor
    · exact lt_of_rank_lt hfm (by rw [ha]; omega)
    · exact lt_of_rank_lt (ids := [a, b, c, d, r]) (by simp) (by rw [hr]; omega)
  · intro h
    obtain ⟨h1, h2⟩ := h b (by simp)
    obtain ⟨h3, h4⟩ := h c (by simp)
    obtain ⟨h5, h6⟩ := h d (by simp)
    have har : a < r := lt_trans h1 h2
    unfold rank
    rw [hnod.dedup]
    simp only [List.filter_cons, List.filter_nil, lt_irrefl, decide_false, h1, h2, h3, h4, h5, h6,
      har, hbc, hbd, hcd, not_lt_of_gt h1, not_lt_of_gt h2, not_lt_of_gt h3, not_lt_of_gt h4,
      not_lt_of_gt h5, not_lt_of_gt h6, not_lt_of_gt har, not_lt_of_gt hbc, not_lt_of_gt hbd,
      not_lt_of_gt hcd, decide_true, Bool.false_eq_true, if_false, if_true, List.length_nil,
      List.length_cons]
    norm_num

/-- QRules' own IDs -1 / 0, 1, 2 / 3 satisfy the condition. -/
example : ∀ f ∈ [0, 1, 2], (-1 : ℤ) < f ∧ f < 3 := by decide
example : (exTopology (-1) 0 3 1 2).incoming = [-1] ∧ (exTopology (-1) 0 3 1 2).outgoing = [0, 1, 2]
    ∧ (exTopology (-1) 0 3 1 2).intermediate = [3] :=
  ⟨sortedSet_of_sorted (by decide), sortedSet_of_sorted (by decide), sortedSet_of_sorted (by decide)⟩

/-! ### C50 -/

/-- C50: the attributes of a converted particle are those of the original; the LaTeX representation
falls back to the name. -/
theorem C50_particle_values (o : QObj) (q : Particle) (h : toParticle o = .ok q) :
    ∃ p, o.attrs = some p ∧ q.name = p.name ∧ q.latex = p.latex.getD p.name ∧ q.spin = p.spin ∧
      q.parity = p.parity ∧ p.parity ≠ none ∧ q.mass = p.mass ∧ q.width = p.width := by
  unfold toParticle at h
  cases ho : o.attrs with
  | none => rw [ho] at h; cases h
  | some p =>
    rw [ho] at h
    simp only [bind, Except.bind] at h
    cases hp : p.parity with
    | none => rw [hp] at h; cases h
    | some x =>
      rw [hp] at h
      simp only [intParity, Particle.new, bind, Except.bind] at h
      cases hs : Spin.assertSpinValue p.spin with
      | error e => rw [hs] at h; cases h
      | ok u =>
        rw [hs] at h
        simp only [pure, Except.pure] at h
        injection h with h
        subst h
        exact ⟨p, rfl, rfl, rfl, rfl, hp.symm, by rw [hp]; simp, rfl, rfl⟩

/-- C50: the same for states; a `State` keeps its own index, other objects get the given one. -/
theorem C50_state_values (o : QObj) (index : Option ℤ) (q : State) (h : toState o index = .ok q) :
    ∃ p, o.attrs = some p ∧ q.name = p.name ∧ q.latex = p.latex.getD p.name ∧ q.spin = p.spin ∧
      q.parity = p.parity ∧ p.parity ≠ none ∧ q.mass = p.mass ∧ q.width = p.width ∧
      ((∃ s, o = .dpd (.state s) ∧ q.index = s.index) ∨
        ((∀ s, o ≠ .dpd (.state s)) ∧ index = some q.index)) := by
  unfold toState at h
  have key : ∀ idx : Option ℤ, (match idx with
      | none => (.error .valueError : Py State)
      | some index =>
        match o.attrs with
        | none => .error .notImplementedError
        | some p => do
          let parity ← intParity p.parity
          State.new p.name (p.latex.getD p.name) p.spin (some parity) p.mass p.width index) = .ok q →
      ∃ p, o.attrs = some p ∧ q.name = p.name ∧ q.latex = p.latex.getD p.name ∧ q.spin = p.spin ∧
      q.parity = p.parity ∧ p.parity ≠ none ∧ q.mass = p.mass ∧ q.width = p.width ∧
      idx = some q.index := by
    intro idx h
    cases idx with
    | none => cases h
    | some idx =>
      cases ho : o.attrs with
      | none => rw [ho] at h; cases h
      | some p =>
        rw [ho] at h
        simp only [bind, Except.bind] at h
        cases hp : p.parity with
        | none => rw [hp] at h; cases h
        | some x =>
          rw [hp] at h
          simp only [intParity, State.new, bind, Except.bind] at h
          cases hs : Spin.assertSpinValue p.spin with
          | error e => rw [hs] at h; cases h
          | ok u =>
            rw [hs] at h
            simp only [pure, Except.pure] at h
            injection h with h
            subst h
            exact ⟨p, rfl, rfl, rfl, rfl, hp.symm, by rw [hp]; simp, rfl, rfl, rfl⟩
  obtain ⟨p, h1, h2, h3, h4, h5, h6, h7, h8, h9⟩ := key _ h
  refine ⟨p, h1, h2, h3, h4, h5, h6, h7, h8, ?_⟩
  cases o with
  | particle p => exact .inr ⟨fun s => by simp, h9⟩
  | state p m => exact .inr ⟨fun s => by simp, h9⟩
  | other => exact .inr ⟨fun s => by simp, h9⟩
  | dpd o =>
    cases o with
    | particle p => exact .inr ⟨fun s => by simp, h9⟩
    | state s => exact .inl ⟨s, rfl, (Option.some.inj h9).symm⟩

/-- C50: for an object that has the attributes of a particle, the outcome of the conversion is
decided by parity and spin: `TypeError` if and only if the parity is undefined, otherwise
`ValueError` if and only if the spin is not a multiple of one half. -/
theorem C50_outcome (o : QObj) (p : QParticle) (ho : o.attrs = some p) (index : ℤ) :
    (toParticle o = .error .typeError ↔ p.parity = none) ∧
    (toState o (some index) = .error .typeError ↔ p.parity = none) ∧
    (toParticle o = .error .valueError ↔ p.parity ≠ none ∧ ¬ IsHalfInteger p.spin) ∧
    (toState o (some index) = .error .valueError ↔ p.parity ≠ none ∧ ¬ IsHalfInteger p.spin) ∧
    ((∃ q, toParticle o = .ok q) ↔ p.parity ≠ none ∧ IsHalfInteger p.spin) ∧
    ((∃ q, toState o (some index) = .ok q) ↔ p.parity ≠ none ∧ IsHalfInteger p.spin) := by
  have hs : ∃ i, o.indexOr (some index) = some i := by
    unfold QObj.indexOr
    split <;> exact ⟨_, rfl⟩
  obtain ⟨i, hi⟩ := hs
  unfold toParticle toState
  simp only [hi, ho]
  have hspin := (Spin.C07_spin_validation p.spin).1
  cases hp : p.parity with
  | none => simp [intParity, bind, Except.bind]
  | some x =>
    simp only [intParity, bind, Except.bind, Particle.new, State.new]
    cases ha : Spin.assertSpinValue p.spin with
    | error e =>
      have he : e = .valueError := by
        unfold Spin.assertSpinValue at ha
        split at ha
        · cases ha
        · injection ha with ha; exact ha.symm
      rw [ha] at hspin
      have hspin' : ¬ IsHalfInteger p.spin := fun h => by
        have := hspin.2 h; cases this
      subst he
      simp [hspin']
    | ok u =>
      have hspin' : IsHalfInteger p.spin := hspin.1 ha
      simp [hspin', pure, Except.pure]

/-- Non-trivial instances: a particle without parity, one without LaTeX. -/
example : toParticle (.particle (exQ "e-" (1 / 2) none)) = .error .typeError :=
  (C50_outcome _ _ rfl 0).1.2 rfl
example : ∃ q, toParticle (.particle (exQ "N" (3 / 2) (some (-1)))) = .ok q :=
  (C50_outcome _ _ rfl 0).2.2.2.2.1.2 ⟨by simp [exQ], 3, by norm_num [exQ]⟩

/-! ### C45 -/

theorem same_iff_tkey (a b : Transition Obj (Option LS)) : Same a b ↔ tkey a = tkey b := by
  unfold Same SameTopology SameDict
  rw [tkey_inj, topologyKey_inj, dictItems_eq_iff, dictItems_eq_iff, dictItems_eq_iff]

theorem tcomparable_congr {a a' b b' : Transition Obj (Option LS)} (ha : tkey a = tkey a')
    (hb : tkey b = tkey b') : tcomparable a b = tcomparable a' b' := by
  rw [tkey_inj] at ha hb
  obtain ⟨h1, h2, h3⟩ := ha
  obtain ⟨g1, g2, g3⟩ := hb
  have h1' := topologyKey_inj.1 h1
  have g1' := topologyKey_inj.1 g1
  unfold tcomparable Topology.comparable
  rw [h1, h2, h3, g1, g2, g3, h1'.1, h1'.2, g1'.1, g1'.2]

/-- C45: if `convert_transitions` returns, the result is sorted strictly (so it has no duplicates),
it consists of converted transitions, and it contains each of them exactly once up to `==`. -/
theorem C45_result (ts : List (Transition QObj QNode)) (rs : List (Transition Obj (Option LS)))
    (h : convertTransitions ts = .ok rs) :
    rs.Pairwise (fun a b => tkey a < tkey b) ∧
    rs.Pairwise (fun a b => ¬ Same a b) ∧
    (∀ r ∈ rs, ∃ t ∈ ts, convertTransition t = .ok r) ∧
    (∀ t ∈ ts, ∃ c, convertTransition t = .ok c ∧ ∃ r ∈ rs, Same r c) := by
  unfold convertTransitions at h
  cases hm : ts.mapM convertTransition with
  | error e => rw [hm] at h; cases h
  | ok cs =>
    rw [hm] at h
    simp only [bind, Except.bind] at h
    rw [mapM_ok_iff] at hm
    obtain ⟨hp, hs, -⟩ := pySorted_ok h
    have hn : (rs.map tkey).Nodup := ((hp.map tkey).nodup_iff).2 (pySet_nodup tkey cs)
    have hlt := sorted_strict hs hn
    rw [List.pairwise_map] at hlt
    refine ⟨hlt, hlt.imp (fun h hh => ?_), fun r hr => ?_, fun t ht => ?_⟩
    · rw [same_iff_tkey] at hh
      exact absurd hh (ne_of_lt h)
    · have := pySet_sub (hp.mem_iff.1 hr)
      clear * - this hm
      induction hm with
      | nil => cases this
      | cons h1 _ ih =>
        rcases List.mem_cons.1 this with rfl | h
        · exact ⟨_, List.mem_cons_self .., h1⟩
        · obtain ⟨t, ht, h2⟩ := ih h
          exact ⟨t, List.mem_cons_of_mem _ ht, h2⟩
    · have hc : ∃ c ∈ cs, convertTransition t = .ok c := by
        clear * - ht hm
        induction hm with
        | nil => cases ht
        | cons h1 _ ih =>
          rcases List.mem_cons.1 ht with rfl | h
          · exact ⟨_, List.mem_cons_self .., h1⟩
          · obtain ⟨t, ht, h2⟩ := ih h
            exact ⟨t, List.mem_cons_of_mem _ ht, h2⟩
      obtain ⟨c, hc, hc'⟩ := hc
      refine ⟨c, hc', ?_⟩
      have hk : tkey c ∈ (pySet tkey cs).map tkey := (pySet_keys tkey cs _).2 (List.mem_map.2 ⟨c, hc, rfl⟩)
      have hk' : tkey c ∈ rs.map tkey := (hp.map tkey).mem_iff.2 hk
      obtain ⟨r, hr, hr'⟩ := List.mem_map.1 hk'
      exact ⟨r, hr, (same_iff_tkey r c).2 hr'⟩

/-- C45: the result depends only on the set of converted transitions: if two lists of transitions have
the same converted transitions (up to `==`), in whatever order and multiplicity, then the
results are equal element by element, or both calls raise `TypeError`. -/
theorem C45_depends_on_set (ts ts' : List (Transition QObj QNode))
    (cs cs' : List (Transition Obj (Option LS)))
    (h : List.Forall₂ (fun t c => convertTransition t = .ok c) ts cs)
    (h' : List.Forall₂ (fun t c => convertTransition t = .ok c) ts' cs')
    (hsub : ∀ c ∈ cs, ∃ c' ∈ cs', Same c c') (hsub' : ∀ c' ∈ cs', ∃ c ∈ cs, Same c c') :
    (∃ rs rs', convertTransitions ts = .ok rs ∧ convertTransitions ts' = .ok rs' ∧
      List.Forall₂ Same rs rs') ∨
    (convertTransitions ts = .error .typeError ∧ convertTransitions ts' = .error .typeError) := by
  have e : convertTransitions ts = pySorted tkey tcomparable (pySet tkey cs) := by
    unfold convertTransitions
    rw [(mapM_ok_iff _ _ _).2 h]
    rfl
  have e' : convertTransitions ts' = pySorted tkey tcomparable (pySet tkey cs') := by
    unfold convertTransitions
    rw [(mapM_ok_iff _ _ _).2 h']
    rfl
  have hkeys : ∀ k, k ∈ (pySet tkey cs).map tkey ↔ k ∈ (pySet tkey cs').map tkey := by
    intro k
    rw [pySet_keys, pySet_keys, List.mem_map, List.mem_map]
    constructor
    · rintro ⟨c, hc, rfl⟩
      obtain ⟨c', hc', hs⟩ := hsub c hc
      exact ⟨c', hc', ((same_iff_tkey _ _).1 hs).symm⟩
    · rintro ⟨c', hc', rfl⟩
      obtain ⟨c, hc, hs⟩ := hsub' c' hc'
      exact ⟨c, hc, (same_iff_tkey _ _).1 hs⟩
  have htrans : ∀ x ∈ pySet tkey cs', ∃ y ∈ pySet tkey cs, tkey x = tkey y := by
    intro x hx
    obtain ⟨y, hy, hk⟩ := List.mem_map.1 ((hkeys (tkey x)).2 (List.mem_map.2 ⟨x, hx, rfl⟩))
    exact ⟨y, hy, hk.symm⟩
  have htrans' : ∀ x ∈ pySet tkey cs, ∃ y ∈ pySet tkey cs', tkey x = tkey y := by
    intro x hx
    obtain ⟨y, hy, hk⟩ := List.mem_map.1 ((hkeys (tkey x)).1 (List.mem_map.2 ⟨x, hx, rfl⟩))
    exact ⟨y, hy, hk.symm⟩
  rw [e, e']
  cases hr : pySorted tkey tcomparable (pySet tkey cs) with
  | error err =>
    obtain ⟨he, a, ha, b, hb, hab⟩ := pySorted_err hr
    right
    refine ⟨by rw [he], ?_⟩
    cases hr' : pySorted tkey tcomparable (pySet tkey cs') with
    | error err' => rw [(pySorted_err hr').1]
    | ok rs' =>
      exfalso
      obtain ⟨a', ha', hka⟩ := htrans' a ha
      obtain ⟨b', hb', hkb⟩ := htrans' b hb
      have := (pySorted_ok hr').2.2 a' ha' b' hb'
      rw [← tcomparable_congr hka hkb, hab] at this
      cases this
  | ok rs =>
    left
    obtain ⟨hp, hs, hc⟩ := pySorted_ok hr
    obtain ⟨rs', hr'⟩ := pySorted_eq (key := tkey) (c := tcomparable) (l := pySet tkey cs')
      (fun a ha b hb => by
        obtain ⟨a', ha', hka⟩ := htrans a ha
        obtain ⟨b', hb', hkb⟩ := htrans b hb
        rw [tcomparable_congr hka hkb]
        exact hc a' ha' b' hb')
    obtain ⟨hp', hs', -⟩ := pySorted_ok hr'
    refine ⟨rs, rs', rfl, hr', ?_⟩
    have h1 := sorted_strict hs (((hp.map tkey).nodup_iff).2 (pySet_nodup tkey cs))
    have h2 := sorted_strict hs' (((hp'.map tkey).nodup_iff).2 (pySet_nodup tkey cs'))
    have h3 : rs.map tkey = rs'.map tkey := sorted_keys_unique h1 h2 (fun k => by
      rw [(hp.map tkey).mem_iff, (hp'.map tkey).mem_iff, hkeys])
    clear * - h3
    induction rs generalizing rs' with
    | nil => cases rs' with
      | nil => exact .nil
      | cons => cases h3
    | cons r rs ih => cases rs' with
      | nil => cases h3
      | cons r' rs' =>
        simp only [List.map_cons, List.cons.injEq] at h3
        exact .cons ((same_iff_tkey _ _).2 h3.1) (ih rs' h3.2)

end Verif.Qrules
