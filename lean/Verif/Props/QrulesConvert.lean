import Verif.Proofs.QrulesConvert

/-!
Property C45, continued: when `convert_transitions` returns.
-/
namespace Verif.Qrules
open Verif Verif.ThreeBody Verif.Spec

theorem mem_incoming {t : Topology} (hn : (PyDict.keys t.edges).Nodup) {k : ℤ} {e : Edge}
    (h : PyDict.get? t.edges k = some e) : k ∈ t.incoming ↔ e.orig = none := by
  unfold Topology.incoming
  rw [sortedSet_mem]
  simp only [PyDict.keys, List.mem_map, List.mem_filter]
  constructor
  · rintro ⟨⟨k', e'⟩, ⟨hx, he⟩, rfl⟩
    rw [PyDict.get?_of_mem hn hx] at h
    injection h with h
    subst h
    simpa using he
  · intro he
    exact ⟨(k, e), ⟨PyDict.mem_of_get? h, by simp [he]⟩, rfl⟩

theorem mem_outgoing {t : Topology} (hn : (PyDict.keys t.edges).Nodup) {k : ℤ} {e : Edge}
    (h : PyDict.get? t.edges k = some e) : k ∈ t.outgoing ↔ e.dest = none := by
  unfold Topology.outgoing
  rw [sortedSet_mem]
  simp only [PyDict.keys, List.mem_map, List.mem_filter]
  constructor
  · rintro ⟨⟨k', e'⟩, ⟨hx, he⟩, rfl⟩
    rw [PyDict.get?_of_mem hn hx] at h
    injection h with h
    subst h
    simpa using he
  · intro he
    exact ⟨(k, e), ⟨PyDict.mem_of_get? h, by simp [he]⟩, rfl⟩

theorem isSome_eq_of_none_iff {α β : Type} {a : Option α} {b : Option β} (h : a = none ↔ b = none) :
    a.isSome = b.isSome := by
  cases a <;> cases b <;> simp at h ⊢

/-- C45: `convert_transitions` returns for transitions that agree on which IDs are initial, final and
intermediate and on which nodes have an LS coupling, if each of them can be converted. -/
theorem C45_returns (ts : List (Transition QObj QNode)) (cs : List (Transition Obj (Option LS)))
    (hv : ∀ t ∈ ts, Valid t)
    (h : List.Forall₂ (fun t c => convertTransition t = .ok c) ts cs)
    (hids : ∀ t ∈ ts, ∀ u ∈ ts, t.topology.incoming = u.topology.incoming ∧
      t.topology.outgoing = u.topology.outgoing ∧ t.topology.intermediate = u.topology.intermediate)
    (hls : ∀ c ∈ cs, ∀ d ∈ cs, ∀ n x y, PyDict.get? c.interactions n = some x →
      PyDict.get? d.interactions n = some y → (x = none ↔ y = none)) :
    ∃ rs, convertTransitions ts = .ok rs := by
  unfold convertTransitions
  rw [(mapM_ok_iff _ _ _).2 h]
  refine pySorted_eq fun c hc d hd => ?_
  have hc := pySet_sub hc
  have hd := pySet_sub hd
  obtain ⟨t, ht, htc⟩ := forall₂_mem_right h hc
  obtain ⟨u, hu, hud⟩ := forall₂_mem_right h hd
  obtain ⟨hi, ho, hm⟩ := hids t ht u hu
  obtain ⟨h1, h2, h3, -, -⟩ := convertTransition_ok htc
  obtain ⟨g1, g2, g3, -, -⟩ := convertTransition_ok hud
  unfold tcomparable
  split
  · unfold Topology.comparable
    split
    · rfl
    · apply listComparable_of
      intro k e e' he he'
      rw [mem_dictItems, h1] at he
      rw [mem_dictItems, g1] at he'
      have a1 := mem_incoming (hv t ht).edges he
      have a2 := mem_incoming (hv u hu).edges he'
      have b1 := mem_outgoing (hv t ht).edges he
      have b2 := mem_outgoing (hv u hu).edges he'
      rw [hi, a2] at a1
      rw [ho, b2] at b1
      unfold edgeComparable optComparable
      split
      · simp [isSome_eq_of_none_iff b1]
      · simp [isSome_eq_of_none_iff a1]
  · split
    · apply listComparable_of
      intro k o o' hx hx'
      rw [mem_dictItems] at hx hx'
      obtain ⟨x, -, hx1, hx2⟩ := forall₂_mem_right h2 (PyDict.mem_of_get? hx)
      obtain ⟨y, -, hy1, hy2⟩ := forall₂_mem_right g2 (PyDict.mem_of_get? hx')
      simp only at hx1 hx2 hy1 hy2
      rw [← hx1, hm] at hx2
      rw [← hy1] at hy2
      have hpar : ∀ (p q : Particle), p.parity ≠ none → q.parity ≠ none →
          particleComparable p q = true := by
        intro p q h1 h2
        unfold particleComparable optComparable
        rw [Bool.or_eq_true]
        right
        cases hp : p.parity <;> cases hq : q.parity <;> simp_all
      rcases hx2 with ⟨m1, p, hp, rfl⟩ | ⟨m1, p, hp, rfl⟩ <;>
        rcases hy2 with ⟨m2, q, hq, rfl⟩ | ⟨m2, q, hq, rfl⟩
      · obtain ⟨_, _, _, _, _, p1, p2, _⟩ := C50_particle_values _ _ hp
        obtain ⟨_, _, _, _, _, q1, q2, _⟩ := C50_particle_values _ _ hq
        exact hpar p q (by rw [p1]; exact p2) (by rw [q1]; exact q2)
      · exact absurd m1 m2
      · exact absurd m2 m1
      · obtain ⟨_, _, _, _, _, p1, p2, _⟩ := C50_state_values _ _ _ hp
        obtain ⟨_, _, _, _, _, q1, q2, _⟩ := C50_state_values _ _ _ hq
        exact hpar p.toParticle q.toParticle (by rw [p1]; exact p2) (by rw [q1]; exact q2)
    · apply listComparable_of
      intro k x y hx hx'
      rw [mem_dictItems] at hx hx'
      unfold optComparable
      simp [isSome_eq_of_none_iff (hls c hc d hd k x y hx hx')]

/-- C45, error case: two transitions that only differ in that one of them has an LS coupling at the
production node and the other has none cannot be sorted, so that the call raises
`TypeError`. -/
theorem C45_mixed_none_raises (ts : List (Transition QObj QNode))
    (cs : List (Transition Obj (Option LS)))
    (h : List.Forall₂ (fun t c => convertTransition t = .ok c) ts cs)
    (c d : Transition Obj (Option LS)) (hc : c ∈ cs) (hd : d ∈ cs) (x : LS) (y z : Option LS)
    (htop : c.topology = d.topology) (hst : c.states = d.states)
    (hci : c.interactions = [(0, none), (1, y)]) (hdi : d.interactions = [(0, some x), (1, z)]) :
    convertTransitions ts = .error .typeError := by
  unfold convertTransitions
  rw [(mapM_ok_iff _ _ _).2 h]
  simp only [bind, Except.bind]
  cases hr : pySorted tkey tcomparable (pySet tkey cs) with
  | error e => rw [(pySorted_err hr).1]
  | ok rs =>
    exfalso
    have hk : ∀ e ∈ cs, ∃ e' ∈ pySet tkey cs, tkey e = tkey e' := by
      intro e he
      obtain ⟨e', he', hk⟩ := List.mem_map.1 ((pySet_keys tkey cs (tkey e)).2 (List.mem_map.2 ⟨e, he, rfl⟩))
      exact ⟨e', he', hk.symm⟩
    obtain ⟨c', hc', hck⟩ := hk c hc
    obtain ⟨d', hd', hdk⟩ := hk d hd
    have := (pySorted_ok hr).2.2 c' hc' d' hd'
    rw [← tcomparable_congr hck hdk] at this
    unfold tcomparable at this
    rw [if_neg (by rw [htop]; simp), if_neg (by rw [hst]; simp)] at this
    have e1 : dictItems c.interactions = c.interactions :=
      dictItems_of_sorted (by rw [hci]; simp [PyDict.keys])
    have e2 : dictItems d.interactions = d.interactions :=
      dictItems_of_sorted (by rw [hdi]; simp [PyDict.keys])
    rw [e1, e2, hci, hdi] at this
    simp [listComparable, itemComparable, optComparable] at this

/-! ### Instances -/

theorem exTransition_intermediate (p d : QNode) : (exTransition p d).topology.intermediate = [3] :=
  sortedSet_of_sorted (l := [3]) (by decide)

/-- The states of the converted example transition. -/
def exObjs : PyDict ℤ Obj :=
  [(-1, .state ⟨⟨"J/psi", "J/psi", 1, some (-1), 1, 0⟩, -1⟩),
    (0, .state ⟨⟨"K0", "K0", 0, some (-1), 1, 0⟩, 0⟩),
    (1, .state ⟨⟨"Sigma+", "Sigma+", 1 / 2, some 1, 1, 0⟩, 1⟩),
    (2, .state ⟨⟨"p~", "p~", 1 / 2, some (-1), 1, 0⟩, 2⟩),
    (3, .particle ⟨"N", "N", 3 / 2, some (-1), 1, 0⟩)]

theorem halfInt_ok {s : ℚ} (h : IsHalfInteger s) : Spin.assertSpinValue s = .ok () :=
  (Spin.C07_spin_validation s).1.2 h

theorem exTransition_convert (p d : Option LS) :
    convertTransition (exTransition (p.elim .none .ls) (d.elim .none .ls))
      = .ok ⟨exTopology (-1) 0 3 1 2, exObjs, [(0, p), (1, d)]⟩ := by
  have s1 := halfInt_ok (s := 1) ⟨2, by norm_num⟩
  have s0 := halfInt_ok (s := 0) ⟨0, by norm_num⟩
  have sh := halfInt_ok (s := 1 / 2) ⟨1, by norm_num⟩
  have s3 := halfInt_ok (s := 3 / 2) ⟨3, by norm_num⟩
  apply convertTransition_eq (exTransition_threeBody _ _).valid
  · refine .cons ⟨rfl, .inr ⟨by rw [exTransition_intermediate]; decide, _, ?_, rfl⟩⟩
      (.cons ⟨rfl, .inr ⟨by rw [exTransition_intermediate]; decide, _, ?_, rfl⟩⟩
      (.cons ⟨rfl, .inr ⟨by rw [exTransition_intermediate]; decide, _, ?_, rfl⟩⟩
      (.cons ⟨rfl, .inr ⟨by rw [exTransition_intermediate]; decide, _, ?_, rfl⟩⟩
      (.cons ⟨rfl, .inl ⟨by rw [exTransition_intermediate]; decide, _, ?_, rfl⟩⟩ .nil))))
    all_goals
      simp only [toState, toParticle, QObj.indexOr, QObj.attrs, exQ, intParity, State.new,
        Particle.new, bind, Except.bind, s1, s0, sh, s3, Option.getD_none, pure, Except.pure]
  · refine .cons ⟨rfl, ?_⟩ (.cons ⟨rfl, ?_⟩ .nil)
    · cases p <;> rfl
    · cases d <;> rfl

/-- Both theorems have non-trivial instances: two transitions with different LS couplings can be
sorted, ... -/
example (x y z : LS) : ∃ rs, convertTransitions
    [exTransition (.ls x) (.ls z), exTransition (.ls y) (.ls z)] = .ok rs := by
  refine C45_returns _ _ ?_ (.cons (exTransition_convert (some x) (some z))
    (.cons (exTransition_convert (some y) (some z)) .nil)) ?_ ?_
  · intro t ht
    simp only [List.mem_cons, List.not_mem_nil, or_false] at ht
    rcases ht with rfl | rfl <;> exact (exTransition_threeBody _ _).valid
  · intro t ht u hu
    simp only [List.mem_cons, List.not_mem_nil, or_false] at ht hu
    rcases ht with rfl | rfl <;> rcases hu with rfl | rfl <;> exact ⟨rfl, rfl, rfl⟩
  · intro c hc d hd n a b ha hb
    have key : ∀ (x : LS) (a : Option LS),
        PyDict.get? [((0 : ℤ), some x), (1, some z)] n = some a → a ≠ none := by
      intro x a h
      have := PyDict.mem_of_get? h
      simp only [List.mem_cons, Prod.mk.injEq, List.not_mem_nil, or_false] at this
      rcases this with ⟨_, rfl⟩ | ⟨_, rfl⟩ <;> simp
    simp only [List.mem_cons, List.not_mem_nil, or_false] at hc hd
    have h1 : a ≠ none := by rcases hc with rfl | rfl <;> exact key _ _ ha
    have h2 : b ≠ none := by rcases hd with rfl | rfl <;> exact key _ _ hb
    simp [h1, h2]

/-- ... and two transitions of which only one has LS couplings cannot. -/
example (x z : LS) : convertTransitions [exTransition (.ls x) (.ls z), exTransition .none .none]
    = .error .typeError :=
  C45_mixed_none_raises _ _ (.cons (exTransition_convert (some x) (some z))
    (.cons (exTransition_convert none none) .nil)) _ _ (.tail _ (.head _)) (.head _) x none (some z)
    rfl rfl rfl rfl

end Verif.Qrules
