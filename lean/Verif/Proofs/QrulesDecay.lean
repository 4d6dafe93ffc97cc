import Verif.Proofs.QrulesMin
import Verif.Props.Decay
import Verif.Props.QrulesConvert

/-! Helpers for the properties of `to_three_body_decay`. -/
namespace Verif.Qrules
open Verif Verif.ThreeBody Verif.Spec

theorem mem_into {E N : Type} {t : Transition E N} (hv : Valid t) (n k : ℤ) :
    k ∈ t.topology.into n ↔ ∃ e, PyDict.get? t.topology.edges k = some e ∧ e.dest = some n := by
  unfold Topology.into
  rw [mem_select _ hv.edges (fun e => decide (e.dest = some n))]
  simp

theorem mem_intermediate {E N : Type} {t : Transition E N} (hv : Valid t) {k : ℤ} {e : Edge}
    (h : PyDict.get? t.topology.edges k = some e) :
    k ∈ t.topology.intermediate ↔ e.orig.isSome ∧ e.dest.isSome := by
  unfold Topology.intermediate
  rw [mem_select _ hv.edges (fun e => e.orig.isSome && e.dest.isSome)]
  simp [h]

/-- Intermediate states are `Particle`s, the others `State`s. -/
def Typed (t : Transition Obj (Option LS)) : Prop :=
  ∀ k o, PyDict.get? t.states k = some o →
    ((∃ p, o = .particle p) ↔ k ∈ t.topology.intermediate)

theorem pairwise_two {l : List ℤ} (h : l.Pairwise (· < ·)) (hm : ∀ i, i ∈ l ↔ i ∈ [0, 1]) :
    l = [0, 1] := by
  have h1 : sortedSet l = l := sortedSet_of_sorted h
  have h2 : sortedSet [0, 1] = [0, 1] := sortedSet_of_sorted (by decide)
  rw [← h1, ← h2]
  exact sortedSet_ext hm

theorem get?_of_keys {α : Type} {d : PyDict ℤ α} {k : ℤ} (h : k ∈ PyDict.keys d) :
    ∃ v, PyDict.get? d k = some v := by
  cases hg : PyDict.get? d k with
  | none => exact absurd h (PyDict.get?_eq_none.1 hg)
  | some v => exact ⟨v, rfl⟩

theorem keys_of_get? {α : Type} {d : PyDict ℤ α} {k : ℤ} {v : α} (h : PyDict.get? d k = some v) :
    k ∈ PyDict.keys d := by
  by_contra hn
  rw [PyDict.get?_eq_none.2 hn] at h
  cases h

/-- What `_to_decay_chain` needs in order to return. -/
theorem toDecayChain_data {t : Transition Obj (Option LS)} {c : Chain} (h : toDecayChain t = .ok c) :
    ∃ a p rest0 x y i j r rest n0 n1 pr de, t.initialStates = .ok ((a, p) :: rest0) ∧ rest0 = [] ∧
      t.topology.outgoing.length = 3 ∧
      t.topology.outOf 0 = [x, y] ∧ t.topology.outOf 1 = [i, j] ∧ t.topology.into 1 = r :: rest ∧
      t.interactions = [(n0, pr), (n1, de)] ∧ ∃ R c1 c2 s, PyDict.get? t.states r = some R ∧
      PyDict.get? t.states i = some c1 ∧ PyDict.get? t.states j = some c2 ∧
      PyDict.get? t.states x = some s ∧
      Chain.new (.isobar p (.isobar R (.leaf c1) (.leaf c2) de) (.leaf s) pr) = .ok c := by
  unfold toDecayChain at h
  cases hi : t.initialStates with
  | error e => rw [hi] at h; cases h
  | ok ini =>
    rw [hi] at h
    simp only [bind, Except.bind] at h
    split at h
    · cases h
    rename_i hl
    cases hf : t.finalStates with
    | error e => rw [hf] at h; cases h
    | ok fin =>
      rw [hf] at h
      simp only at h
      split at h
      · cases h
      rename_i hl3
      split at h
      · cases h
      split at h
      · rename_i a parent rest0 x y i j r rest n0 pr n1 de h0 h1 h2 h3 
        obtain ⟨R, hR⟩ : ∃ R, PyDict.get? t.states r = some R := by
          cases hh : PyDict.get? t.states r with
          | none => simp [PyDict.get, hh] at h
          | some R => exact ⟨R, rfl⟩
        obtain ⟨c1, hc1⟩ : ∃ R, PyDict.get? t.states i = some R := by
          cases hh : PyDict.get? t.states i with
          | none => simp [PyDict.get, hR, hh] at h
          | some R => exact ⟨R, rfl⟩
        obtain ⟨c2, hc2⟩ : ∃ R, PyDict.get? t.states j = some R := by
          cases hh : PyDict.get? t.states j with
          | none => simp [PyDict.get, hR, hc1, hh] at h
          | some R => exact ⟨R, rfl⟩
        obtain ⟨s, hs⟩ : ∃ R, PyDict.get? t.states x = some R := by
          cases hh : PyDict.get? t.states x with
          | none => simp [PyDict.get, hR, hc1, hc2, hh] at h
          | some R => exact ⟨R, rfl⟩
        simp only [PyDict.get, hR, hc1, hc2, hs] at h
        refine ⟨a, parent, rest0, x, y, i, j, r, rest, n0, n1, pr, de, rfl, ?_, ?_, h0, h1, h2, h3,
          R, c1, c2, s, hR, hc1, hc2, hs, h⟩
        · simpa using hl
        · have := filterStates_keys hf
          rw [← this]
          simpa [PyDict.keys] using hl3
      · cases h

theorem isState_of {t : Transition Obj (Option LS)} (ht : Typed t) {k : ℤ} {s : State}
    (h : PyDict.get? t.states k = some (.state s)) : k ∉ t.topology.intermediate := by
  intro hk
  obtain ⟨p, hp⟩ := (ht k _ h).2 hk
  cases hp

theorem toDecayChain_isChainOf {t : Transition Obj (Option LS)} {c : Chain} (hw : WellFormed t)
    (ht : Typed t) (hk : PyDict.keys t.interactions = [0, 1]) (h : toDecayChain t = .ok c) :
    IsChainOf t c := by
  obtain ⟨a, p, rest0, x, y, i, j, r, rest, n0, n1, pr, de, hini, rfl, hfin, h0, h1, hr, hint, R, c1,
    c2, s, hR, hc1, hc2, hs, hnew⟩ := toDecayChain_data h
  have hv := hw.valid
  obtain ⟨⟨⟨d1, d2, hd1, hd2, hshape⟩, hids⟩, -⟩ := (C16_chain_constructor _ c).1 hnew
  have hnodes : t.topology.nodes = [0, 1] :=
    pairwise_two hw.nodes (fun k => by rw [hv.sameNodes, hk])
  -- the objects
  have hobj : p = .state c.parent ∧ R = c.resonance ∧ c1 = .state c.product1 ∧
      c2 = .state c.product2 ∧ s = .state c.spectator ∧ pr = c.incomingLs ∧ de = c.outgoingLs := by
    rcases hshape with hshape | hshape
    · injection hshape with e1 e2 e3 e4
      injection e2 with f1 f2 f3 f4
      injection e3 with e3
      subst f2 f3
      rw [standsFor_iff] at hd1 hd2
      exact ⟨e1, f1, hd1, hd2, e3, e4, f4⟩
    · cases hshape
  obtain ⟨rfl, rfl, rfl, rfl, rfl, rfl, rfl⟩ := hobj
  -- the edges
  have hinc : t.topology.incoming = [a] := by
    have := filterStates_keys hini
    simpa [PyDict.keys] using this.symm
  have hga : PyDict.get? t.states a = some (.state c.parent) := by
    have := filterStates_ok hini
    rw [hinc] at this
    cases this with
    | cons h _ => exact h.2
  have edge : ∀ k, k ∈ PyDict.keys t.states → ∃ e, PyDict.get? t.topology.edges k = some e :=
    fun k hk => get?_of_keys ((hv.sameEdges k).2 hk)
  obtain ⟨ea, hea⟩ := edge a (keys_of_get? hga)
  have hoa : ea.orig = none := (mem_incoming hv.edges hea).1 (by rw [hinc]; simp)
  obtain ⟨ex, hex, hox⟩ := (mem_outOf hv 0 x).1 (by rw [h0]; simp)
  obtain ⟨ey, hey, hoy⟩ := (mem_outOf hv 0 y).1 (by rw [h0]; simp)
  obtain ⟨ei, hei, hoi⟩ := (mem_outOf hv 1 i).1 (by rw [h1]; simp)
  obtain ⟨ej, hej, hoj⟩ := (mem_outOf hv 1 j).1 (by rw [h1]; simp)
  have hdest : ∀ k e n s, PyDict.get? t.topology.edges k = some e → e.orig = some n →
      PyDict.get? t.states k = some (.state s) → e = ⟨some n, none⟩ := by
    intro k e n s he ho hs
    have := isState_of ht hs
    rw [mem_intermediate hv he, ho] at this
    obtain ⟨o, d⟩ := e
    simp only at ho
    subst ho
    cases d with
    | none => rfl
    | some d => simp at this
  have hxe := hdest x ex 0 _ hex hox hs
  have hie := hdest i ei 1 _ hei hoi hc1
  have hje := hdest j ej 1 _ hej hoj hc2
  subst hxe hie hje
  have hxy : x < y := by
    have := sortedSet_pairwise (PyDict.keys (t.topology.edges.filter fun x => x.2.orig = some 0))
    rw [show sortedSet _ = [x, y] from h0] at this
    simpa using this
  have hij : i < j := by
    have := sortedSet_pairwise (PyDict.keys (t.topology.edges.filter fun x => x.2.orig = some 1))
    rw [show sortedSet _ = [i, j] from h1] at this
    simpa using this
  have hxi : x ≠ i := by rintro rfl; rw [hex] at hei; cases hei
  have hxj : x ≠ j := by rintro rfl; rw [hex] at hej; cases hej
  -- the final states are `x`, `i` and `j`
  have hout : ∀ k, k ∈ t.topology.outgoing ↔ k = x ∨ k = i ∨ k = j := by
    have hsub : [x, i, j] ⊆ t.topology.outgoing := by
      intro k hk
      simp only [List.mem_cons, List.not_mem_nil, or_false] at hk
      rcases hk with rfl | rfl | rfl
      · exact (mem_outgoing hv.edges hex).2 rfl
      · exact (mem_outgoing hv.edges hei).2 rfl
      · exact (mem_outgoing hv.edges hej).2 rfl
    have hnd : [x, i, j].Nodup := by
      simp [hxi, hxj, ne_of_lt hij]
    have hsp : [x, i, j].Subperm t.topology.outgoing := hnd.subperm hsub
    have hp := hsp.perm_of_length_le (by rw [hfin]; simp)
    intro k
    rw [← hp.mem_iff]
    simp
  have hdy : ey.dest ≠ none := by
    intro hd
    have := (hout y).1 ((mem_outgoing hv.edges hey).2 hd)
    rcases this with rfl | rfl | rfl
    · exact lt_irrefl _ hxy
    · rw [hei] at hey; cases hey; cases hoy
    · rw [hej] at hey; cases hey; cases hoy
  have hye : ey = ⟨some 0, some 1⟩ := by
    obtain ⟨o, d⟩ := ey
    simp only at hoy hdy
    subst hoy
    cases d with
    | none => exact absurd rfl hdy
    | some d =>
      have h2 := hw.destination y _ d hey rfl
      have h3 := hw.noLoop y _ 0 hey rfl
      rw [hnodes] at h2
      simp only [List.mem_cons, List.not_mem_nil, or_false] at h2
      rcases h2 with rfl | rfl
      · simp at h3
      · rfl
  subst hye
  -- all edges
  have hall : ∀ k e, PyDict.get? t.topology.edges k = some e → k = a ∨ k = x ∨ k = y ∨ k = i ∨ k = j := by
    intro k e he
    cases ho : e.orig with
    | none =>
      have := (mem_incoming hv.edges he).2 ho
      rw [hinc] at this
      simp at this
      exact .inl this
    | some n =>
      have hn := hw.origin k e n he ho
      rw [hnodes] at hn
      simp only [List.mem_cons, List.not_mem_nil, or_false] at hn
      rcases hn with rfl | rfl
      · have := (mem_outOf hv 0 k).2 ⟨e, he, ho⟩
        rw [h0] at this
        simp at this
        omega
      · have := (mem_outOf hv 1 k).2 ⟨e, he, ho⟩
        rw [h1] at this
        simp at this
        omega
  have hae : ea = ⟨none, some 0⟩ := by
    obtain ⟨k, e, he, hd⟩ := hw.entered 0 (by rw [hnodes]; simp)
    rcases hall k e he with rfl | rfl | rfl | rfl | rfl
    · rw [hea] at he
      injection he with he
      subst he
      obtain ⟨o, d⟩ := ea
      simp only at hoa hd
      rw [hoa, hd]
    · rw [hex] at he; cases he; cases hd
    · rw [hey] at he; cases he; cases hd
    · rw [hei] at he; cases he; cases hd
    · rw [hej] at he; cases he; cases hd
  subst hae
  have hra : r = y := by
    obtain ⟨e, he, hd⟩ := (mem_into hv 1 r).1 (by rw [hr]; simp)
    rcases hall r e he with rfl | rfl | rfl | rfl | rfl
    · rw [hea] at he; cases he; cases hd
    · rw [hex] at he; cases he; cases hd
    · rfl
    · rw [hei] at he; cases he; cases hd
    · rw [hej] at he; cases he; cases hd
  subst hra
  have hn01 : n0 = 0 ∧ n1 = 1 := by
    rw [hint] at hk
    simpa [PyDict.keys] using hk
  obtain ⟨rfl, rfl⟩ := hn01
  refine ⟨a, x, r, i, j, ?_, hga, hs, hR, hc1, hc2, by rw [hint]; rfl, by rw [hint]; rfl⟩
  have hne : ∀ k k' e e', PyDict.get? t.topology.edges k = some e →
      PyDict.get? t.topology.edges k' = some e' → e ≠ e' → k ≠ k' := by
    rintro k k' e e' he he' hne rfl
    rw [he] at he'
    injection he' with he'
    exact hne he'
  exact {
    valid := hv
    nodes := hnodes
    ids := fun k => ⟨fun hk => by
      obtain ⟨e, he⟩ := get?_of_keys hk
      exact hall k e he, fun hk => by
      rcases hk with rfl | rfl | rfl | rfl | rfl
      · exact keys_of_get? hea
      · exact keys_of_get? hex
      · exact keys_of_get? hey
      · exact keys_of_get? hei
      · exact keys_of_get? hej⟩
    distinct := by
      have e1 := hne _ _ _ _ hea hex (by decide)
      have e2 := hne _ _ _ _ hea hey (by decide)
      have e3 := hne _ _ _ _ hea hei (by decide)
      have e4 := hne _ _ _ _ hea hej (by decide)
      have e5 := hne _ _ _ _ hey hei (by decide)
      have e6 := hne _ _ _ _ hey hej (by decide)
      simp [e1, e2, e3, e4, e5, e6, ne_of_lt hxy, hxi, hxj, ne_of_lt hij]
    initial := hea
    spectator := hex
    resonance := hey
    product1 := hei
    product2 := hej
    order := hij }

/-! ### Filtering -/

theorem groupAppend_values {κ α : Type} [DecidableEq κ] (d : PyDict κ (List α)) (k : κ) (x : α)
    {k' : κ} {g : List α} (h : (k', g) ∈ groupAppend d k x) {y : α} (hy : y ∈ g) :
    y = x ∨ ∃ z ∈ d, y ∈ z.2 := by
  unfold groupAppend at h
  induction d with
  | nil =>
    simp only [PyDict.set, PyDict.get?, List.mem_cons, List.not_mem_nil, or_false] at h
    injection h with _ h
    subst h
    simp at hy
    exact .inl hy
  | cons z d ih =>
    obtain ⟨a, b⟩ := z
    unfold PyDict.set PyDict.get? at h
    split at h
    · rename_i he
      rcases List.mem_cons.1 h with h | h
      · injection h with _ h
        subst h
        simp only [Option.getD_some, List.mem_append, List.mem_cons, List.not_mem_nil, or_false] at hy
        rcases hy with hy | hy
        · exact .inr ⟨_, List.mem_cons_self .., hy⟩
        · exact .inl hy
      · exact .inr ⟨_, List.mem_cons_of_mem _ h, hy⟩
    · rename_i he
      rcases List.mem_cons.1 h with h | h
      · injection h with _ h
        subst h
        exact .inr ⟨_, List.mem_cons_self .., hy⟩
      · rcases ih h with h | ⟨z, hz, hy⟩
        · exact .inl h
        · exact .inr ⟨z, List.mem_cons_of_mem _ hz, hy⟩

theorem groupTransitions_values {E : Type} [DecidableEq E] {sel : List ℤ}
    {ts : List (Transition E (Option LS))} {d g : PyDict (GroupKey E) (List (Transition E (Option LS)))}
    (h : groupTransitions sel ts d = .ok g) {x} (hx : x ∈ g) {t} (ht : t ∈ x.2) :
    t ∈ ts ∨ ∃ z ∈ d, t ∈ z.2 := by
  induction ts generalizing d with
  | nil =>
    injection h with h
    subst h
    exact .inr ⟨x, hx, ht⟩
  | cons u ts ih =>
    unfold groupTransitions at h
    cases hk : groupKey sel u with
    | error e => rw [hk] at h; cases h
    | ok k =>
      rw [hk] at h
      simp only [bind, Except.bind] at h
      rcases ih h with h | ⟨z, hz, htz⟩
      · exact .inl (List.mem_cons_of_mem _ h)
      · obtain ⟨kz, gz⟩ := z
        rcases groupAppend_values _ _ _ hz htz with h | h
        · exact .inl (by rw [h]; exact List.mem_cons_self ..)
        · exact .inr h

theorem minTransition_from {E : Type} {sel : List ℤ} {g : List (Transition E (Option LS))}
    {r : Transition E (Option LS)} (h : minTransition sel g = .ok r) :
    ∃ t ∈ g, r.topology = t.topology ∧ r.states = t.states ∧
      PyDict.keys r.interactions = PyDict.keys t.interactions := by
  cases g with
  | nil => cases h
  | cons t0 g =>
    unfold minTransition at h
    cases hi : (t0.interactions.mapM fun x => do
        return (x.1, ← minInteraction sel (t0 :: g) x) : Py (PyDict ℤ (Option LS))) with
    | error e => simp only [hi] at h; cases h
    | ok ints =>
      simp only [hi] at h
      simp only [bind, Except.bind] at h
      obtain ⟨rfl, -, -⟩ := transition_new_ok h
      refine ⟨t0, List.mem_cons_self .., rfl, rfl, ?_⟩
      rw [mapM_ok_iff] at hi
      refine forall₂_map_eq hi ?_
      intro a b hab
      cases hm : minInteraction sel (t0 :: g) a with
      | error e => simp [hm, bind, Except.bind] at hab
      | ok w =>
        simp only [hm, bind, Except.bind, pure, Except.pure] at hab
        injection hab with hab
        rw [← hab]

theorem filterMinLs_from {E : Type} [DecidableEq E] {ts rs : List (Transition E (Option LS))}
    {sel : Option (List ℤ)} (h : filterMinLs ts sel = .ok rs) {r} (hr : r ∈ rs) :
    ∃ t ∈ ts, r.topology = t.topology ∧ r.states = t.states ∧
      PyDict.keys r.interactions = PyDict.keys t.interactions := by
  unfold filterMinLs at h
  simp only [bind, Except.bind] at h
  split at h
  · cases h
  split at h
  · cases h
  split at h
  · cases h
  split at h
  · cases h
  rename_i g hg
  obtain ⟨x, hx, hm⟩ := forall₂_mem_right ((mapM_ok_iff _ _ _).1 h) hr
  obtain ⟨t, ht, h1⟩ := minTransition_from hm
  rcases groupTransitions_values hg hx ht with h | ⟨z, hz, -⟩
  · exact ⟨t, h, h1⟩
  · cases hz

theorem applyMinLs_from {ts rs : List (Transition Obj (Option LS))} {m : MinLsArg}
    (h : applyMinLs ts m = .ok rs) {r} (hr : r ∈ rs) :
    ∃ t ∈ ts, r.topology = t.topology ∧ r.states = t.states ∧
      PyDict.keys r.interactions = PyDict.keys t.interactions := by
  cases m with
  | bool b =>
    cases b with
    | false =>
      injection h with h
      subst h
      exact ⟨r, hr, rfl, rfl, rfl⟩
    | true => exact filterMinLs_from h hr
  | pair p d => exact filterMinLs_from h hr

/-! ### Transfer of well-formedness -/

theorem WellFormed.congr {E N E' N' : Type} {t : Transition E N} {u : Transition E' N'}
    (h : WellFormed t) (ht : u.topology = t.topology)
    (hs : PyDict.keys u.states = PyDict.keys t.states)
    (hi : PyDict.keys u.interactions = PyDict.keys t.interactions) : WellFormed u := by
  obtain ⟨⟨h1, h2, h3, h4, h5⟩, h6, h7, h8, h9, h10⟩ := h
  constructor
  · constructor
    · rw [ht]; exact h1
    · rw [hs]; exact h2
    · rw [hi]; exact h3
    · rw [ht, hs]; exact h4
    · rw [ht, hi]; exact h5
  all_goals (rw [ht]; assumption)

theorem convertTransition_keys {t : Transition QObj QNode} {c : Transition Obj (Option LS)}
    (h : convertTransition t = .ok c) : PyDict.keys c.states = PyDict.keys t.states ∧
      PyDict.keys c.interactions = PyDict.keys t.interactions := by
  obtain ⟨-, h2, h3, -⟩ := convertTransition_ok h
  exact ⟨forall₂_map_eq h2 fun a b h => h.1, forall₂_map_eq h3 fun a b h => h.1⟩

theorem get?_forall₂ {α β : Type} {R : ℤ × α → ℤ × β → Prop} {d : PyDict ℤ α} {d' : PyDict ℤ β}
    (h : List.Forall₂ R d d') (hR : ∀ x y, R x y → y.1 = x.1) {k : ℤ} {v : β}
    (hk : PyDict.get? d' k = some v) : ∃ u, PyDict.get? d k = some u ∧ R (k, u) (k, v) := by
  induction h with
  | nil => cases hk
  | @cons x y l l' h1 _ ih =>
    obtain ⟨a, b⟩ := x
    obtain ⟨a', b'⟩ := y
    have := hR _ _ h1
    simp only at this
    subst this
    unfold PyDict.get? at hk ⊢
    split at hk
    · rename_i he
      rw [if_pos he]
      injection hk with hk
      subst hk
      exact ⟨b, rfl, by rw [← he]; exact h1⟩
    · rename_i he
      rw [if_neg he]
      exact ih hk

theorem convertTransition_typed {t : Transition QObj QNode} {c : Transition Obj (Option LS)}
    (h : convertTransition t = .ok c) : Typed c := by
  obtain ⟨h1, h2, -⟩ := convertTransition_ok h
  intro k o ho
  obtain ⟨u, hu, -, hc⟩ := get?_forall₂ h2 (fun x y h => h.1) ho
  rw [h1]
  rcases hc with ⟨hm, p, -, rfl⟩ | ⟨hm, s, -, rfl⟩
  · exact ⟨fun _ => hm, fun _ => ⟨p, rfl⟩⟩
  · exact ⟨fun ⟨p, hp⟩ => (by cases hp), fun h => absurd h hm⟩

theorem convertTransition_wellFormed {t : Transition QObj QNode} {c : Transition Obj (Option LS)}
    (hw : WellFormed t) (h : convertTransition t = .ok c) : WellFormed c :=
  hw.congr (convertTransition_ok h).1 (convertTransition_keys h).1 (convertTransition_keys h).2

theorem Relabelled.back {α : Type} {f : ℤ → ℤ} {d d' : PyDict ℤ α} (h : Relabelled f d d') {k : ℤ}
    {v : α} (hk : PyDict.get? d' k = some v) : ∃ i, f i = k ∧ PyDict.get? d i = some v := by
  obtain ⟨i, hi, rfl⟩ := (h.1 k).1 (keys_of_get? hk)
  exact ⟨i, rfl, by rw [← h.2 i hi]; exact hk⟩

theorem normalizeTransition_wellFormed {E N : Type} {t t' : Transition E N} (hw : WellFormed t)
    (h : normalizeTransition t = .ok t') : WellFormed t' := by
  obtain ⟨u, h1, hv, hn, he, -, -, -⟩ := C43_transition t hw.valid
  rw [h] at h1
  injection h1 with h1
  subst h1
  refine ⟨hv, by rw [hn]; exact hw.nodes, ?_, ?_, ?_, ?_⟩
  · intro k e n hk ho
    obtain ⟨i, -, hi⟩ := he.back hk
    rw [hn]
    exact hw.origin i e n hi ho
  · intro k e n hk ho
    obtain ⟨i, -, hi⟩ := he.back hk
    rw [hn]
    exact hw.destination i e n hi ho
  · intro k e n hk ho
    obtain ⟨i, -, hi⟩ := he.back hk
    exact hw.noLoop i e n hi ho
  · intro n hn'
    rw [hn] at hn'
    obtain ⟨k, e, hk, hd⟩ := hw.entered n hn'
    exact ⟨_, e, by rw [he.2 k (keys_of_get? hk)]; exact hk, hd⟩

/-- A three-body topology after normalisation was one before. -/
theorem ThreeBody.back {E N : Type} {t t' : Transition E N} (hv : Valid t)
    (h : normalizeTransition t = .ok t') {a s r i j : ℤ} (ht : ThreeBody t' a s r i j) :
    ∃ a' s' r' i' j', ThreeBody t a' s' r' i' j' ∧ 
      PyDict.get? t'.states a = PyDict.get? t.states a' ∧
      PyDict.get? t'.states s = PyDict.get? t.states s' ∧
      PyDict.get? t'.states r = PyDict.get? t.states r' ∧
      PyDict.get? t'.states i = PyDict.get? t.states i' ∧
      PyDict.get? t'.states j = PyDict.get? t.states j' := by
  obtain ⟨u, h1, hv', hn, he, hs, -, -⟩ := C43_transition t hv
  rw [h] at h1
  injection h1 with h1
  subst h1
  obtain ⟨a', rfl, ha⟩ := he.back ht.initial
  obtain ⟨s', rfl, hs'⟩ := he.back ht.spectator
  obtain ⟨r', rfl, hr⟩ := he.back ht.resonance
  obtain ⟨i', rfl, hi⟩ := he.back ht.product1
  obtain ⟨j', rfl, hj⟩ := he.back ht.product2
  have st : ∀ {k e}, PyDict.get? t.topology.edges k = some e →
      PyDict.get? t'.states (rank (PyDict.keys t.states) k) = PyDict.get? t.states k :=
    fun hk => hs.2 _ ((hv.sameEdges _).1 (keys_of_get? hk))
  refine ⟨a', s', r', i', j', ?_, st ha, st hs', st hr, st hi, st hj⟩
  have hd : [a', s', r', i', j'].Nodup :=
    List.Nodup.of_map (rank (PyDict.keys t.states)) (by simpa using ht.distinct)
  exact {
    valid := hv
    nodes := by rw [← hn]; exact ht.nodes
    ids := fun k => ⟨fun hk => by
      have h2 := (he.1 (rank (PyDict.keys t.states) k)).2 ⟨k, hk, rfl⟩
      have h3 := (ht.ids _).1 h2
      have inj : ∀ {k'}, rank (PyDict.keys t.states) k = rank (PyDict.keys t.states) k' →
          k' ∈ PyDict.keys t.topology.edges → k = k' :=
        fun hh hk' => rank_inj ((hv.sameEdges _).1 hk) ((hv.sameEdges _).1 hk') hh
      rcases h3 with h3 | h3 | h3 | h3 | h3
      · exact .inl (inj h3 (keys_of_get? ha))
      · exact .inr (.inl (inj h3 (keys_of_get? hs')))
      · exact .inr (.inr (.inl (inj h3 (keys_of_get? hr))))
      · exact .inr (.inr (.inr (.inl (inj h3 (keys_of_get? hi)))))
      · exact .inr (.inr (.inr (.inr (inj h3 (keys_of_get? hj))))), fun hk => by
      rcases hk with rfl | rfl | rfl | rfl | rfl
      · exact keys_of_get? ha
      · exact keys_of_get? hs'
      · exact keys_of_get? hr
      · exact keys_of_get? hi
      · exact keys_of_get? hj⟩
    distinct := hd
    initial := ha
    spectator := hs'
    resonance := hr
    product1 := hi
    product2 := hj
    order := lt_of_rank_lt ((hv.sameEdges _).1 (keys_of_get? hj)) ht.order }

/-! ### Composition -/

theorem decayOfNormalized_stages {ts : List (Transition QObj QNode)} {m : MinLsArg} {d : Decay}
    (h : decayOfNormalized ts m = .ok d) :
    ∃ cs us chains states,
      convertTransitions ts = .ok cs ∧ applyMinLs cs m = .ok us ∧ us ≠ [] ∧
      us.mapM toDecayChain = .ok chains ∧ pySorted chainKey chainComparable chains = .ok d.chains ∧
      d.states = states ∧ Decay.new states d.chains = .ok d := by
  unfold decayOfNormalized at h
  simp only [bind, Except.bind] at h
  split at h
  · cases h
  rename_i cs hcs
  split at h
  · cases h
  rename_i us hus
  split at h
  · cases h
  rename_i u0 us
  split at h
  · cases h
  split at h
  · cases h
  split at h
  · cases h
  split at h
  · cases h
  split at h
  · cases h
  split at h
  · cases h
  rename_i chains hchains
  split at h
  · cases h
  rename_i sorted hsorted
  have hd := ((decayNew_ok _ _ _).1 h).1
  have hc : d.chains = sorted := by rw [hd]
  exact ⟨cs, u0 :: us, chains, _, hcs, hus, by simp, hchains, by rw [hc]; exact hsorted,
    by rw [hd], by rw [hc]; exact h⟩

/-- The stages of `to_three_body_decay`. -/
theorem toThreeBodyDecay_stages {ts : List (Transition QObj QNode)} {m : MinLsArg} {d : Decay}
    (h : toThreeBodyDecay ts m = .ok d) :
    ∃ ts1, (ts1 = ts ∨ normalizeTransitions ts = .ok ts1) ∧ decayOfNormalized ts1 m = .ok d := by
  unfold toThreeBodyDecay at h
  cases ts with
  | nil => cases h
  | cons t0 ts =>
    simp only at h
    cases h1 : t0.initialStates with
    | error e => rw [h1] at h; cases h
    | ok ini =>
      cases h2 : t0.finalStates with
      | error e => rw [h1, h2] at h; cases h
      | ok fin =>
        rw [h1, h2] at h
        simp only [bind, Except.bind] at h
        split at h
        · cases h3 : normalizeTransitions (t0 :: ts) with
          | error e => rw [h3] at h; cases h
          | ok ts1 =>
            rw [h3] at h
            exact ⟨ts1, .inr rfl, h⟩
        · exact ⟨_, .inl rfl, h⟩

theorem chain_of_toDecayChain {t : Transition Obj (Option LS)} {c : Chain} (h : toDecayChain t = .ok c) :
    Chain.new c.decay = .ok c := by
  obtain ⟨_, _, _, _, _, _, _, _, _, _, _, _, _, -, -, -, -, -, -, -, _, _, _, _, -, -, -, -, hnew⟩ :=
    toDecayChain_data h
  rw [((C16_chain_constructor _ c).1 hnew).2]
  exact hnew

theorem sameParticle_of_toParticle {o : QObj} {p : Particle} (h : toParticle o = .ok p) :
    SameParticle o p := by
  obtain ⟨q, h1, h2, h3, h4, h5, -, h6, h7⟩ := C50_particle_values o p h
  exact ⟨q, h1, h2, h3, h4, h5, h6, h7⟩

theorem sameParticle_of_toState {o : QObj} {k : Option ℤ} {s : State} (h : toState o k = .ok s) :
    SameParticle o s.toParticle := by
  obtain ⟨q, h1, h2, h3, h4, h5, -, h6, h7, -⟩ := C50_state_values o k s h
  exact ⟨q, h1, h2, h3, h4, h5, h6, h7⟩

theorem hasCoupling_of {x : QNode} {y : Option LS} (h : toLsCoupling x = .ok y) : HasCoupling x y := by
  unfold toLsCoupling at h
  split at h
  · injection h with h; exact h.symm
  · injection h with h; exact h.symm
  · cases h
  · rename_i l s
    unfold LS.new at h
    cases hs : Spin.assertSpinValue s with
    | error e => rw [hs] at h; cases h
    | ok _ =>
      rw [hs] at h
      simp only [bind, Except.bind, pure, Except.pure] at h
      injection h with h
      exact h.symm
  · injection h with h
    subst h
    unfold HasCoupling
    split <;> simp_all

theorem ThreeBody.of_topology {E N E' N' : Type} {t : Transition E N} {u : Transition E' N'}
    {a s r i j : ℤ} (h : ThreeBody t a s r i j) (hv : Valid u) (ht : u.topology = t.topology) :
    ThreeBody u a s r i j where
  valid := hv
  nodes := by rw [ht]; exact h.nodes
  ids := by rw [ht]; exact h.ids
  distinct := h.distinct
  initial := by rw [ht]; exact h.initial
  spectator := by rw [ht]; exact h.spectator
  resonance := by rw [ht]; exact h.resonance
  product1 := by rw [ht]; exact h.product1
  product2 := by rw [ht]; exact h.product2
  order := h.order

/-- The chain of a converted transition describes the original one. -/
theorem describes_of_isChainOf {t : Transition QObj QNode} {c : Transition Obj (Option LS)} {ch : Chain}
    (hv : Valid t) (hc : convertTransition t = .ok c) (h : IsChainOf c ch) : Describes t ch := by
  obtain ⟨a, s, r, i, j, hb, ha, hs, hr, hi, hj, h0, h1⟩ := h
  obtain ⟨e1, e2, e3, -⟩ := convertTransition_ok hc
  have hbt : ThreeBody t a s r i j := hb.of_topology hv e1.symm
  have st : ∀ {k s}, PyDict.get? c.states k = some (.state s) → ∃ o, PyDict.get? t.states k = some o ∧
      SameParticle o s.toParticle := by
    intro k s hk
    obtain ⟨o, ho, -, hc⟩ := get?_forall₂ e2 (fun x y h => h.1) hk
    rcases hc with ⟨-, p, -, hp⟩ | ⟨-, s', hs', hp⟩
    · cases hp
    · injection hp with hp
      subst hp
      exact ⟨o, ho, sameParticle_of_toState hs'⟩
  obtain ⟨oa, ha⟩ := st ha
  obtain ⟨os, hs⟩ := st hs
  obtain ⟨oi, hi⟩ := st hi
  obtain ⟨oj, hj⟩ := st hj
  obtain ⟨n0, h0, -, g0⟩ := get?_forall₂ e3 (fun x y h => h.1) h0
  obtain ⟨n1, h1, -, g1⟩ := get?_forall₂ e3 (fun x y h => h.1) h1
  obtain ⟨o, ho, -, hc⟩ := get?_forall₂ e2 (fun x y h => h.1) hr
  have hrm : r ∈ t.topology.intermediate := (mem_intermediate hv hbt.resonance).2 ⟨rfl, rfl⟩
  rcases hc with ⟨-, p, hp, hp'⟩ | ⟨hm, -⟩
  · exact ⟨a, s, r, i, j, oa, os, o, oi, oj, n0, n1, hbt, ha, hs, ⟨ho, p, hp',
      sameParticle_of_toParticle hp⟩, hi, hj, ⟨h0, hasCoupling_of g0⟩, ⟨h1, hasCoupling_of g1⟩⟩
  · exact absurd hrm hm

theorem describes_of_normalized {t t' : Transition QObj QNode} {ch : Chain} (hv : Valid t)
    (hn : normalizeTransition t = .ok t') (h : Describes t' ch) : Describes t ch := by
  obtain ⟨a, s, r, i, j, oa, os, o, oi, oj, n0, n1, hb, ⟨ha, pa⟩, ⟨hs, ps⟩, ⟨hr, pr⟩, ⟨hi, pi⟩, ⟨hj, pj⟩,
    ⟨h0, g0⟩, ⟨h1, g1⟩⟩ := h
  obtain ⟨a', s', r', i', j', hb', ea, es, er, ei, ej⟩ := hb.back hv hn
  have hint : t'.interactions = t.interactions := by
    obtain ⟨u, h1, -, -, -, -, h2, -⟩ := C43_transition t hv
    rw [hn] at h1
    injection h1 with h1
    subst h1
    exact h2
  exact ⟨a', s', r', i', j', oa, os, o, oi, oj, n0, n1, hb', ⟨by rw [← ea]; exact ha, pa⟩,
    ⟨by rw [← es]; exact hs, ps⟩, ⟨by rw [← er]; exact hr, pr⟩, ⟨by rw [← ei]; exact hi, pi⟩,
    ⟨by rw [← ej]; exact hj, pj⟩, ⟨by rw [← hint]; exact h0, g0⟩, ⟨by rw [← hint]; exact h1, g1⟩⟩

theorem valid_of_same {E N : Type} {t u : Transition E N} (hs : Same u t) (hv : Valid t)
    (h1 : (PyDict.keys u.topology.edges).Nodup) (h2 : (PyDict.keys u.states).Nodup)
    (h3 : (PyDict.keys u.interactions).Nodup) : Valid u := by
  have key : ∀ {α : Type} {d d' : PyDict ℤ α}, SameDict d d' → ∀ k, k ∈ PyDict.keys d ↔ k ∈ PyDict.keys d' := by
    intro α d d' h k
    rw [← not_iff_not, ← PyDict.get?_eq_none, ← PyDict.get?_eq_none, h k]
  obtain ⟨⟨hn, he⟩, hst, hi⟩ := hs
  exact ⟨h1, h2, h3, fun i => by rw [key he, key hst]; exact hv.sameEdges i,
    fun i => by rw [key hi, hn]; exact hv.sameNodes i⟩

/-- Transitions that are `==` have the same chain. -/
theorem isChainOf_same {t u : Transition Obj (Option LS)} {c : Chain} (hs : Same t u) (hv : Valid u)
    (h : IsChainOf t c) : IsChainOf u c := by
  obtain ⟨⟨hn, he⟩, hst, hi⟩ := hs
  obtain ⟨a, s, r, i, j, hb, h1, h2, h3, h4, h5, h6, h7⟩ := h
  refine ⟨a, s, r, i, j, ?_, by rw [← hst]; exact h1, by rw [← hst]; exact h2, by rw [← hst]; exact h3,
    by rw [← hst]; exact h4, by rw [← hst]; exact h5, by rw [← hi]; exact h6, by rw [← hi]; exact h7⟩
  exact {
    valid := hv
    nodes := by rw [← hn]; exact hb.nodes
    ids := fun k => by
      rw [← hb.ids, ← not_iff_not, ← PyDict.get?_eq_none, ← PyDict.get?_eq_none, he k]
    distinct := hb.distinct
    initial := by rw [← he]; exact hb.initial
    spectator := by rw [← he]; exact hb.spectator
    resonance := by rw [← he]; exact hb.resonance
    product1 := by rw [← he]; exact hb.product1
    product2 := by rw [← he]; exact hb.product2
    order := hb.order }

end Verif.Qrules
