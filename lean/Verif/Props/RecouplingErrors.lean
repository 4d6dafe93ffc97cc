import Verif.Spec.RecouplingErrors
import Verif.Props.SerialRecoupling
import Verif.Props.Serialization

/-!
Property C117: `formulate_recoupling` and `formulate_chain_amplitude` for all models, chain and vertex indices.
-/
namespace Verif.Serialization
open Verif Verif.ThreeBody Verif.Spec

variable {m : ModelDefinition} {n k : ℕ} {c : ChainDefinition} {v : Vertex} {D : Distribution}

theorem sign_known (hs : ∀ s, v.parityFactor = some s → Surrounded s ['+'] ∨ Surrounded s ['-'] ∨ Surrounded s []) :
    ∃ f, signToValue (v.parityFactor.getD "+") = .ok f := by
  cases hp : v.parityFactor with
  | none => exact ⟨1, rfl⟩
  | some s =>
    obtain ⟨h1, h2, h3, -⟩ := C61_sign s
    rcases hs s hp with h | h | h
    · exact ⟨1, h3.2 h⟩
    · exact ⟨-1, h1.2 h⟩
    · exact ⟨0, h2.2 h⟩

theorem known_sign {f : ℤ} (h : signToValue (v.parityFactor.getD "+") = .ok f) :
    ∀ s, v.parityFactor = some s → Surrounded s ['+'] ∨ Surrounded s ['-'] ∨ Surrounded s [] := by
  intro s hs
  rw [hs] at h
  obtain ⟨h1, h2, h3, -, h5⟩ := C61_sign s
  rcases h5 f h with rfl | rfl | rfl
  · exact .inr (.inl (h1.1 h))
  · exact .inr (.inr (h2.1 h))
  · exact .inl (h3.1 h)

theorem returns_nat (hD : ∃ rest, m.distributions = D :: rest) (hk : WellFormedKinematics D.kinematics) (n k : ℕ) :
    (∃ e, formulateRecoupling m n k = .ok e) ↔ ∃ c v, D.chains[n]? = some c ∧ c.vertices.length = 2 ∧
      c.vertices[k]? = some v ∧ (HelicityVertex v ∨ NodesLsVertex c v) := by
  obtain ⟨rest, hr⟩ := hD
  have hm : getDecayChains m = .ok D.chains := getDecayChains_ok.2 ⟨D, rest, hr, rfl⟩
  obtain ⟨p0, ps, hst, -⟩ := stages_exist (f := identityFunction) ⟨rest, hr⟩ hk
  constructor
  · rintro ⟨e, h⟩
    have h0 := h
    unfold formulateRecoupling at h
    rw [hm] at h
    simp only [bind, Except.bind] at h
    cases hc : D.chains[n]? with
    | none => simp [item_nat, hc] at h
    | some c =>
      rw [item_ok.2 hc] at h
      simp only at h
      split at h
      · cases h
      · rename_i h2
        split at h
        · cases h
        · cases hv : c.vertices[k]? with
          | none => simp [item_nat, hv] at h
          | some v =>
            refine ⟨c, v, rfl, by simpa using h2, hv, ?_⟩
            rw [item_ok.2 hv] at h
            simp only at h
            have hn : v.node.length = 2 := by
              by_contra hn
              have : unpack2 (v.node.map getHelicitySymbol) = .error .valueError := by
                unfold unpack2
                split
                · rename_i h'
                  exact absurd (by simpa using congrArg List.length h') hn
                · rfl
              rw [this] at h
              cases h
            obtain ⟨x, y, hx⟩ : ∃ x y, v.node = [x, y] := List.length_eq_two.1 hn
            rw [hx] at h
            simp only [List.map_cons, List.map_nil, unpack2] at h
            split at h
            · rename_i ht
              left
              rcases hh : v.helicities with _ | hs
              · rw [hh] at h; cases h
              · rw [hh] at h
                simp only at h
                have htwo : ∃ a b, hs = [some a, some b] := by
                  rcases hs with _ | ⟨a, _ | ⟨b, _ | ⟨d, t⟩⟩⟩
                  · simp [pure, Except.pure, unpack2] at h
                  · cases a <;> simp [toRational, bind, Except.bind, pure, Except.pure, unpack2] at h
                  · cases a <;> cases b <;> simp [toRational, bind, Except.bind, pure, Except.pure, unpack2] at h
                    exact ⟨_, _, rfl⟩
                  · exfalso
                    cases a <;> cases b <;> cases d <;> simp [toRational, bind, Except.bind, pure, Except.pure] at h
                    cases hq : t.mapM toRational <;> simp [hq] at h
                obtain ⟨a, b, rfl⟩ := htwo
                refine ⟨hn, ⟨a, b, hh⟩, ?_⟩
                simp only [List.mapM_cons, List.mapM_nil, toRational, bind, Except.bind, pure, Except.pure, unpack2] at h
                split at h
                · rename_i hp
                  refine .inr ⟨hp, ?_⟩
                  cases hf : signToValue (v.parityFactor.getD "+") with
                  | error e => rw [hf] at h; cases h
                  | ok f => exact known_sign hf
                · rename_i hp
                  simp only [List.mem_cons, List.not_mem_nil, or_false] at ht
                  exact .inl (ht.resolve_right hp)
            · split at h
              · rename_i ht
                right
                have hls : ∀ i, .id i ∉ v.node := fun i hi => ls_fails hm hc hv ht hi e h0
                obtain ⟨a, b, rfl, rfl⟩ : ∃ a b, x = .seq a ∧ y = .seq b := by
                  rw [hx] at hls
                  cases x with
                  | id i => exact absurd (by simp) (hls i)
                  | seq a => cases y with
                    | id i => exact absurd (by simp) (hls i)
                    | seq b => exact ⟨a, b, rfl, rfl⟩
                refine ⟨ht, ⟨a, b, hx⟩, ?_⟩
                rcases hl : v.l with _ | l
                · rw [hl] at h; cases h
                · rcases hs : v.s with _ | _ | s
                  · rw [hl, hs] at h; cases h
                  · rw [hl, hs] at h; cases h
                  · refine ⟨rfl, ⟨s, rfl⟩, ?_⟩
                    rw [hl, hs] at h
                    simp only [toRational] at h
                    cases hg : getChildSpins m n k with
                    | error e => rw [hg] at h; cases h
                    | ok l =>
                      unfold getChildSpins at hg
                      simp only [hm, bind, Except.bind, item_ok.2 hc, item_ok.2 hv, hst.getFinal, hx, List.mapM_cons] at hg
                      have hp : ∃ q, getPropagatorSpin c = .ok q := by
                        cases hq : getPropagatorSpin c with
                        | error e => rw [hq] at hg; cases hg
                        | ok q => exact ⟨q, rfl⟩
                      obtain ⟨q, hq⟩ := hp
                      unfold getPropagatorSpin at hq
                      split at hq
                      · rename_i p hp
                        cases hps : p.spin with
                        | none => rw [hps] at hq; cases hq
                        | some s => exact ⟨p, s, hp, hps⟩
                      · cases hq
              · cases h
  · rintro ⟨c, v, hc, h2, hv, h | h⟩
    · obtain ⟨hn, ⟨a, b, hh⟩, hkn⟩ := h
      obtain ⟨x, y, hx⟩ := List.length_eq_two.1 hn
      obtain ⟨e, he, -⟩ := C55_recoupling hm hc h2 hv hx hh hkn
      exact ⟨e, he⟩
    · obtain ⟨ht, ⟨x, y, hx⟩, hl, ⟨s, hs⟩, p, q, hp, hps⟩ := h
      obtain ⟨l, hl⟩ := Option.isSome_iff_exists.1 hl
      have hk' : (k : ℤ) ∈ [0, 1] := by
        have : k < 2 := by rw [← h2]; exact (List.getElem?_eq_some_iff.1 hv).1
        simp; omega
      have hspin : getPropagatorSpin c = .ok q := by
        unfold getPropagatorSpin
        rw [hp]
        simp [hps, toRational]
      have hchild : getChildSpins m n k = .ok [q, q] := by
        unfold getChildSpins
        simp [hm, bind, Except.bind, item_ok.2 hc, item_ok.2 hv, hst.getFinal, hx, List.mapM_cons, hspin, pure, Except.pure]
      have hparent : ∃ j, getParentSpin m n k = .ok j := by
        unfold getParentSpin
        simp [hm, bind, Except.bind, item_ok.2 hc, item_ok.2 hv, hst.getInitial, hx, allInt, Tree.isInt, pure, Except.pure]
      obtain ⟨j, hj⟩ := hparent
      unfold formulateRecoupling
      rw [hm]
      simp only [bind, Except.bind, item_ok.2 hc, h2, ne_eq, not_true, if_false, hk', item_ok.2 hv, hx,
        List.map_cons, List.map_nil, unpack2]
      rw [if_neg (by simp [ht]), if_pos ht]
      simp [hl, hs, toRational, hchild, hj, pure, Except.pure]

theorem item_end {α : Type} {l : List α} {i : ℤ} (h : i < 0) (h' : -l.length ≤ i) : item l i = item l (i + l.length) := by
  have h1 : ¬ i + (l.length : ℤ) < 0 := by omega
  simp only [item, if_pos h, if_neg h1]

theorem item_outside {α : Type} {l : List α} {i : ℤ} (h : l.length ≤ i ∨ i < -l.length) : item l i = .error .indexError := by
  rcases h with h | h
  · have h1 : ¬ i < 0 := by omega
    have h2 : l[i.toNat]? = none := List.getElem?_eq_none (by omega)
    simp only [item, if_neg h1, h2]
  · have h1 : i < 0 := by omega
    have h2 : i + (l.length : ℤ) < 0 := by omega
    simp only [item, if_pos h1, if_pos h2]

/-- C117: negative indices of chains count from the end. -/
theorem C117_from_end (hD : ∃ rest, m.distributions = D :: rest) {i : ℤ} (h : i < 0) (h' : -D.chains.length ≤ i) :
    (∀ k, formulateRecoupling m i k = formulateRecoupling m (i + D.chains.length) k) ∧
    ∀ l0 l1 l2 l3 tl add, formulateChainAmplitude l0 l1 l2 l3 m i tl add =
      formulateChainAmplitude l0 l1 l2 l3 m (i + D.chains.length) tl add := by
  obtain ⟨rest, hr⟩ := hD
  have hm : getDecayChains m = .ok D.chains := getDecayChains_ok.2 ⟨D, rest, hr, rfl⟩
  have key : ∀ k, formulateRecoupling m i k = formulateRecoupling m (i + D.chains.length) k := by
    intro k
    unfold formulateRecoupling getParentSpin getChildSpins
    simp only [hm, bind, Except.bind, item_end h h']
  refine ⟨key, fun l0 l1 l2 l3 tl add => ?_⟩
  unfold formulateChainAmplitude
  simp only [hm, bind, Except.bind, item_end h h', key]

/-- C117: `formulate_recoupling` returns an expression exactly if the chain exists and has two vertices, the vertex index is the
position of a vertex (0 or 1, here negative indices are not allowed), and it is a vertex with two children and two helicities of
type `helicity` or of type `parity` with a known sign, or an LS vertex without final states among its children. -/
theorem C117_returns_iff (hD : ∃ rest, m.distributions = D :: rest) (hk : WellFormedKinematics D.kinematics) (i k : ℤ) :
    (∃ e, formulateRecoupling m i k = .ok e) ↔ ∃ c v, AtIndex D.chains i c ∧ c.vertices.length = 2 ∧
      (∃ j : ℕ, k = j ∧ c.vertices[j]? = some v) ∧ (HelicityVertex v ∨ NodesLsVertex c v) := by
  obtain ⟨rest, hr⟩ := id hD
  have hm : getDecayChains m = .ok D.chains := getDecayChains_ok.2 ⟨D, rest, hr, rfl⟩
  constructor
  · rintro ⟨e, h⟩
    have hk01 : ∃ j : ℕ, k = j := by
      by_contra hno
      unfold formulateRecoupling at h
      simp only [hm, bind, Except.bind] at h
      split at h
      · cases h
      · split at h
        · cases h
        · split at h
          · cases h
          · rename_i hmem
            simp only [List.mem_cons, List.not_mem_nil, or_false, not_not] at hmem
            exact hno (hmem.elim (fun h => ⟨0, h⟩) fun h => ⟨1, h⟩)
    obtain ⟨j, rfl⟩ := hk01
    by_cases hout : D.chains.length ≤ i ∨ i < -D.chains.length
    · unfold formulateRecoupling at h
      simp [hm, bind, Except.bind, item_outside hout] at h
    · obtain ⟨n, hn, hi⟩ : ∃ n : ℕ, formulateRecoupling m n j = .ok e ∧ (i = n ∨ i = n - D.chains.length) := by
        by_cases hneg : i < 0
        · rw [(C117_from_end hD hneg (by omega)).1] at h
          exact ⟨(i + D.chains.length).toNat, by rwa [Int.toNat_of_nonneg (by omega)], .inr (by omega)⟩
        · exact ⟨i.toNat, by rwa [Int.toNat_of_nonneg (by omega)], .inl (by omega)⟩
      obtain ⟨c, v, h1, h2, h3, h4⟩ := (returns_nat hD hk n j).1 ⟨e, hn⟩
      exact ⟨c, v, ⟨n, h1, hi⟩, h2, ⟨j, rfl, h3⟩, h4⟩
  · rintro ⟨c, v, ⟨n, h1, hi⟩, h2, ⟨j, rfl, h3⟩, h4⟩
    have hlt := (List.getElem?_eq_some_iff.1 h1).1
    have hn := (returns_nat hD hk n j).2 ⟨c, v, h1, h2, h3, h4⟩
    rcases hi with rfl | rfl
    · exact hn
    · rwa [(C117_from_end hD (by omega) (by omega)).1, sub_add_cancel]

/-- C117: an index without chain is an `IndexError`. -/
theorem C117_chain_index (hD : ∃ rest, m.distributions = D :: rest) {i : ℤ} (hi : ∀ c, ¬ AtIndex D.chains i c) :
    (∀ k, formulateRecoupling m i k = .error .indexError) ∧
    ∀ l0 l1 l2 l3 tl add, formulateChainAmplitude l0 l1 l2 l3 m i tl add = .error .indexError := by
  obtain ⟨rest, hr⟩ := hD
  have hm : getDecayChains m = .ok D.chains := getDecayChains_ok.2 ⟨D, rest, hr, rfl⟩
  have hi : item D.chains i = .error .indexError := by
    refine item_outside ?_
    by_contra hno
    by_cases hneg : i < 0
    · have hlt : (i + D.chains.length).toNat < D.chains.length := by omega
      exact hi _ ⟨_, List.getElem?_eq_getElem hlt, .inr (by omega)⟩
    · have hlt : i.toNat < D.chains.length := by omega
      exact hi _ ⟨_, List.getElem?_eq_getElem hlt, .inl (by omega)⟩
  constructor
  · intro k
    unfold formulateRecoupling
    simp [hm, bind, Except.bind, hi]
  · intro l0 l1 l2 l3 tl add
    unfold formulateChainAmplitude
    simp [hm, bind, Except.bind, hi]

theorem item_at {α : Type} {l : List α} {i : ℤ} {x : α} (h : AtIndex l i x) : item l i = .ok x := by
  obtain ⟨n, hn, rfl | rfl⟩ := h
  · exact item_ok.2 hn
  · have hlt := (List.getElem?_eq_some_iff.1 hn).1
    rw [item_end (by omega) (by omega), sub_add_cancel]
    exact item_ok.2 hn

/-- C117: a chain with another number of vertices than two, or a vertex index other than 0 and 1 (also a negative one), is a
`ValueError`. -/
theorem C117_vertex_index (hD : ∃ rest, m.distributions = D :: rest) {i k : ℤ} (hc : AtIndex D.chains i c)
    (h : c.vertices.length ≠ 2 ∨ k ≠ 0 ∧ k ≠ 1) : formulateRecoupling m i k = .error .valueError := by
  obtain ⟨rest, hr⟩ := hD
  have hm : getDecayChains m = .ok D.chains := getDecayChains_ok.2 ⟨D, rest, hr, rfl⟩
  unfold formulateRecoupling
  simp only [hm, bind, Except.bind, item_at hc]
  by_cases h2 : c.vertices.length ≠ 2
  · rw [if_pos h2]
  · rw [if_neg h2, if_pos]
    have := h.resolve_left h2
    simp
    omega

/-- C117: for a vertex with two children, another type than `helicity`, `parity` and `ls` and an unknown sign are a
`NotImplementedError`, and missing helicities are a `KeyError`. -/
theorem C117_vertex_errors (hD : ∃ rest, m.distributions = D :: rest) (hc : D.chains[n]? = some c)
    (h2 : c.vertices.length = 2) (hv : c.vertices[k]? = some v) (hn : v.node.length = 2) :
    (v.type ∉ ["helicity", "parity", "ls"] → formulateRecoupling m n k = .error .notImplementedError) ∧
    (v.type ∈ ["helicity", "parity"] → v.helicities = none → formulateRecoupling m n k = .error .keyError) ∧
    (v.type = "parity" → (∃ a b, v.helicities = some [some a, some b]) →
      (∃ s, v.parityFactor = some s ∧ ¬ Surrounded s ['+'] ∧ ¬ Surrounded s ['-'] ∧ ¬ Surrounded s []) →
      formulateRecoupling m n k = .error .notImplementedError) := by
  obtain ⟨rest, hr⟩ := hD
  have hm : getDecayChains m = .ok D.chains := getDecayChains_ok.2 ⟨D, rest, hr, rfl⟩
  obtain ⟨x, y, hx⟩ := List.length_eq_two.1 hn
  have hk' : (k : ℤ) ∈ [0, 1] := by
    have : k < 2 := by rw [← h2]; exact (List.getElem?_eq_some_iff.1 hv).1
    simp; omega
  unfold formulateRecoupling
  simp only [hm, bind, Except.bind, item_ok.2 hc, h2, ne_eq, not_true, if_false, hk', item_ok.2 hv, hx,
    List.map_cons, List.map_nil, unpack2]
  refine ⟨fun ht => ?_, fun ht hh => ?_, fun ht ⟨a, b, hh⟩ ⟨s, hs, h1, h2, h3⟩ => ?_⟩
  · simp only [List.mem_cons, List.not_mem_nil, or_false, not_or] at ht
    rw [if_neg (by simp [ht.1, ht.2.1]), if_neg ht.2.2]
  · rw [if_pos ht, hh]
  · rw [if_pos (by simp [ht]), hh]
    simp only [List.mapM_cons, List.mapM_nil, toRational, bind, Except.bind, pure, Except.pure, unpack2]
    rw [if_pos ht, hs, Option.getD_some, (C61_sign s).2.2.2.1.2 ⟨h2, h3, h1⟩]

/-- The vertices of the example model can be used, the last chain also as `-1`; there is no fourth chain, no third vertex and no
vertex `-1`. -/
example : (∃ e, formulateRecoupling exModel 0 1 = .ok e) ∧ (∃ e, formulateRecoupling exModel (-3) 1 = .ok e) ∧
    formulateRecoupling exModel 3 0 = .error .indexError ∧ formulateRecoupling exModel (-4) 0 = .error .indexError ∧
    formulateRecoupling exModel 1 2 = .error .valueError ∧ formulateRecoupling exModel 1 (-1) = .error .valueError := by
  have hD : ∃ rest, exModel.distributions = ⟨exKinematics, [.id 1, .seq [.id 2, .id 3]], [exLambda, exKstar, exKstar]⟩ :: rest := ⟨[], rfl⟩
  have hout : ∀ i ∈ ([3, -4] : List ℤ), ∀ c, ¬ AtIndex [exLambda, exKstar, exKstar] i c := by
    rintro i hi c ⟨n, hn, h⟩
    have hlt := (List.getElem?_eq_some_iff.1 hn).1
    simp only [List.mem_cons, List.not_mem_nil, or_false, List.length_cons, List.length_nil] at hi hlt h
    omega
  exact ⟨(C117_returns_iff hD exKinematics_wf 0 1).2
      ⟨exLambda, _, ⟨0, rfl, .inl rfl⟩, rfl, ⟨1, rfl, rfl⟩, .inl ⟨rfl, ⟨_, _, rfl⟩, .inl rfl⟩⟩,
    (C117_returns_iff hD exKinematics_wf (-3) 1).2
      ⟨exLambda, _, ⟨0, rfl, .inr rfl⟩, rfl, ⟨1, rfl, rfl⟩, .inl ⟨rfl, ⟨_, _, rfl⟩, .inl rfl⟩⟩,
    (C117_chain_index hD (hout 3 (by simp))).1 0, (C117_chain_index hD (hout (-4) (by simp))).1 0,
    C117_vertex_index (c := exKstar) hD ⟨1, rfl, .inl rfl⟩ (.inr (by decide)),
    C117_vertex_index (c := exKstar) hD ⟨1, rfl, .inl rfl⟩ (.inr (by decide))⟩

/-- The LS vertices of the example cannot be used. -/
example : ¬ ∃ e, formulateRecoupling exLsModel 0 0 = .ok e := by
  rw [C117_returns_iff (D := ⟨exKinematics, [.id 1, .seq [.id 2, .id 3]], [exLs]⟩) ⟨[], rfl⟩ exKinematics_wf]
  rintro ⟨c, v, ⟨n, hc, hi⟩, -, ⟨j, hj, hv⟩, h⟩
  have hlt := (List.getElem?_eq_some_iff.1 hc).1
  simp only [List.length_cons, List.length_nil] at hlt hi
  obtain rfl : n = 0 := by omega
  obtain rfl : j = 0 := by omega
  cases hc
  cases hv
  rcases h with ⟨-, ⟨a, b, h⟩, -⟩ | ⟨-, ⟨x, y, h⟩, -⟩
  · cases h
  · cases h

end Verif.Serialization
