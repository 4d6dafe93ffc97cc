import Verif.Proofs.QrulesPermute
import Verif.Props.QrulesConvert

/-!
Property C48: `permute_equal_final_states`.
-/
namespace Verif.Qrules
open Verif Verif.ThreeBody

theorem Exchanged.key_eq {E N : Type} {t u v : Transition E N} {s x : ℤ} (h : Exchanged t s x u)
    (h' : Exchanged t s x v) : u.topology.key = v.topology.key := by
  rw [topologyKey_inj, h.nodes, h'.nodes, dictItems_eq_iff]
  exact ⟨rfl, fun k => by rw [h.edges, h'.edges]⟩

/-- C48: for a transition `a → s (r → i j)` whose final states have names, the result contains, for
each final state `x` with the same name as the spectator, exactly one transition: the given one with
`x` as spectator instead (for `x = s` this is the given transition). It contains no others, and no two
of them are equal. -/
theorem C48_orbit {N : Type} (t : Transition QObj N) (a s r i j : ℤ) (h : ThreeBody t a s r i j)
    (name : ℤ → String) (hname : ∀ k, k = s ∨ k = i ∨ k = j → HasName t k (name k)) :
    ∃ us, permuteEqualFinalStates t = .ok us ∧
      (∀ x, x = s ∨ x = i ∨ x = j → name x = name s → ∃! u, u ∈ us ∧ Exchanged t s x u) ∧
      (∀ u ∈ us, ∃ x, (x = s ∨ x = i ∨ x = j) ∧ name x = name s ∧ Exchanged t s x u) ∧
      us.Pairwise fun u v => ¬ Same u v := by
  have hself : Exchanged t s s t := ⟨rfl, rfl, rfl, fun k => by split_ifs <;> simp_all⟩
  have hdist := h.distinct
  simp only [List.nodup_cons, List.mem_cons, List.not_mem_nil, or_false, not_or] at hdist
  obtain ⟨⟨_, _, _, _⟩, ⟨_, hsi, hsj⟩, ⟨_, _⟩, hij, -⟩ := hdist
  unfold permuteEqualFinalStates
  rcases equalFinalStateIds_eq h name hname with ⟨hids, hdiff⟩ |
    ⟨k0, hk0, k1, hk1, hne01, hname01, ids, hids, hnd, hmem⟩
  · refine ⟨[t], by rw [hids]; rfl, ?_, ?_, by simp⟩
    · intro x hx hxs
      have : x = s := hdiff x ((h.outgoing_mem x).2 hx) s ((h.outgoing_mem s).2 (.inl rfl)) hxs
      subst this
      exact ⟨t, ⟨by simp, hself⟩, fun v hv => by simpa using hv.1⟩
    · intro u hu
      rw [List.mem_singleton] at hu
      subst hu
      exact ⟨s, .inl rfl, rfl, hself⟩
  · simp only [h.outgoing_mem] at hk0 hk1 hmem
    have hkey : ∀ k, k = s ∨ k = i ∨ k = j → k ∈ PyDict.keys t.topology.edges := by
      intro k hk
      rw [h.ids]; tauto
    have hne : ids ≠ [] := List.ne_nil_of_mem ((hmem k0).2 ⟨hk0, rfl⟩)
    have hpairs : ∀ x y, (x, y) ∈ pairs ids → (x = s ∨ x = i ∨ x = j) ∧ (y = s ∨ y = i ∨ y = j) ∧
        x ≠ y ∧ name x = name k0 ∧ name y = name k0 := by
      intro x y hxy
      obtain ⟨h1, h2⟩ := mem_pairs_of hxy
      exact ⟨((hmem x).1 h1).1, ((hmem y).1 h2).1, pairs_ne hnd hxy, ((hmem x).1 h1).2,
        ((hmem y).1 h2).2⟩
    have hm : (pairs ids).mapM (fun x =>
        Transition.new (t.topology.swapEdges x.1 x.2) t.states t.interactions)
        = .ok ((pairs ids).map fun x => ⟨t.topology.swapEdges x.1 x.2, t.states, t.interactions⟩) := by
      rw [mapM_ok_iff, List.forall₂_map_right_iff, List.forall₂_same]
      rintro ⟨x, y⟩ hxy
      obtain ⟨hx, hy, -⟩ := hpairs x y hxy
      apply transition_new_eq
      · rw [swapEdges_eq _ _ _ h.valid.edges]; exact h.valid.sameNodes
      · intro k
        rw [keys_swapEdges _ _ _ h.valid.edges (hkey x hx) (hkey y hy)]
        exact h.valid.sameEdges k
    -- every candidate is an exchange with the spectator
    have hcand : ∀ u ∈ t :: (pairs ids).map (fun x =>
        (⟨t.topology.swapEdges x.1 x.2, t.states, t.interactions⟩ : Transition QObj N)),
        ∃ x, (x = s ∨ x = i ∨ x = j) ∧ name x = name s ∧ Exchanged t s x u := by
      intro u hu
      rcases List.mem_cons.1 hu with rfl | hu
      · exact ⟨s, .inl rfl, rfl, hself⟩
      · obtain ⟨⟨x, y⟩, hxy, rfl⟩ := List.mem_map.1 hu
        obtain ⟨hx, hy, hne, hnx, hny⟩ := hpairs x y hxy
        have hnodes : (t.topology.swapEdges x y).nodes = t.topology.nodes := by
          rw [swapEdges_eq _ _ _ h.valid.edges]
        by_cases hxs : x = s
        · subst hxs
          exact ⟨y, hy, by rw [hny, hnx], hnodes, rfl, rfl,
            fun k => get?_swapEdges _ _ _ h.valid.edges k⟩
        · by_cases hys : y = s
          · subst hys
            refine ⟨x, hx, by rw [hny, hnx], hnodes, rfl, rfl, fun k => ?_⟩
            rw [get?_swapEdges _ _ _ h.valid.edges k]
            congr 1
            unfold exch
            split_ifs <;> simp_all
          · refine ⟨s, .inl rfl, rfl, hnodes, rfl, rfl, fun k => ?_⟩
            rw [get?_swapEdges _ _ _ h.valid.edges k]
            have hxe : PyDict.get? t.topology.edges x = some ⟨some 1, none⟩ := by
              rcases hx with rfl | rfl | rfl
              · exact absurd rfl hxs
              · exact h.product1
              · exact h.product2
            have hye : PyDict.get? t.topology.edges y = some ⟨some 1, none⟩ := by
              rcases hy with rfl | rfl | rfl
              · exact absurd rfl hys
              · exact h.product1
              · exact h.product2
            have : (if k = s then s else if k = s then s else k) = k := by
              split_ifs <;> simp_all
            rw [this]
            unfold exch
            split_ifs with g1 g2
            · rw [hye, g1, hxe]
            · rw [hxe, g2, hye]
            · rfl
    -- they can be sorted
    obtain ⟨us, hus⟩ := pySorted_eq (key := fun x : Transition QObj N => x.topology.key)
      (c := fun a b => a.topology.comparable b.topology)
      (l := pySet (fun x => x.topology.key) (t :: (pairs ids).map fun x =>
        ⟨t.topology.swapEdges x.1 x.2, t.states, t.interactions⟩)) (by
        intro u hu v hv
        obtain ⟨x, hx, -, hux⟩ := hcand u (pySet_sub hu)
        obtain ⟨y, hy, -, hvy⟩ := hcand v (pySet_sub hv)
        unfold Topology.comparable
        split
        · rfl
        · apply listComparable_of
          intro k e e' he he'
          rw [mem_dictItems] at he he'
          -- the pattern of open ends is that of `t`
          have hpat : ∀ (w : Transition QObj N) (z : ℤ) (f : Edge), (z = s ∨ z = i ∨ z = j) →
              Exchanged t s z w → PyDict.get? w.topology.edges k = some f →
              ∃ g, PyDict.get? t.topology.edges k = some g ∧
                g.orig.isSome = f.orig.isSome ∧ g.dest.isSome = f.dest.isSome := by
            intro w z f hz hw hf
            rw [hw.edges] at hf
            have hfin : ∀ k', k' = s ∨ k' = i ∨ k' = j → ∃ n,
                PyDict.get? t.topology.edges k' = some ⟨some n, none⟩ := by
              rintro k' (rfl | rfl | rfl)
              · exact ⟨_, h.spectator⟩
              · exact ⟨_, h.product1⟩
              · exact ⟨_, h.product2⟩
            obtain ⟨n, hn⟩ := hfin z hz
            split_ifs at hf with g1 g2
            · rw [hn] at hf
              cases hf
              exact ⟨⟨some 0, none⟩, by rw [g1]; exact h.spectator, rfl, rfl⟩
            · rw [h.spectator] at hf
              cases hf
              exact ⟨⟨some n, none⟩, by rw [g2]; exact hn, rfl, rfl⟩
            · exact ⟨f, hf, rfl, rfl⟩
          obtain ⟨g, hg, p1, p2⟩ := hpat u x e hx hux he
          obtain ⟨g', hg', q1, q2⟩ := hpat v y e' hy hvy he'
          rw [hg] at hg'
          cases hg'
          unfold edgeComparable optComparable
          split
          · simp [← p2, ← q2]
          · simp [← p1, ← q1])
    have hok := pySorted_ok hus
    have hnodup : (us.map fun x => x.topology.key).Nodup :=
      (hok.1.map _).nodup_iff.2 (pySet_nodup _ _)
    have hsub : ∀ u ∈ us, u ∈ t :: (pairs ids).map (fun x =>
        (⟨t.topology.swapEdges x.1 x.2, t.states, t.interactions⟩ : Transition QObj N)) :=
      fun u hu => pySet_sub (hok.1.mem_iff.1 hu)
    refine ⟨us, ?_, ?_, fun u hu => hcand u (hsub u hu), ?_⟩
    · rw [hids]
      simp only [bind, Except.bind]
      rw [if_neg (by simpa using hne), hm]
      exact hus
    · intro x hx hxs
      -- some candidate exchanges `s` and `x`
      have hc : ∃ c ∈ t :: (pairs ids).map (fun x =>
          (⟨t.topology.swapEdges x.1 x.2, t.states, t.interactions⟩ : Transition QObj N)),
          Exchanged t s x c := by
        by_cases hxs' : x = s
        · subst hxs'; exact ⟨t, .head _, hself⟩
        · have hs0 : name s = name k0 := by
            by_cases e0 : k0 = s
            · rw [e0]
            · by_cases e1 : k1 = s
              · rw [hname01, e1]
              · -- then `k0` and `k1` are `i` and `j`, of which `x` is one
                have : x = k0 ∨ x = k1 := by omega
                rcases this with rfl | rfl
                · exact hxs.symm
                · rw [← hxs, hname01]
          have hsm : s ∈ ids := (hmem s).2 ⟨.inl rfl, hs0⟩
          have hxm : x ∈ ids := (hmem x).2 ⟨hx, by rw [hxs, hs0]⟩
          have hnodes : ∀ p q, (t.topology.swapEdges p q).nodes = t.topology.nodes := by
            intro p q; rw [swapEdges_eq _ _ _ h.valid.edges]
          rcases mem_pairs hsm hxm (Ne.symm hxs') with hp | hp
          · exact ⟨_, .tail _ (List.mem_map.2 ⟨_, hp, rfl⟩), hnodes _ _, rfl, rfl,
              fun k => get?_swapEdges _ _ _ h.valid.edges k⟩
          · refine ⟨_, .tail _ (List.mem_map.2 ⟨_, hp, rfl⟩), hnodes _ _, rfl, rfl, fun k => ?_⟩
            simp only
            rw [get?_swapEdges _ _ _ h.valid.edges k]
            congr 1
            unfold exch
            split_ifs <;> simp_all
      obtain ⟨c, hc, hcx⟩ := hc
      have hkc : c.topology.key ∈ us.map fun x => x.topology.key := by
        rw [(hok.1.map _).mem_iff, pySet_keys]
        exact List.mem_map.2 ⟨c, hc, rfl⟩
      obtain ⟨u, hu, huk⟩ := List.mem_map.1 hkc
      have hux : Exchanged t s x u := by
        obtain ⟨y, -, -, huy⟩ := hcand u (hsub u hu)
        rw [topologyKey_inj, dictItems_eq_iff] at huk
        exact ⟨by rw [huk.1, hcx.nodes], huy.states, huy.interactions,
          fun k => by rw [huk.2 k, hcx.edges]⟩
      refine ⟨u, ⟨hu, hux⟩, ?_⟩
      rintro v ⟨hv, hvx⟩
      exact List.inj_on_of_nodup_map hnodup hv hu (hvx.key_eq hux)
    · rw [List.nodup_iff_pairwise_ne, List.pairwise_map] at hnodup
      refine hnodup.imp ?_
      intro u v hne hs
      apply hne
      rw [topologyKey_inj, dictItems_eq_iff]
      exact hs.1

/-- C48: the result has one transition if no other final state has the name of the spectator. -/
theorem C48_singleton {N : Type} (t : Transition QObj N) (a s r i j : ℤ) (h : ThreeBody t a s r i j)
    (name : ℤ → String) (hname : ∀ k, k = s ∨ k = i ∨ k = j → HasName t k (name k))
    (h1 : name i ≠ name s) (h2 : name j ≠ name s) :
    ∃ u, permuteEqualFinalStates t = .ok [u] ∧ Same u t := by
  obtain ⟨us, hus, hex, hall, hpw⟩ := C48_orbit t a s r i j h name hname
  obtain ⟨u, ⟨hu, hux⟩, huniq⟩ := hex s (.inl rfl) rfl
  have hone : ∀ v ∈ us, v = u := by
    intro v hv
    obtain ⟨x, hx, hxn, hvx⟩ := hall v hv
    have : x = s := by
      rcases hx with rfl | rfl | rfl
      · rfl
      · exact absurd hxn h1
      · exact absurd hxn h2
    subst this
    exact huniq v ⟨hv, hvx⟩
  have hSame : ∀ v : Transition QObj N, Same v v := fun v =>
    ⟨⟨rfl, fun _ => rfl⟩, fun _ => rfl, fun _ => rfl⟩
  refine ⟨u, ?_, ⟨hux.nodes, fun k => ?_⟩, fun k => by rw [hux.states],
    fun k => by rw [hux.interactions]⟩
  · rw [hus]
    congr 1
    match us, hu, hone, hpw with
    | [v], _, hone, _ => rw [hone v (.head _)]
    | v :: w :: l, _, hone, hpw =>
      exfalso
      rw [List.pairwise_cons] at hpw
      apply hpw.1 w (.head _)
      rw [hone v (.head _), hone w (.tail _ (.head _))]
      exact hSame u
  · rw [hux.edges]
    congr 1
    split_ifs <;> simp_all

/-- `exTransition` has the final states `K0`, `Sigma+` and `p~`: one transition. -/
example (p d : QNode) : ∃ u, permuteEqualFinalStates (exTransition p d) = .ok [u] ∧
    Same u (exTransition p d) := by
  refine C48_singleton _ _ _ _ _ _ (exTransition_threeBody p d)
    (fun k => if k = 0 then "K0" else if k = 1 then "Sigma+" else "p~") ?_ (by decide) (by decide)
  rintro k (rfl | rfl | rfl)
  · exact ⟨_, _, rfl, rfl, rfl⟩
  · exact ⟨_, _, rfl, rfl, rfl⟩
  · exact ⟨_, _, rfl, rfl, rfl⟩

/-- `J/psi → pi0 (f0 → pi0 gamma)`-like transition: the spectator and one decay product are equal. -/
def exEqual (third : String) : Transition QObj QNode :=
  ⟨exTopology (-1) 0 3 1 2,
    [(-1, .state (exQ "J/psi" 1 (some (-1))) 1), (0, .state (exQ "pi0" 0 (some (-1))) 0),
      (1, .state (exQ "pi0" 0 (some (-1))) 0), (2, .state (exQ third 1 (some (-1))) 1),
      (3, .state (exQ "f" 1 (some 1)) 0)], [(0, .none), (1, .none)]⟩

theorem exEqual_threeBody (third : String) : ThreeBody (exEqual third) (-1) 0 3 1 2 where
  valid := {
    edges := by simp [exEqual, exTopology, PyDict.keys]
    states := by simp [exEqual, PyDict.keys]
    interactions := by simp [exEqual, PyDict.keys]
    sameEdges := fun k => by
      simp only [exEqual, exTopology, PyDict.keys, List.map_cons, List.map_nil, List.mem_cons,
        List.not_mem_nil, or_false]
    sameNodes := fun k => by simp [exEqual, exTopology, PyDict.keys] }
  nodes := rfl
  ids := fun k => by
    simp only [exEqual, exTopology, PyDict.keys, List.map_cons, List.map_nil, List.mem_cons,
      List.not_mem_nil, or_false]
    omega
  distinct := by decide
  initial := rfl
  spectator := rfl
  resonance := rfl
  product1 := rfl
  product2 := rfl
  order := by decide

/-- With two or three equal final states the result contains the transition in which state 1 is the
spectator. -/
example (third : String) : ∃ us, permuteEqualFinalStates (exEqual third) = .ok us ∧
    ∃ u ∈ us, Exchanged (exEqual third) 0 1 u := by
  obtain ⟨us, h, hex, -⟩ := C48_orbit (exEqual third) _ _ _ _ _ (exEqual_threeBody third)
    (fun k => if k = 2 then third else "pi0") (by
      rintro k (rfl | rfl | rfl)
      · exact ⟨_, _, rfl, rfl, rfl⟩
      · exact ⟨_, _, rfl, rfl, rfl⟩
      · exact ⟨_, _, rfl, rfl, rfl⟩)
  obtain ⟨u, ⟨hu, hux⟩, -⟩ := hex 1 (.inr (.inl rfl)) rfl
  exact ⟨us, h, u, hu, hux⟩

end Verif.Qrules
