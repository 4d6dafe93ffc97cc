import Verif.Model.PlotLabels
import Verif.Proofs.ExampleBuilder
import Verif.Proofs.Warnings
import Verif.Spec.Kinematics

/-! Property C131: decay products of a subsystem and labels of the Dalitz plot. -/
namespace Verif.ThreeBody
open Verif Verif.Spec

variable {d : Decay}

theorem mem_keys_final {n : ℤ} : n ∈ PyDict.keys (finalStateDict d.states) ↔ n ≠ 0 ∧ ∃ x ∈ d.states, x.2.index = n := by
  unfold finalStateDict
  rw [keys_ofItems_map]
  simp only [List.mem_map, List.mem_filter, decide_eq_true_eq]
  constructor
  · rintro ⟨s, ⟨⟨x, hx, rfl⟩, hs⟩, rfl⟩
    exact ⟨by simpa using hs, x, hx, rfl⟩
  · rintro ⟨hn, x, hx, rfl⟩
    exact ⟨x.2, ⟨⟨x, hx, rfl⟩, by simpa using hn⟩, rfl⟩

/-- C131: exactly the IDs of final states are accepted, otherwise `ValueError`. -/
theorem C131_errors (n : ℤ) (e : PyErr) :
    getDecayProducts d n = .error e ↔ e = .valueError ∧ ¬ (n ≠ 0 ∧ ∃ x ∈ d.states, x.2.index = n) := by
  unfold getDecayProducts
  rw [← mem_keys_final]
  split
  · rename_i h
    constructor
    · intro he; cases he; exact ⟨rfl, h⟩
    · rintro ⟨rfl, -⟩; rfl
  · rename_i h
    constructor
    · intro he; cases he
    · rintro ⟨-, h'⟩; exact absurd h' h

/-- C131: for the subsystem of a chain, the products are the two states that the resonance of the chain decays to. -/
theorem C131_chain (hd : d.Valid) {c : Chain} (hc : c ∈ d.chains) :
    ∃ ps, getDecayProducts d c.spectator.index = .ok ps ∧ ps.Perm [c.product1, c.product2] := by
  obtain ⟨-, hperm, hnd, hne⟩ := C17_valid_decay hd hc
  have hs : c.spectator ∈ (finalStateDict d.states).map Prod.snd := hperm.symm.subset (by simp)
  have hk : c.spectator.index ∈ PyDict.keys (finalStateDict d.states) := by
    rw [mem_keys_final]
    rw [mem_finalStateDict] at hs
    obtain ⟨h0, pre, post, hl, -⟩ := hs
    have hmem : c.spectator ∈ d.states.map Prod.snd := by rw [hl]; simp
    obtain ⟨x, hx, he⟩ := List.mem_map.1 hmem
    exact ⟨h0, x, hx, by rw [he]⟩
  refine ⟨_, by unfold getDecayProducts; rw [if_neg (not_not.2 hk)], ?_⟩
  refine (hperm.filter _).trans ?_
  simp only [List.nodup_cons, List.mem_cons, List.not_mem_nil, or_false, not_or] at hnd
  rw [List.filter_cons_of_pos (by simpa using hnd.1.2), List.filter_cons_of_pos (by simpa using hnd.2.1),
    List.filter_cons_of_neg (by simp)]
  rfl

/-- C131: for each of the three subsystems of a decay, with or without chains, the products are the two other final states, in the
order in which the decay stores its states. -/
theorem C131_products (hd : Standard d) {i j k : ℤ} (h : IsPerm123 i j k) :
    ∃ ps, getDecayProducts d i = .ok ps ∧ ps.Perm [d.st j, d.st k] ∧ ps.Sublist (d.states.map Prod.snd) := by
  have hm := Angles.perm_mem h
  have hne : i ≠ j ∧ i ≠ k ∧ j ≠ k := by
    rcases Angles.perm_cases h with ⟨rfl, rfl, rfl⟩ | ⟨rfl, rfl, rfl⟩ | ⟨rfl, rfl, rfl⟩ |
      ⟨rfl, rfl, rfl⟩ | ⟨rfl, rfl, rfl⟩ | ⟨rfl, rfl, rfl⟩ <;> decide
  have hk : i ∈ PyDict.keys (finalStateDict d.states) :=
    mem_keys_final.2 ⟨by rintro rfl; simp at hm, _, Standard.mem hd (Angles.mem0 hm.1), Standard.st_index hd (Angles.mem0 hm.1)⟩
  refine ⟨_, by unfold getDecayProducts; rw [if_neg (not_not.2 hk)], ?_, ?_⟩
  · rw [finalStateDict_eq hd]
    have hnd : ((d.states.filter (·.1 ≠ 0)).map Prod.snd).Nodup := by
      refine List.Nodup.map_on ?_ ((List.Nodup.of_map _ (Standard.nodup hd)).filter _)
      intro x hx y hy hxy
      have e1 := hd.index _ (List.mem_filter.1 hx).1
      have e2 := hd.index _ (List.mem_filter.1 hy).1
      exact Prod.ext (by rw [← e1, ← e2, hxy]) hxy
    refine (List.perm_ext_iff_of_nodup (hnd.filter _) ?_).2 ?_
    · refine List.nodup_cons.2 ⟨?_, by simp⟩
      simp only [List.mem_singleton]
      intro e
      have := congrArg State.index e
      rw [Standard.st_index hd (Angles.mem0 hm.2.1), Standard.st_index hd (Angles.mem0 hm.2.2)] at this
      exact hne.2.2 this
    · intro s
      simp only [List.mem_filter, List.mem_map, List.mem_cons, List.not_mem_nil, or_false, decide_eq_true_eq]
      constructor
      · rintro ⟨⟨⟨n, s'⟩, ⟨hx, h0⟩, rfl⟩, hi⟩
        have e := hd.index _ hx
        have hn : n ∈ ([0, 1, 2, 3] : List ℤ) := hd.keys.subset (List.mem_map.2 ⟨_, hx, rfl⟩)
        have hs : s' = d.st n := by
          have g := PyDict.get?_of_mem (Standard.nodup hd) hx
          rw [Decay.st, g]; rfl
        simp only at e h0 hi
        rw [e] at hi
        have : n = j ∨ n = k := by
          simp only [List.mem_cons, List.not_mem_nil, or_false] at hn
          rcases Angles.perm_cases h with ⟨rfl, rfl, rfl⟩ | ⟨rfl, rfl, rfl⟩ | ⟨rfl, rfl, rfl⟩ |
            ⟨rfl, rfl, rfl⟩ | ⟨rfl, rfl, rfl⟩ | ⟨rfl, rfl, rfl⟩ <;> omega
        rcases this with rfl | rfl
        · exact .inl hs
        · exact .inr hs
      · have key : ∀ n ∈ ([1, 2, 3] : List ℤ), i ≠ n → (∃ a, (a ∈ d.states ∧ a.1 ≠ 0) ∧ a.2 = d.st n) ∧ (d.st n).index ≠ i := by
          intro n hn hi
          refine ⟨⟨_, ⟨Standard.mem hd (Angles.mem0 hn), ?_⟩, rfl⟩, ?_⟩
          · rintro rfl; simp at hn
          · rw [Standard.st_index hd (Angles.mem0 hn)]; exact hi.symm
        rintro (rfl | rfl)
        · exact key j hm.2.1 hne.1
        · exact key k hm.2.2 hne.2.1
  · rw [finalStateDict_eq hd]
    exact (List.filter_sublist).trans ((List.filter_sublist).map _)

/-- C131: the label of `σ_n` names the two particles whose invariant mass squared it is, in every event. -/
theorem C131_labels (hd : Standard d) : ∃ labels, sigmaLabels d = .ok labels ∧ PyDict.keys labels = [1, 2, 3] ∧
    ∀ n ∈ ([1, 2, 3] : List ℤ), ∃ j k, IsPerm123 n j k ∧ PyDict.get? labels n = some ("$\\sigma_" ++ toString n ++
        " = M^2\\left(" ++ (d.st j).latex ++ " " ++ (d.st k).latex ++ "\\right)$") ∧
      ∀ {V : Type} [NormedAddCommGroup V] [InnerProductSpace ℝ V] (ρ : Sym → ℝ) (ev : Event V), AtEvent ρ ev →
        ρ ⟨"sigma" ++ toString n, .nonneg⟩ = (ev.P j + ev.P k).sq := by
  have h1 : ∀ n ∈ ([1, 2, 3] : List ℤ), ∃ j k, IsPerm123 n j k ∧ sigmaLabel d n = .ok ("$\\sigma_" ++ toString n ++
        " = M^2\\left(" ++ (d.st j).latex ++ " " ++ (d.st k).latex ++ "\\right)$") := by
    have key : ∀ n j k, IsPerm123 n j k → IsPerm123 n k j → ∃ j k, IsPerm123 n j k ∧ sigmaLabel d n = .ok ("$\\sigma_" ++ toString n ++
        " = M^2\\left(" ++ (d.st j).latex ++ " " ++ (d.st k).latex ++ "\\right)$") := by
      intro n j k h h'
      obtain ⟨ps, hps, hp, -⟩ := C131_products hd h
      have hl : ∀ a b : String, " ".intercalate [a, b] = a ++ " " ++ b := by
        intro a b; rfl
      have hlab : ∀ j k, ps = [d.st j, d.st k] → sigmaLabel d n = .ok ("$\\sigma_" ++ toString n ++
          " = M^2\\left(" ++ (d.st j).latex ++ " " ++ (d.st k).latex ++ "\\right)$") := by
        rintro j k rfl
        unfold sigmaLabel
        rw [hps]
        simp only [bind, Except.bind, pure, Except.pure, List.map_cons, List.map_nil, hl, String.append_assoc]
      rcases List.perm_pair.1 hp with e | e
      · exact ⟨j, k, h, hlab _ _ e⟩
      · exact ⟨k, j, h', hlab _ _ e⟩
    intro n hn
    simp only [List.mem_cons, List.not_mem_nil, or_false] at hn
    rcases hn with rfl | rfl | rfl
    · exact key 1 2 3 (by unfold IsPerm123; decide) (by unfold IsPerm123; decide)
    · exact key 2 3 1 (by unfold IsPerm123; decide) (by unfold IsPerm123; decide)
    · exact key 3 1 2 (by unfold IsPerm123; decide) (by unfold IsPerm123; decide)
  obtain ⟨j1, k1, p1, e1⟩ := h1 1 (by simp)
  obtain ⟨j2, k2, p2, e2⟩ := h1 2 (by simp)
  obtain ⟨j3, k3, p3, e3⟩ := h1 3 (by simp)
  have hev : ∀ {n j k : ℤ}, IsPerm123 n j k → ∀ {V : Type} [NormedAddCommGroup V] [InnerProductSpace ℝ V] (ρ : Sym → ℝ)
      (ev : Event V), AtEvent ρ ev → ρ ⟨"sigma" ++ toString n, .nonneg⟩ = (ev.P j + ev.P k).sq := by
    intro n j k h V _ _ ρ ev ha
    have hc : ∀ a b : FourVec V, (a + b).sq = (b + a).sq := by
      intro a b
      simp only [FourVec.sq, FourVec.add_E, FourVec.add_p, add_comm]
    rcases Angles.perm_cases h with ⟨rfl, rfl, rfl⟩ | ⟨rfl, rfl, rfl⟩ | ⟨rfl, rfl, rfl⟩ |
      ⟨rfl, rfl, rfl⟩ | ⟨rfl, rfl, rfl⟩ | ⟨rfl, rfl, rfl⟩
    all_goals first
      | exact ha.s1 | exact ha.s2 | exact ha.s3
      | (rw [hc]; first | exact ha.s1 | exact ha.s2 | exact ha.s3)
  refine ⟨_, by
    unfold sigmaLabels
    simp only [List.mapM_cons, List.mapM_nil, e1, e2, e3, bind, Except.bind, pure, Except.pure]
    rfl, rfl, ?_⟩
  intro n hn
  simp only [List.mem_cons, List.not_mem_nil, or_false] at hn
  rcases hn with rfl | rfl | rfl
  · exact ⟨j1, k1, p1, rfl, hev p1⟩
  · exact ⟨j2, k2, p2, rfl, hev p2⟩
  · exact ⟨j3, k3, p3, rfl, hev p3⟩

/-- The example decay `Λc → p π K`: the label of `σ1`, and an ID that is not one of a final state. -/
example : Standard exDecay ∧ exDecay.Valid ∧ exChainK ∈ exDecay.chains ∧ IsPerm123 1 2 3 ∧
    sigmaLabel exDecay 1 = .ok "$\\sigma_1 = M^2\\left(pi K\\right)$" ∧ getDecayProducts exDecay 0 = .error .valueError ∧
    getDecayProducts exDecay 4 = .error .valueError :=
  ⟨exDecay_standard, exDecay_valid, by simp [exDecay], by unfold IsPerm123; decide, by decide +kernel,
    (C131_errors 0 _).2 ⟨rfl, fun h => h.1 rfl⟩, by decide +kernel⟩

end Verif.ThreeBody
