import Verif.Model.DistinctDecays
import Verif.Spec.DistinctDecays
import Verif.Props.PlotLabels

/-! Property C133: the table of decays without duplicates. -/
namespace Verif.ThreeBody
open Verif Verif.Spec

variable {d : Decay}

theorem identifier_eq {c c' : Chain} : getDecayIdentifier c = getDecayIdentifier c' ↔ SameDecay c c' := by
  simp [getDecayIdentifier, SameDecay]

theorem distinct_item {k : Obj × List String} {c : Chain}
    (h : (k, c) ∈ PyDict.ofItems (d.chains.map fun c => (getDecayIdentifier c, c))) :
    k = getDecayIdentifier c ∧ c ∈ d.chains := by
  obtain ⟨c', hc', e⟩ := List.mem_map.1 (PyDict.mem_ofItems h)
  cases e
  exact ⟨rfl, hc'⟩

/-- C133: the table shows chains of the decay only, every decay is shown, and none of them twice. -/
theorem C133_table : (∀ c ∈ distinctChains d, c ∈ d.chains) ∧ (∀ c ∈ d.chains, ∃ c' ∈ distinctChains d, SameDecay c c') ∧
    (distinctChains d).Pairwise fun c c' => ¬ SameDecay c c' := by
  refine ⟨fun c hc => ?_, fun c hc => ?_, ?_⟩
  · obtain ⟨x, hx, rfl⟩ := List.mem_map.1 hc
    exact (distinct_item hx).2
  · have hk := (keys_ofItems_map d.chains getDecayIdentifier id (getDecayIdentifier c)).2 ⟨c, hc, rfl⟩
    obtain ⟨x, hx, e⟩ := List.mem_map.1 hk
    exact ⟨x.2, List.mem_map.2 ⟨x, hx, rfl⟩, identifier_eq.1 (e.symm.trans (distinct_item (d := d) (c := x.2) hx).1)⟩
  · have hnd := PyDict.nodup_ofItems (d.chains.map fun c => (getDecayIdentifier c, c))
    unfold distinctChains
    rw [List.pairwise_map]
    refine (List.pairwise_map.1 hnd).imp_of_mem fun {x y} hx hy hne hs => hne ?_
    exact (distinct_item (d := d) (c := x.2) hx).1.trans
      ((identifier_eq.2 hs).trans (distinct_item (d := d) (c := y.2) hy).1.symm)

/-- C133: of the chains that show the same decay, the last one is in the table. -/
theorem C133_last (c : Chain) : c ∈ distinctChains d ↔
    ∃ pre post, d.chains = pre ++ c :: post ∧ ∀ c' ∈ post, ¬ SameDecay c' c := by
  have hnd := PyDict.nodup_ofItems (d.chains.map fun c => (getDecayIdentifier c, c))
  have hmem : c ∈ distinctChains d ↔
      PyDict.get? (PyDict.ofItems (d.chains.map fun c => (getDecayIdentifier c, c))) (getDecayIdentifier c) = some c := by
    constructor
    · intro h
      obtain ⟨⟨k, c'⟩, hx, e⟩ := List.mem_map.1 h
      cases e
      obtain ⟨rfl, -⟩ := distinct_item hx
      exact PyDict.get?_of_mem hnd hx
    · intro h
      exact List.mem_map.2 ⟨_, PyDict.mem_of_get? h, rfl⟩
  rw [hmem, PyDict.get?_ofItems, PyDict.get?_reverse_iff]
  constructor
  · rintro ⟨pre, post, h1, h2⟩
    obtain ⟨l1, l2, e1, -, e2⟩ := List.map_eq_append_iff.1 h1
    obtain ⟨c', l3, rfl, e3, rfl⟩ := List.map_eq_cons_iff.1 e2
    obtain rfl : c' = c := congrArg Prod.snd e3
    exact ⟨l1, l3, e1, fun c' hc' hs => h2 _ (List.mem_map.2 ⟨c', hc', rfl⟩) (identifier_eq.2 hs)⟩
  · rintro ⟨pre, post, h1, h2⟩
    refine ⟨pre.map fun c => (getDecayIdentifier c, c), post.map fun c => (getDecayIdentifier c, c), by rw [h1]; simp, ?_⟩
    intro x hx
    obtain ⟨c', hc', rfl⟩ := List.mem_map.1 hx
    exact fun e => h2 c' hc' (identifier_eq.1 e)

/-- C133: if the final states of a decay have different names, chains that show the same decay are equal except for their
couplings: parent, resonance, decay products and spectator are the same. -/
theorem C133_states (hd : d.Valid) (hn : ∀ s ∈ (finalStateDict d.states).map Prod.snd,
      ∀ s' ∈ (finalStateDict d.states).map Prod.snd, s.name = s'.name → s = s')
    {c c' : Chain} (hc : c ∈ d.chains) (hc' : c' ∈ d.chains) (h : SameDecay c c') :
    c.parent = c'.parent ∧ c.resonance = c'.resonance ∧ c.product1 = c'.product1 ∧ c.product2 = c'.product2 ∧
      c.spectator = c'.spectator := by
  obtain ⟨⟨s0, h1, -, h2⟩, hperm, hnd, -⟩ := C17_valid_decay hd hc
  obtain ⟨⟨s0', h1', -, h2'⟩, hperm', hnd', -⟩ := C17_valid_decay hd hc'
  obtain ⟨hr, hp1, hp2⟩ := h
  have e1 : c.product1 = c'.product1 := hn _ (hperm.symm.subset (by simp)) _ (hperm'.symm.subset (by simp)) hp1
  have e2 : c.product2 = c'.product2 := hn _ (hperm.symm.subset (by simp)) _ (hperm'.symm.subset (by simp)) hp2
  refine ⟨?_, hr, e1, e2, ?_⟩
  · rw [h1] at h1'
    rw [h2, h2', Option.some.inj h1']
  · have : c.spectator ∈ [c'.product1, c'.product2, c'.spectator] := hperm'.subset (hperm.symm.subset (by simp))
    simp only [List.mem_cons, List.not_mem_nil, or_false] at this
    simp only [List.nodup_cons, List.mem_cons, List.not_mem_nil, or_false, not_or] at hnd
    rcases this with e | e | e
    · exact absurd (by rw [e, e1]) hnd.1.2
    · exact absurd (by rw [e, e2]) hnd.2.1
    · exact e

/-! ### Identical particles -/

def idState (i : ℤ) : State := exState "K" 0 (1/2) i
def idStates : PyDict ℤ State :=
  [(0, exState "Xib" (1/2) 6 0), (1, exState "p" (1/2) 1 1), (2, idState 2), (3, idState 3)]
def idNode (i j : ℤ) : Node :=
  .isobar (.state (exState "Xib" (1/2) 6 0))
    (.isobar (.particle ⟨"L*", "L^*", 3/2, some (-1), 3/2, 1/60⟩)
      (.leaf (.state (exState "p" (1/2) 1 1))) (.leaf (.state (idState i))) (some ⟨2, 1/2⟩))
    (.leaf (.state (idState j))) (some ⟨1, 3/2⟩)
def idChain (i j : ℤ) : Chain :=
  ⟨idNode i j, exState "Xib" (1/2) 6 0, .particle ⟨"L*", "L^*", 3/2, some (-1), 3/2, 1/60⟩,
    exState "p" (1/2) 1 1, idState i, idState j, some ⟨1, 3/2⟩, some ⟨2, 1/2⟩⟩
/-- Ξb → p K K with a resonance in both p K subsystems, as in docs/xib2pkk.ipynb. -/
def idDecay : Decay := ⟨idStates, [idChain 2 3, idChain 3 2]⟩

theorem idNode_ok : Chain.new (idNode 2 3) = .ok (idChain 2 3) ∧ Chain.new (idNode 3 2) = .ok (idChain 3 2) := by
  constructor
  · rw [chainNew_shape _ _ _ _ _ _ _ (idNode 2 3) (.inl rfl)]; rfl
  · rw [chainNew_shape _ _ _ _ _ _ _ (idNode 3 2) (.inl rfl)]; rfl

theorem idDecay_valid : idDecay.Valid := by
  refine ⟨?_, ?_⟩
  · have hf : (finalStateDict idStates).map Prod.snd = [exState "p" (1/2) 1 1, idState 2, idState 3] := rfl
    have : checkChains (exState "Xib" (1/2) 6 0) ((finalStateDict idStates).map Prod.snd) idDecay.chains = .ok () := by
      rw [checkChains_ok, hf]
      intro c hc
      rcases List.mem_cons.1 hc with rfl | hc
      · refine ⟨rfl, fun s => ?_⟩
        simp only [idChain, List.mem_cons, List.not_mem_nil, or_false]
        tauto
      · rcases List.mem_cons.1 hc with rfl | hc
        · refine ⟨rfl, fun s => ?_⟩
          simp only [idChain, List.mem_cons, List.not_mem_nil, or_false]
          tauto
        · simp at hc
    have h0 : initialState idDecay.states = .ok (exState "Xib" (1/2) 6 0) := rfl
    unfold Decay.new
    rw [h0]
    simp only [bind, Except.bind]
    rw [show idDecay.states = idStates from rfl, this]; rfl
  intro c hc
  rcases List.mem_cons.1 hc with rfl | hc
  · exact idNode_ok.1
  · rcases List.mem_cons.1 hc with rfl | hc
    · exact idNode_ok.2
    · simp at hc

/-- C133: with identical particles the table merges chains of different subsystems: the condition on the names in
`C133_states` cannot be dropped. -/
theorem C133_identical : ∃ d : Decay, d.Valid ∧ ∃ c ∈ d.chains, ∃ c' ∈ d.chains, SameDecay c c' ∧
    c.spectator ≠ c'.spectator ∧ c ∉ distinctChains d ∧ distinctChains d = [c'] :=
  ⟨idDecay, idDecay_valid, idChain 2 3, by simp [idDecay], idChain 3 2, by simp [idDecay], ⟨rfl, rfl, rfl⟩,
    by decide +kernel, by decide +kernel, by decide +kernel⟩

/-- A decay with a second chain for its first resonance: the table has the second one of them, in the place of the first. -/
example : ∃ d : Decay, d.chains.length = 3 ∧ (distinctChains d).length = 2 ∧
    ∃ c ∈ d.chains, c ∉ distinctChains d :=
  ⟨⟨exStates, [exChainK, exChainL, { exChainK with incomingLs := some ⟨7, 1⟩ }]⟩, rfl, by decide +kernel,
    exChainK, by simp, by decide +kernel⟩

/-- The example decay meets the conditions of `C133_states`. -/
example : exDecay.Valid ∧ ∀ s ∈ (finalStateDict exDecay.states).map Prod.snd,
    ∀ s' ∈ (finalStateDict exDecay.states).map Prod.snd, s.name = s'.name → s = s' :=
  ⟨exDecay_valid, by decide +kernel⟩

end Verif.ThreeBody
