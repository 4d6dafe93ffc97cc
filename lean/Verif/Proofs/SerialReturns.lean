import Verif.Proofs.SerialValue
import Verif.Props.SerialRecoupling

/-! `formulate` returns for complete serialized models. -/
namespace Verif.Serialization
open Verif Verif.ThreeBody Verif.Spec Verif.Spin Verif.Angles

variable {m : ModelDefinition} {tl : String → String} {add : Option (PyDict String PropagatorBuilder)}

theorem scatteringAngle_returns {r : Reading} (hs : r.Standard) :
    ∃ θ, formulateScatteringAngle r.i r.j = .ok θ := by
  obtain ⟨hi, hj, -, hn⟩ := standard_mem hs
  simp only [List.nodup_cons, List.mem_cons, List.not_mem_nil, or_false, not_or] at hn
  have hne := hn.1.1
  generalize r.i = i at *
  generalize r.j = j at *
  simp only [List.mem_cons, List.not_mem_nil, or_false] at hi hj
  rcases hi with rfl | rfl | rfl <;> rcases hj with rfl | rfl | rfl <;>
    first | exact absurd rfl hne | exact ⟨_, rfl⟩

theorem chain_returns {cs : List ChainDefinition} (hm : getDecayChains m = .ok cs) {n : ℕ}
    {c : ChainDefinition} (hc : cs[n]? = some c) {r : Reading} (hr : Reads c r) (hs : r.Standard)
    (hok : CompleteChain m tl add c) (l0 l1 l2 l3 : ℚ) :
    ∃ a, formulateChainAmplitude l0 l1 l2 l3 m n tl add = .ok a := by
  obtain ⟨d, hd⟩ := hok.lineshape
  obtain ⟨ds, hds⟩ := forall₂_exists hok.formFactors
  obtain ⟨w, hw⟩ := Option.isSome_iff_exists.1 hok.weight
  obtain ⟨s, hsp, -⟩ := hok.spin
  obtain ⟨k, hk, htop⟩ := hok.topology
  obtain ⟨θ, hθ⟩ := scatteringAngle_returns hs
  obtain ⟨a, b, hres⟩ := resonanceHelicity_of hr
  obtain ⟨v0, v1, hv⟩ := reads_two hr
  have g0 : c.vertices[0]? = some v0 := by rw [hv]; rfl
  have g1 : c.vertices[1]? = some v1 := by rw [hv]; rfl
  have hrec : ∀ (k : ℕ) v, c.vertices[k]? = some v → ∃ e, formulateRecoupling m n k = .ok e := by
    intro k v hv'
    obtain ⟨x, y, a, b, -, hx, hh, -⟩ := vertex_facts hr hv'
    obtain ⟨e, he, -⟩ := C55_recoupling hm hc (by rw [hv]; rfl) hv' hx hh
      (hok.vertices v (List.mem_of_getElem? hv'))
    exact ⟨e, he⟩
  obtain ⟨e0, he0⟩ := hrec 0 v0 g0
  obtain ⟨e1, he1⟩ := hrec 1 v1 g1
  rw [Nat.cast_zero] at he0
  rw [Nat.cast_one] at he1
  have hdec := decayProducts_of hr
  have hff := (formFactors_ok (m := m) (d := d)).2 ⟨ds, hds, rfl⟩
  have hwt := (weight_ok (tl := tl) hr hs _).2 ⟨w, hw, rfl⟩
  have hbase : amplitudeBase k = .ok () := by
    unfold amplitudeBase
    rw [if_pos hk]
  unfold formulateChainAmplitude
  rw [hm]
  simp only [bind, Except.bind, pure, Except.pure, item_ok.2 hc, hd, hff, hwt, hdec, hθ,
    resonanceSpin_ok.2 hsp, hres, ((C52_spectator _).1 k).2 htop, he0, he1, hbase]
  exact ⟨_, rfl⟩

theorem loop_returns {ps : List ((ℚ × ℚ × ℚ × ℚ) × ℕ)}
    (h : ∀ x ∈ ps, ∀ l0 l1 l2 l3, ∃ a, formulateChainAmplitude l0 l1 l2 l3 m x.2 tl add = .ok a) (acc : Acc) :
    ∃ acc', chainLoop m tl add ps acc = .ok acc' := by
  induction ps generalizing acc with
  | nil => exact ⟨acc, rfl⟩
  | cons x t ih =>
    obtain ⟨l, n⟩ := x
    obtain ⟨a, ha⟩ := h (l, n) (List.mem_cons_self ..) l.1 l.2.1 l.2.2.1 l.2.2.2
    unfold chainLoop
    simp only at ha
    rw [ha]
    exact ih (fun x hx => h x (List.mem_cons_of_mem _ hx)) _

theorem wellFormedChain_of {c : ChainDefinition} {r : Reading} (hr : Reads c r) (hs : r.Standard)
    (h : ∃ s, HasSpin c s ∧ IsHalfInteger s) : WellFormedChain c := by
  obtain ⟨s, h1, h2⟩ := h
  obtain ⟨p, q, ho, ⟨a, b, hp⟩, hq, -⟩ := hr
  refine ⟨p, q, r.i, r.j, r.k, s, ⟨ho, ⟨a, b, ?_⟩, hq⟩, hs, h1, h2⟩
  rcases hp with ⟨hp, -⟩ | ⟨hp, -⟩
  · exact .inl hp
  · exact .inr hp

theorem formulate_returns {D : Distribution} {rd : ChainDefinition → Reading} (hm : ReadsModel m D rd)
    {ref : ℤ} (href : IsSpectator D.referenceTopology ref) (href' : ref ∈ ([1, 2, 3] : List ℤ))
    (hok : ∀ c ∈ D.chains, CompleteChain m tl add c) (cl : Bool) :
    ∃ a, formulate m cl tl add = .ok a := by
  obtain ⟨hD, hk, hrd⟩ := hm
  have hD' := hD
  obtain ⟨rest, hr⟩ := hD'
  obtain ⟨d, hdec⟩ := C53_returns hr hk
    (fun c hc => wellFormedChain_of (hrd c hc).1 (hrd c hc).2 (hok c hc).spin) identityFunction
  obtain ⟨hd, hst, -⟩ := toDecay_standard hD hk hdec
  have hg : ∀ i ∈ ([0, 1, 2, 3] : List ℤ), PyDict.get d.states i = .ok (d.st i) := fun i hi =>
    Standard.get hd hi
  have hsp : tup (d.st 0).spin (d.st 1).spin (d.st 2).spin (d.st 3).spin = spins d := rfl
  obtain ⟨acc, hacc⟩ := loop_returns (m := m) (tl := tl) (add := add)
    (ps := (helicityTuples (spins d)).product (List.range D.chains.length)) (by
      intro x hx l0 l1 l2 l3
      have hn := List.mem_range.1 (List.mem_product.1 hx).2
      have hc : D.chains[x.2]? = some D.chains[x.2] := List.getElem?_eq_getElem hn
      have hcm := List.getElem_mem hn
      exact chain_returns (chains_ok hD) hc (hrd _ hcm).1 (hrd _ hcm).2 (hok _ hcm) l0 l1 l2 l3) {}
  obtain ⟨w, hw⟩ := distribution_head hr
  obtain ⟨ks, hks⟩ := forall₂_exists (l := D.chains)
    (R := fun c k => getSpectatorId c.topology = .ok k ∧ k ∈ ([1, 2, 3] : List ℤ)) (fun c hc => by
      obtain ⟨k, hk, ht⟩ := (hok c hc).topology
      exact ⟨k, ((C52_spectator _).1 k).2 ht, hk⟩)
  have hids : getExistingSubsystemIds m = .ok (sortedSet ks) := by
    unfold getExistingSubsystemIds
    rw [hw]
    simp only [bind_ok]
    exact ⟨_, rfl, ks, (mapM_ok_iff _ _ _).2 (hks.imp fun _ _ h => h.1), rfl⟩
  have hmem : ∀ k ∈ sortedSet ks, k ∈ ([1, 2, 3] : List ℤ) := by
    intro k hk
    rw [sortedSet_mem] at hk
    obtain ⟨c, -, hc⟩ := Qrules.forall₂_mem_right hks hk
    exact hc.2
  have hal : ∃ e, formulateAlignedAmplitude m (fun i => .sym (lambdaSym i)) = .ok e := by
    unfold formulateAlignedAmplitude
    rw [reference_ok hD, hst]
    simp only [bind, Except.bind, pure, Except.pure, ((C52_spectator _).1 ref).2 href, serialFourSpins_eq hd,
      hids]
    rw [mapM_ok _ (fun _ => ()) _ (fun k hk => by unfold amplitudeBase; rw [if_pos (hmem k hk)])]
    simp only
    rw [alignedSum_eq href' _ _ _ hmem]
    exact ⟨_, rfl⟩
  obtain ⟨e, he⟩ := hal
  unfold formulate
  rw [hst, chains_ok hD, hdec]
  simp only [bind, Except.bind, pure, Except.pure, hg 0 (by simp), hg 1 (by simp), hg 2 (by simp),
    hg 3 (by simp), hsp, hacc, he, createMassSymbolMapping_eq hd, formulateInvariants_eq hd]
  exact ⟨_, rfl⟩

end Verif.Serialization
