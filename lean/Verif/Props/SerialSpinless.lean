import Verif.Spec.FrontEnds
import Verif.Props.SerialDynamics
import Verif.Props.Superposition

/-! Property C103: serialized models of decays of spinless particles. -/
namespace Verif.Serialization
open Verif Verif.ThreeBody Verif.Spec Verif.Spin Verif.Angles

variable {m : ModelDefinition} {tl : String → String} {add : Option (PyDict String PropagatorBuilder)}
  {D : Distribution} {rd : ChainDefinition → Reading} {cl : Bool} {a : AmplitudeModel} {ref : ℤ} {ι : Interp}
  {line : ChainDefinition → ℂ} {form : Vertex → ℂ}

theorem spinless_nonneg (h0 : Spinless D) : NonnegativeSpins D := by
  intro x hx s hs
  rw [h0 x hx] at hs
  cases hs
  exact le_refl _

theorem spinless_decay (hm : ReadsModel m D rd) (h0 : Spinless D) (h : formulate m cl tl add = .ok a) :
    ∀ i ∈ ([0, 1, 2, 3] : List ℤ), a.decay.spin i = 0 := by
  obtain ⟨K, E, P, Θ, ref', ids, zetas, terms, hf⟩ := formulate_inv hm.head hm.kinematics h
  obtain ⟨hd, -, -⟩ := toDecay_standard hm.head hm.kinematics hf.decay
  obtain ⟨D', rest', hD', hs⟩ := C53_states hf.decay
  obtain ⟨rest, hr⟩ := hm.head
  have e : D' = D := by
    rw [hr] at hD'
    exact (List.cons.inj hD').1.symm
  subst e
  intro i hi
  obtain ⟨-, x, hx, hst⟩ := hs i (a.decay.st i) (get_ok.1 (Standard.get hd hi))
  have := h0 x hx
  have h2 := hst.1
  rw [this] at h2
  exact (Option.some.inj h2).symm

/-- Each chain has one subsystem. -/
theorem chain_subsystem (hm : ReadsModel m D rd) (h0 : NonnegativeSpins D) (h : formulate m cl tl add = .ok a)
    {c : ChainDefinition} (hc : c ∈ D.chains) : ∃ k ∈ ([1, 2, 3] : List ℤ), IsSpectator c.topology k := by
  obtain ⟨K, E, P, Θ, ref', ids, zetas, terms, hf⟩ := formulate_inv hm.head hm.kinematics h
  obtain ⟨n, hn, rfl⟩ := List.mem_iff_getElem.1 hc
  obtain ⟨l, hl⟩ := exists_helicity (toDecay_standard hm.head hm.kinematics hf.decay).1 (spins_nonneg hm h0 hf.decay)
  have hp : ((l, n) : (ℚ × ℚ × ℚ × ℚ) × ℕ) ∈ serialPairs D a.decay := mem_serialPairs.2 ⟨hl, hn⟩
  obtain ⟨c', hc', -, hs, -⟩ := pair_chain hm hf hp
  rw [List.getElem?_eq_getElem hn] at hc'
  injection hc' with hc'
  subst hc'
  exact ⟨_, (hf.table _ hp).mem, hs⟩

open Classical in
/-- A sum over subsystems and the chains of each is a sum over the chains. -/
theorem sum_subsystems {chains : List ChainDefinition}
    (h : ∀ c ∈ chains, ∃ k ∈ ([1, 2, 3] : List ℤ), IsSpectator c.topology k) (f : ChainDefinition → ℂ) :
    ∑ k ∈ topologySubsystems chains, (chains.map fun c => if IsSpectator c.topology k then f c else 0).sum =
      (chains.map f).sum := by
  have h1 : ∑ k ∈ topologySubsystems chains, (chains.map fun c => if IsSpectator c.topology k then f c else 0).sum =
      ∑ k ∈ ({1, 2, 3} : Finset ℤ), (chains.map fun c => if IsSpectator c.topology k then f c else 0).sum := by
    unfold topologySubsystems
    refine Finset.sum_subset (Finset.filter_subset _ _) fun k hk hk' => ?_
    refine List.sum_eq_zero fun x hx => ?_
    obtain ⟨c, hc, rfl⟩ := List.mem_map.1 hx
    rw [if_neg fun hs => hk' (Finset.mem_filter.2 ⟨hk, c, hc, hs⟩)]
  rw [h1]
  clear h1
  induction chains with
  | nil => simp
  | cons c t ih =>
    simp only [List.map_cons, List.sum_cons]
    rw [Finset.sum_add_distrib, ih fun c hc => h c (List.mem_cons_of_mem _ hc)]
    congr 1
    obtain ⟨k, hk, hs⟩ := h c (List.mem_cons_self ..)
    rw [Finset.sum_eq_single k]
    · rw [if_pos hs]
    · intro k' _ hne
      rw [if_neg fun hs' => hne (hs.2 _ hs'.1)]
    · intro hn
      exact absurd (by simpa using hk) hn

/-- C103: for four spinless particles the intensity is the squared modulus of one sum over all chains; there is
no alignment and the reference topology does not matter. -/
theorem C103_spinless (hm : ReadsModel m D rd) (h0 : Spinless D)
    (href : IsSpectator D.referenceTopology ref) (href' : ref ∈ ([1, 2, 3] : List ℤ))
    (h : formulate m cl tl add = .ok a) (hv : DynamicsValues m D.chains tl add ι line form) (η : Sym → ℚ) :
    a.fullExpression.eval ι η =
      (‖(D.chains.map fun c => serialValue ι tl line form (fun _ => 0) c (rd c)).sum‖ ^ 2 : ℝ) := by
  classical
  have hs := spinless_decay hm h0 h
  rw [(C70_intensity_value hm (spinless_nonneg h0) href href' h ι η).2]
  unfold intensityOver
  rw [projections_spin_zero hs, Finset.sum_singleton]
  unfold alignedOver
  rw [projections_spin_zero hs, Finset.sum_singleton]
  have hrot : ∀ k (i : Fin 4) x y, rotation ι a.decay ref k i x y = 1 := by
    intro k i x y
    unfold rotation
    rw [if_pos (hs i (by fin_cases i <;> simp))]
  simp only [hrot, mul_one]
  refine congrArg _ (congrArg (‖·‖ ^ 2) ?_)
  have hb : byId 0 = fun _ => (0 : ℚ) := by
    funext x
    unfold byId tup
    split_ifs <;> rfl
  rw [← sum_subsystems fun c hc => chain_subsystem hm (spinless_nonneg h0) h hc]
  refine Finset.sum_congr rfl fun k _ => ?_
  rw [C60_amplitude_value hm h hv η k (by rw [projections_spin_zero hs]; simp), hb]

theorem recoupling_zero (p : Option ℤ) (x y : ℚ) (h : x ≠ 0 ∨ y ≠ 0) : recouplingValue p x y 0 0 = 0 := by
  unfold recouplingValue
  have h1 : ¬ ((0 : ℚ) = x ∧ (0 : ℚ) = y) := by
    rintro ⟨rfl, rfl⟩
    simp at h
  have h2 : ¬ ((0 : ℚ) = -x ∧ (0 : ℚ) = -y) := by
    rintro ⟨h3, h4⟩
    rcases h with h | h
    · exact h (by linarith)
    · exact h (by linarith)
  rw [if_neg h1, if_neg h2]
  cases p <;> simp

theorem vertex_zero {v : Vertex} (hh : v.helicities = some [some 0, some 0]) (hn : ∃ x y, v.node = [x, y]) :
    vertexValue v 0 (fun _ => 0) = scalarFactor v := by
  obtain ⟨x, y, hn⟩ := hn
  have hc : ∀ t, childHelicity 0 (fun _ => 0) t = 0 := by
    intro t
    cases t <;> rfl
  unfold vertexValue scalarFactor vertexParity
  rw [hn, hh]
  simp only [hc]
  unfold recouplingValue
  by_cases ht : v.type = "parity"
  · rw [if_pos ht, if_pos ht]
    norm_num
  · rw [if_neg ht, if_neg ht]
    norm_num

/-- C103: if the vertices of all chains have helicity zero, the terms of the sum are weight, `d^J_{00}` of the
helicity angle, lineshape and form factors; a parity vertex gives the factor `1 ± 1`. -/
theorem C103_coherent (hm : ReadsModel m D rd) (h0 : Spinless D)
    (href : IsSpectator D.referenceTopology ref) (href' : ref ∈ ([1, 2, 3] : List ℤ))
    (hz : ∀ c ∈ D.chains, ∀ v ∈ c.vertices, v.helicities = some [some 0, some 0])
    (h : formulate m cl tl add = .ok a) (hv : DynamicsValues m D.chains tl add ι line form) (η : Sym → ℚ) :
    a.fullExpression.eval ι η =
      (‖(D.chains.map fun c => spinlessValue ι tl line form c (rd c)).sum‖ ^ 2 : ℝ) := by
  rw [C103_spinless hm h0 href href' h hv η]
  refine congrArg _ (congrArg (fun x : List ℂ => ‖x.sum‖ ^ 2) (List.map_congr_left fun c hc => ?_))
  obtain ⟨p, q, hpq, ⟨x, y, hp⟩, hq1, hq2⟩ := (hm.reads c hc).1
  have hp' : p ∈ c.vertices := by rcases hpq with e | e <;> rw [e] <;> simp
  have hq' : q ∈ c.vertices := by rcases hpq with e | e <;> rw [e] <;> simp
  have g1 := hz c hc p hp'
  have g2 := hz c hc q hq'
  rw [hq2] at g2
  have hi : (rd c).li = 0 ∧ (rd c).lj = 0 := by simpa using g2
  have hR : (rd c).lR = 0 := by
    rcases hp with ⟨-, e⟩ | ⟨-, e⟩ <;> rw [e] at g1 <;> simp at g1
    · exact g1.1
    · exact g1.2
  have hnode : ∀ v ∈ c.vertices, ∃ x y, v.node = [x, y] := by
    intro v hvm
    have : v = p ∨ v = q := by
      rcases hpq with e | e <;> rw [e] at hvm <;> simp at hvm <;> tauto
    rcases this with rfl | rfl
    · rcases hp with ⟨e, -⟩ | ⟨e, -⟩ <;> exact ⟨_, _, e⟩
    · exact ⟨_, _, hq1⟩
  unfold serialValue spinlessValue
  rw [hR, hi.1, hi.2, sub_zero,
    List.map_congr_left fun v hvm => vertex_zero (hz c hc v hvm) (hnode v hvm)]

/-- C103: a chain whose vertices assign a helicity to a final state does not contribute. -/
theorem C103_no_contribution (hm : ReadsModel m D rd) {c : ChainDefinition} (hc : c ∈ D.chains)
    (hl : (rd c).li ≠ 0 ∨ (rd c).lj ≠ 0 ∨ (rd c).lk ≠ 0) :
    serialValue ι tl line form (fun _ => 0) c (rd c) = 0 := by
  obtain ⟨p, q, hpq, ⟨x, y, hp⟩, hq1, hq2⟩ := (hm.reads c hc).1
  have key : (c.vertices.map fun v => vertexValue v (rd c).lR fun _ => 0).prod =
      vertexValue p (rd c).lR (fun _ => 0) * vertexValue q (rd c).lR fun _ => 0 := by
    rcases hpq with e | e <;> rw [e] <;> simp [mul_comm]
  have : vertexValue p (rd c).lR (fun _ => 0) * vertexValue q (rd c).lR (fun _ => 0) = 0 := by
    have hdec : ((rd c).li ≠ 0 ∨ (rd c).lj ≠ 0) → vertexValue q (rd c).lR (fun _ => 0) = 0 := by
      intro h
      unfold vertexValue
      rw [hq1, hq2]
      exact recoupling_zero _ _ _ h
    rcases hl with h | h | h
    · rw [hdec (.inl h), mul_zero]
    · rw [hdec (.inr h), mul_zero]
    · have : vertexValue p (rd c).lR (fun _ => 0) = 0 := by
        have n1 : ¬ ((0 : ℚ) = (rd c).lk) := fun e => h e.symm
        have n2 : ¬ ((0 : ℚ) = -(rd c).lk) := fun e => h (by linarith)
        unfold vertexValue
        rcases hp with ⟨e1, e2⟩ | ⟨e1, e2⟩ <;> rw [e1, e2] <;> unfold recouplingValue childHelicity <;>
          simp only [n1, n2, and_false, false_and, if_false] <;> split <;> simp
      rw [this, zero_mul]
  unfold serialValue
  rw [key, this]
  ring

theorem mcSpinless : Spinless mcDistribution := by
  intro x hx
  simp only [mcDistribution, List.mem_cons, List.not_mem_nil, or_false] at hx
  rcases hx with rfl | rfl | rfl | rfl <;> rfl

/-- An example with two chains in different subsystems: they interfere. -/
example : ∃ a, formulate mcModel true id none = .ok a ∧ ∀ ι η, ∃ line form,
    DynamicsValues mcModel [mcF0, mcA0] id none ι line form ∧
    a.fullExpression.eval ι η = (‖ι.sym (weightSymbol id mcF0 (mcReading mcF0)) * ι.wig 0 0 0 (ι.sym ⟨"theta_23", .real⟩) *
        line mcF0 * (form mcF0.vertices[0] * form mcF0.vertices[1]) +
      ι.sym (weightSymbol id mcA0 (mcReading mcA0)) * ι.wig 0 0 0 (ι.sym ⟨"theta_31", .real⟩) *
        line mcA0 * (form mcA0.vertices[0] * form mcA0.vertices[1])‖ ^ 2 : ℝ) := by
  obtain ⟨a, ha⟩ := mcModel_ok id true
  refine ⟨a, ha, fun ι η => ?_⟩
  obtain ⟨line, form, hv⟩ := C60_dynamics_values mcModel [mcF0, mcA0] id ι
  refine ⟨line, form, hv, ?_⟩
  rw [C103_coherent mcModel_reads mcSpinless (ref := 1) ⟨by simp [mcDistribution], by simp [mcDistribution]⟩ (by simp)
    ?_ ha hv η]
  · refine congrArg _ (congrArg (fun x : ℂ => ‖x‖ ^ 2) ?_)
    have t1 : "theta_" ++ toString (2 : ℤ) ++ toString (3 : ℤ) = "theta_23" := by decide +kernel
    have t2 : "theta_" ++ toString (3 : ℤ) ++ toString (1 : ℤ) = "theta_31" := by decide +kernel
    have z : ∀ v : Vertex, v.type = "helicity" → scalarFactor v = 1 := by
      intro v hv
      unfold scalarFactor
      rw [if_neg (by rw [hv]; decide)]
    have e1 : spinlessValue ι id line form mcF0 (mcReading mcF0) =
        ι.sym (weightSymbol id mcF0 (mcReading mcF0)) * (scalarFactor mcF0.vertices[0] * (scalarFactor mcF0.vertices[1] * (1 : ℂ))) *
          ι.wig 0 0 0 (ι.sym ⟨"theta_" ++ toString (2 : ℤ) ++ toString (3 : ℤ), .real⟩) *
          (line mcF0 * (form mcF0.vertices[0] * (form mcF0.vertices[1] * (1 : ℂ)))) := rfl
    have e2 : spinlessValue ι id line form mcA0 (mcReading mcA0) =
        ι.sym (weightSymbol id mcA0 (mcReading mcA0)) * (scalarFactor mcA0.vertices[0] * (scalarFactor mcA0.vertices[1] * (1 : ℂ))) *
          ι.wig 0 0 0 (ι.sym ⟨"theta_" ++ toString (3 : ℤ) ++ toString (1 : ℤ), .real⟩) *
          (line mcA0 * (form mcA0.vertices[0] * (form mcA0.vertices[1] * (1 : ℂ)))) := rfl
    rw [show mcDistribution.chains = [mcF0, mcA0] from rfl, List.map_cons, List.map_cons, List.map_nil, List.sum_cons,
      List.sum_cons, List.sum_nil, e1, e2, t1, t2, z _ rfl, z _ rfl, z _ rfl, z _ rfl]
    ring
  · intro c hc v hv
    simp only [mcDistribution, List.mem_cons, List.not_mem_nil, or_false] at hc
    rcases hc with rfl | rfl <;> simp only [mcF0, mcA0, List.mem_cons, List.not_mem_nil, or_false] at hv <;>
      rcases hv with rfl | rfl <;> rfl

/-- A parity vertex between children without helicity: factor 2 or 0. -/
example (v : Vertex) (h : v.type = "parity") :
    (v.parityFactor = some "+" → scalarFactor v = 2) ∧ (v.parityFactor = some "-" → scalarFactor v = 0) := by
  have s1 : Surrounded "+" ['+'] := exSign rfl
  have s2 : Surrounded "-" ['-'] := exSign rfl
  have s3 : ¬ Surrounded "+" ['-'] := by
    rintro ⟨x, y, e, -, -⟩
    have : '-' ∈ "+".toList := by rw [e]; simp
    exact absurd this (by decide)
  unfold scalarFactor
  rw [if_pos h]
  constructor <;> intro hp <;> rw [hp] <;> unfold parityValue
  · simp only [if_neg s3, if_pos s1]; norm_num
  · simp only [if_pos s2]; norm_num

end Verif.Serialization
