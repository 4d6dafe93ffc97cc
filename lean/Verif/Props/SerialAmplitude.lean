import Verif.Proofs.SerialModel

/-!
C56, C60, C70, C71: amplitudes, intensity, weights and angles of the model that is formulated from a
serialized model.
-/
namespace Verif.Serialization
open Verif Verif.ThreeBody Verif.Spec Verif.Spin Verif.Angles

variable {m : ModelDefinition} {tl : String → String} {add : Option (PyDict String PropagatorBuilder)}
  {D : Distribution} {rd : ChainDefinition → Reading} {cl : Bool} {a : AmplitudeModel} {ref : ℤ}

/-! ### The example -/

/-- The readings of the chains of the example. -/
def exReading (c : ChainDefinition) : Reading :=
  if c.name = "K892" then ⟨2, 3, 1, 0, 1 / 2, 0, 0⟩ else ⟨3, 1, 2, -1 / 2, 0, 0, 1 / 2⟩

def exDistribution : Distribution := ⟨exKinematics, [.id 1, .seq [.id 2, .id 3]], [exLambda, exKstar, exKstar]⟩

theorem exModel_reads : ReadsModel exModel exDistribution exReading where
  head := ⟨[], rfl⟩
  kinematics := exKinematics_wf
  reads := by
    intro c hc
    simp only [exDistribution, List.mem_cons, List.not_mem_nil, or_false] at hc
    rcases hc with rfl | rfl | rfl
    · exact ⟨exLambda_reads, show [(3 : ℤ), 1, 2].Perm [1, 2, 3] by decide⟩
    · exact ⟨exKstar_reads, show [(2 : ℤ), 3, 1].Perm [1, 2, 3] by decide⟩
    · exact ⟨exKstar_reads, show [(2 : ℤ), 3, 1].Perm [1, 2, 3] by decide⟩

theorem exDistribution_nonneg : NonnegativeSpins exDistribution := by
  intro d hd s hs
  simp only [exDistribution, exKinematics, List.mem_cons, List.not_mem_nil, or_false] at hd
  rcases hd with rfl | rfl | rfl | rfl <;> cases hs <;> norm_num

theorem exSign {s : String} {x : Char} (h : s.toList = [x]) : Surrounded s [x] :=
  ⟨[], [], by simp [h], by simp, by simp⟩

theorem exKstar_complete : CompleteChain exModel tl none exKstar where
  vertices := by
    intro v hv
    simp only [exKstar, List.mem_cons, List.not_mem_nil, or_false] at hv
    rcases hv with rfl | rfl
    · exact .inl rfl
    · refine .inr ⟨rfl, fun s hs => ?_⟩
      cases hs
      exact .inl (exSign rfl)
  weight := rfl
  spin := ⟨1, ⟨_, _, rfl, rfl⟩, 2, by norm_num⟩
  topology := ⟨1, by simp, by simp [exKstar], by simp [exKstar]⟩
  lineshape := ⟨_, rfl⟩
  formFactors := by
    intro v hv
    simp only [exKstar, List.mem_cons, List.not_mem_nil, or_false] at hv
    rcases hv with rfl | rfl <;> exact ⟨_, rfl⟩

theorem exLambda_complete : CompleteChain exModel tl none exLambda where
  vertices := by
    intro v hv
    simp only [exLambda, List.mem_cons, List.not_mem_nil, or_false] at hv
    rcases hv with rfl | rfl
    · refine .inr ⟨rfl, fun s hs => ?_⟩
      cases hs
      exact .inr (.inl (exSign rfl))
    · exact .inl rfl
  weight := rfl
  spin := ⟨3 / 2, ⟨_, _, rfl, rfl⟩, 3, by norm_num⟩
  topology := ⟨2, by simp, by simp [exLambda], by simp [exLambda]⟩
  lineshape := ⟨_, rfl⟩
  formFactors := by
    intro v hv
    simp only [exLambda, List.mem_cons, List.not_mem_nil, or_false] at hv
    rcases hv with rfl | rfl <;> exact ⟨_, rfl⟩

/-! ### C60 -/

/-- C60: `formulate` returns a model if the chains are complete. -/
theorem C60_returns (hm : ReadsModel m D rd) (href : IsSpectator D.referenceTopology ref)
    (href' : ref ∈ ([1, 2, 3] : List ℤ)) (hok : ∀ c ∈ D.chains, CompleteChain m tl add c) (cl : Bool) :
    ∃ a, formulate m cl tl add = .ok a := formulate_returns hm href href' hok cl

theorem exModel_ok (tl : String → String) (cl : Bool) : ∃ a, formulate exModel cl tl none = .ok a := by
  refine C60_returns exModel_reads (ref := 1) ⟨by simp [exDistribution], by simp [exDistribution]⟩ (by simp)
    ?_ cl
  intro c hc
  simp only [exDistribution, List.mem_cons, List.not_mem_nil, or_false] at hc
  rcases hc with rfl | rfl | rfl
  · exact exLambda_complete
  · exact exKstar_complete
  · exact exKstar_complete

/-- C60: the keys of `amplitudes` are the symbols `A^k[λ0, λ1, λ2, λ3]` for the spectators `k` of the
topologies and all helicities. -/
theorem C60_amplitude_keys (hm : ReadsModel m D rd) (h : formulate m cl tl add = .ok a) (x : Indexed) :
    x ∈ PyDict.keys a.amplitudes ↔
      ∃ c ∈ D.chains, ∃ k, IsSpectator c.topology k ∧ ∃ l ∈ helicities a.decay, x = amplitudeSymbol k l := by
  obtain ⟨K, E, P, Θ, ref, ids, zetas, terms, hf⟩ := formulate_inv hm.head hm.kinematics h
  have hd := (toDecay_standard hm.head hm.kinematics hf.decay).1
  rw [amplitude_keys hm hf]
  constructor
  · rintro ⟨c, hc, k, hk, l, hl, rfl⟩
    refine ⟨c, hc, k, hk, ![l.1, l.2.1, l.2.2.1, l.2.2.2], ?_, rfl⟩
    rw [mem_helicities hd]
    have := (mem_helicityTuples hd l).1 hl
    intro i
    match i with
    | 0 => exact this 0 (by simp)
    | 1 => exact this 1 (by simp)
    | 2 => exact this 2 (by simp)
    | 3 => exact this 3 (by simp)
  · rintro ⟨c, hc, k, hk, l, hl, rfl⟩
    exact ⟨c, hc, k, hk, _, helicities_tuple hd hl, rfl⟩

/-- C60: every amplitude symbol in the unfolded intensity is defined. -/
theorem C60_no_undefined_amplitude (hm : ReadsModel m D rd) (h0 : NonnegativeSpins D)
    (href : IsSpectator D.referenceTopology ref) (href' : ref ∈ ([1, 2, 3] : List ℤ))
    (h : formulate m cl tl add = .ok a) :
    ∀ x ∈ (a.intensity.doit fun _ => none).indexeds, x ∈ PyDict.keys a.amplitudes := by
  obtain ⟨K, E, P, Θ, ref', ids, zetas, terms, hf⟩ := formulate_inv hm.head hm.kinematics h
  have hr := ((C52_spectator _).1 _).1 hf.reference
  have : ref' = ref := href.2 _ hr.1
  subst this
  exact fun x hx => (intensity_keys hm h0 hf href' hx).1

/-- C60: the amplitude of subsystem `k` is the sum over the chains with this spectator of weight, vertex
couplings, Wigner function, lineshape and form factors. -/
theorem C60_amplitude_value (hm : ReadsModel m D rd) (h : formulate m cl tl add = .ok a) {ι : Interp}
    {line : ChainDefinition → ℂ} {form : Vertex → ℂ} (hv : DynamicsValues m D.chains tl add ι line form)
    (η : Sym → ℚ) (k : ℤ) {l : Fin 4 → ℚ} (hl : l ∈ helicities a.decay) :
    open Classical in definedValue a ι η k l = (D.chains.map fun c => if IsSpectator c.topology k then
      serialValue ι tl line form (byId l) c (rd c) else 0).sum :=
  amplitude_value hm.head hm.kinematics hm.reads h hv η k hl

/-- C60: built-in lineshapes and form factors do have values that do not depend on helicities. -/
theorem C60_dynamics_values (m : ModelDefinition) (chains : List ChainDefinition) (tl : String → String)
    (ι : Interp) : ∃ line form, DynamicsValues m chains tl none ι line form :=
  ⟨_, _, dynamics_values (fun _ h => by cases h) chains ι⟩

/-- C60: the weight of every chain is in `parameter_defaults`. -/
theorem C60_weights (hm : ReadsModel m D rd) (h0 : NonnegativeSpins D) (h : formulate m cl tl add = .ok a)
    {c : ChainDefinition} (hc : c ∈ D.chains) :
    .sym (weightSymbol tl c (rd c)) ∈ PyDict.keys a.parameterDefaults := by
  obtain ⟨K, E, P, Θ, ref, ids, zetas, terms, hf⟩ := formulate_inv hm.head hm.kinematics h
  have hd := (toDecay_standard hm.head hm.kinematics hf.decay).1
  obtain ⟨l, hl⟩ := exists_helicity hd (spins_nonneg hm h0 hf.decay)
  exact weight_key hm hf hl hc

/-- C60: the weight has the value of the definition, if all chains with the same symbol have the same weight.
Custom builders, if any, must define nonnegative symbols, as the built-in ones do. -/
theorem C60_weight_values (hadd : NonnegativeParameters add m) (hm : ReadsModel m D rd) (h0 : NonnegativeSpins D)
    (h : formulate m cl tl add = .ok a) {c : ChainDefinition} (hc : c ∈ D.chains) {re im : ℚ}
    (hw : ∀ c' ∈ D.chains, weightSymbol tl c' (rd c') = weightSymbol tl c (rd c) → c'.weight = some (re, im)) :
    (im = 0 → PyDict.get? a.parameterDefaults (.sym (weightSymbol tl c (rd c))) = some (.real re)) ∧
    (im ≠ 0 → PyDict.get? a.parameterDefaults (.sym (weightSymbol tl c (rd c))) = some (.cplx re im)) := by
  obtain ⟨K, E, P, Θ, ref, ids, zetas, terms, hf⟩ := formulate_inv hm.head hm.kinematics h
  have hd := (toDecay_standard hm.head hm.kinematics hf.decay).1
  obtain ⟨l, hl⟩ := exists_helicity hd (spins_nonneg hm h0 hf.decay)
  have := weight_value hadd hm hf hl hc hw
  rw [this]
  unfold weightVal
  constructor
  · intro hi; rw [if_pos hi]
  · intro hi; rw [if_neg hi]

/-- The complex weight of the second chain arrives; no other chain has its symbol. -/
example (cl : Bool) : ∃ a, formulate exModel cl id none = .ok a ∧ PyDict.get? a.parameterDefaults
    (.sym ⟨"c^{L1520[-1/2]}_{\\frac{1}{2}, 0, 0}", .none⟩) = some (.cplx (1 / 2) (-3)) := by
  obtain ⟨a, ha⟩ := exModel_ok id cl
  refine ⟨a, ha, ?_⟩
  have := (C60_weight_values (c := exLambda) (re := 1 / 2) (im := -3) (fun _ h => by cases h) exModel_reads exDistribution_nonneg ha
    (by simp [exDistribution]) ?_).2 (by norm_num)
  · rw [← this]
    have h1 : (-1 / 2 : ℚ).num = -1 := by norm_num
    have h2 : (-1 / 2 : ℚ).den = 2 := by norm_num
    have h3 : (1 / 2 : ℚ).num = 1 := by norm_num
    have h4 : (1 / 2 : ℚ).den = 2 := by norm_num
    have : weightSymbol id exLambda (exReading exLambda) =
        ⟨"c^{L1520[-1/2]}_{\\frac{1}{2}, 0, 0}", .none⟩ := by
      have e1 : (exReading exLambda).hel 1 = 1 / 2 := rfl
      have e2 : (exReading exLambda).hel 2 = 0 := rfl
      have e3 : (exReading exLambda).hel 3 = 0 := rfl
      have e4 : (exReading exLambda).lR = -1 / 2 := rfl
      unfold weightSymbol
      rw [e1, e2, e3, e4]
      simp only [ratStr, ratLatex, h1, h2, h3, h4]
      decide
    rw [this]
  · intro c hc hs
    simp only [exDistribution, List.mem_cons, List.not_mem_nil, or_false] at hc
    rcases hc with rfl | rfl | rfl
    · rfl
    · exact absurd hs (by decide)
    · exact absurd hs (by decide)

/-- C60: weights of chains of the same resonance in different subsystems can share a symbol, so that one
of them gets lost. -/
theorem C60_weight_collision_fails : ∃ (m : ModelDefinition) (D : Distribution) (rd : ChainDefinition → Reading)
    (a : AmplitudeModel), ReadsModel m D rd ∧ NonnegativeSpins D ∧ formulate m false id none = .ok a ∧
    ∃ c ∈ D.chains, ∃ re, c.weight = some (re, 0) ∧
      PyDict.get? a.parameterDefaults (.sym (weightSymbol id c (rd c))) ≠ some (.real re) := by
  let c1 : ChainDefinition :=
    { name := "rho", propagators := [⟨some 1, [.id 2, .id 3], "BW"⟩],
      vertices := [
        { type := "helicity", node := [.seq [.id 2, .id 3], .id 1], helicities := some [some 0, some 0] },
        { type := "helicity", node := [.id 2, .id 3], helicities := some [some 0, some 0] }],
      topology := [.seq [.id 2, .id 3], .id 1], weight := some (1, 0) }
  let c2 : ChainDefinition :=
    { name := "rho", propagators := [⟨some 1, [.id 3, .id 1], "BW"⟩],
      vertices := [
        { type := "helicity", node := [.seq [.id 3, .id 1], .id 2], helicities := some [some 0, some 0] },
        { type := "helicity", node := [.id 3, .id 1], helicities := some [some 0, some 0] }],
      topology := [.seq [.id 3, .id 1], .id 2], weight := some (-1, 0) }
  let K : Kinematics :=
    { initialState := ⟨0, "D", some 0, 1865 / 1000⟩,
      finalState := [⟨1, "pi", some 0, 140 / 1000⟩, ⟨2, "pi", some 0, 140 / 1000⟩,
        ⟨3, "pi0", some 0, 135 / 1000⟩] }
  let D : Distribution := ⟨K, [.seq [.id 2, .id 3], .id 1], [c1, c2]⟩
  let m : ModelDefinition :=
    { distributions := [D], functions := [⟨"BW", "BreitWigner", [("mass", 775 / 1000), ("width", 149 / 1000),
        ("l", 1), ("ma", 140 / 1000), ("mb", 140 / 1000), ("d", 3 / 2)], none⟩] }
  let rd : ChainDefinition → Reading := fun c => match c.topology with
    | [.seq [.id 2, .id 3], .id 1] => ⟨2, 3, 1, 0, 0, 0, 0⟩
    | _ => ⟨3, 1, 2, 0, 0, 0, 0⟩
  have hm : ReadsModel m D rd := by
    refine ⟨⟨[], rfl⟩, ⟨rfl, by decide, ?_⟩, ?_⟩
    · intro d hd
      simp only [D, K, List.mem_cons, List.not_mem_nil, or_false] at hd
      rcases hd with rfl | rfl | rfl | rfl <;> exact ⟨_, rfl, half_zero⟩
    · intro c hc
      simp only [D, List.mem_cons, List.not_mem_nil, or_false] at hc
      rcases hc with rfl | rfl
      · exact ⟨⟨_, _, .inl rfl, ⟨_, _, .inl ⟨rfl, rfl⟩⟩, rfl, rfl⟩,
          show [(2 : ℤ), 3, 1].Perm [1, 2, 3] by decide⟩
      · exact ⟨⟨_, _, .inl rfl, ⟨_, _, .inl ⟨rfl, rfl⟩⟩, rfl, rfl⟩,
          show [(3 : ℤ), 1, 2].Perm [1, 2, 3] by decide⟩
  have h0 : NonnegativeSpins D := by
    intro d hd s hs
    simp only [D, K, List.mem_cons, List.not_mem_nil, or_false] at hd
    rcases hd with rfl | rfl | rfl | rfl <;> cases hs <;> norm_num
  have hc1 : CompleteChain m id none c1 := by
    refine ⟨?_, rfl, ⟨1, ⟨_, _, rfl, rfl⟩, 2, by norm_num⟩, ⟨1, by simp, by simp [c1], by simp [c1]⟩,
      ⟨_, rfl⟩, ?_⟩ <;> intro v hv <;> simp only [c1, List.mem_cons, List.not_mem_nil, or_false] at hv <;>
      rcases hv with rfl | rfl
    · exact .inl rfl
    · exact .inl rfl
    · exact ⟨_, rfl⟩
    · exact ⟨_, rfl⟩
  have hc2 : CompleteChain m id none c2 := by
    refine ⟨?_, rfl, ⟨1, ⟨_, _, rfl, rfl⟩, 2, by norm_num⟩, ⟨2, by simp, by simp [c2], by simp [c2]⟩,
      ⟨_, rfl⟩, ?_⟩ <;> intro v hv <;> simp only [c2, List.mem_cons, List.not_mem_nil, or_false] at hv <;>
      rcases hv with rfl | rfl
    · exact .inl rfl
    · exact .inl rfl
    · exact ⟨_, rfl⟩
    · exact ⟨_, rfl⟩
  obtain ⟨a, ha⟩ := C60_returns (cl := false) hm (ref := 1) ⟨by simp [D], by simp [D]⟩ (by simp) (by
    intro c hc
    simp only [D, List.mem_cons, List.not_mem_nil, or_false] at hc
    rcases hc with rfl | rfl
    · exact hc1
    · exact hc2)
  refine ⟨m, D, rd, a, hm, h0, ha, ?_⟩
  by_cases h : PyDict.get? a.parameterDefaults (.sym (weightSymbol id c1 (rd c1))) = some (.real 1)
  · refine ⟨c2, by simp [D], -1, rfl, ?_⟩
    have he : weightSymbol id c2 (rd c2) = weightSymbol id c1 (rd c1) := rfl
    rw [he, h]
    intro hh
    injection hh with hh
    injection hh with hh
    norm_num at hh
  · exact ⟨c1, by simp [D], 1, rfl, h⟩

/-! ### C52 -/

/-- C52: the topology of a chain is not compared with its vertices. In a model whose only chain has
spectator 1 by its vertices and spectator 3 by its topology, the decay has one chain, with spectator
1, and the amplitudes that are defined are those of subsystem 3. -/
theorem C52_topology_mismatch_fails : ∃ (m : ModelDefinition) (D : Distribution)
    (rd : ChainDefinition → Reading) (a : AmplitudeModel) (c : ChainDefinition),
    ReadsModel m D rd ∧ NonnegativeSpins D ∧ formulate m false id none = .ok a ∧ D.chains = [c] ∧
    (rd c).k = 1 ∧ (∃ l, amplitudeSymbol 3 l ∈ PyDict.keys a.amplitudes) ∧
    ∀ l, amplitudeSymbol 1 l ∉ PyDict.keys a.amplitudes := by
  let c : ChainDefinition := { exKstar with topology := [.seq [.id 1, .id 2], .id 3] }
  let D : Distribution := ⟨exKinematics, [.id 1, .seq [.id 2, .id 3]], [c]⟩
  let m : ModelDefinition := { distributions := [D], functions := exFunctions }
  have hm : ReadsModel m D exReading := by
    refine ⟨⟨[], rfl⟩, exKinematics_wf, fun c' hc' => ?_⟩
    rw [List.mem_singleton.1 hc']
    obtain ⟨p, q, h1, h2, h3⟩ := exKstar_reads
    exact ⟨⟨p, q, h1, h2, h3⟩, show [(2 : ℤ), 3, 1].Perm [1, 2, 3] by decide⟩
  have h0 : NonnegativeSpins D := exDistribution_nonneg
  obtain ⟨a, ha⟩ := C60_returns (m := m) (tl := id) (add := none) hm (ref := 1) ⟨by simp [D], by simp [D]⟩
    (by simp) (fun c' hc' => by
      rw [List.mem_singleton.1 hc']
      refine ⟨fun v hv => (exKstar_complete (tl := id)).vertices v hv, rfl, ⟨1, ⟨_, _, rfl, rfl⟩, 2, by norm_num⟩,
        ⟨3, by simp, by simp [c], by simp [c]⟩, ⟨_, rfl⟩, fun v hv => ?_⟩
      simp only [c, exKstar, List.mem_cons, List.not_mem_nil, or_false] at hv
      rcases hv with rfl | rfl <;> exact ⟨_, rfl⟩) false
  refine ⟨m, D, exReading, a, c, hm, h0, ha, rfl, rfl, ?_, ?_⟩
  · obtain ⟨K, E, P, Θ, ref, ids, zetas, terms, hf⟩ := formulate_inv hm.head hm.kinematics ha
    have hd := (toDecay_standard hm.head hm.kinematics hf.decay).1
    obtain ⟨l, hl⟩ := exists_helicity hd (spins_nonneg hm h0 hf.decay)
    refine ⟨![l.1, l.2.1, l.2.2.1, l.2.2.2], (amplitude_keys hm hf _).2
      ⟨c, by simp [D], 3, ⟨by simp [c], by simp [c]⟩, l, hl, rfl⟩⟩
  · intro l hl
    obtain ⟨c', hc', k, hk, l', -, he⟩ := (C60_amplitude_keys hm ha _).1 hl
    rw [List.mem_singleton.1 hc'] at hk
    have h3 : k = 3 := by
      have := hk.1
      simp [c] at this
      exact this
    subst h3
    have := congrArg Indexed.base he
    revert this
    simp only [amplitudeSymbol]
    decide

/-! ### C70 -/

/-- C70: the intensity is the sum over the helicities of the squared modulus of the aligned amplitude over
the subsystems of the topologies, with the reference topology as reference, with or without clean-up;
`full_expression` is the same with the values of the definitions of the amplitudes. -/
theorem C70_intensity_value (hm : ReadsModel m D rd) (h0 : NonnegativeSpins D)
    (href : IsSpectator D.referenceTopology ref) (href' : ref ∈ ([1, 2, 3] : List ℤ))
    (h : formulate m cl tl add = .ok a) (ι : Interp) (η : Sym → ℚ) :
    a.intensity.eval ι η =
      (intensityOver ι a.decay (topologySubsystems D.chains) ref (symbolValue ι) : ℂ) ∧
    a.fullExpression.eval ι η =
      (intensityOver ι a.decay (topologySubsystems D.chains) ref (definedValue a ι η) : ℂ) := by
  obtain ⟨K, E, P, Θ, ref', ids, zetas, terms, hf⟩ := formulate_inv hm.head hm.kinematics h
  have : ref' = ref := href.2 _ (((C52_spectator _).1 _).1 hf.reference).1
  subst this
  exact ⟨intensity_value hm h0 hf href' ι η, full_value hm h0 hf href' ι η⟩

/-- C70: the intensity is real and not negative. -/
theorem C70_nonnegative (hm : ReadsModel m D rd) (h0 : NonnegativeSpins D)
    (href : IsSpectator D.referenceTopology ref) (href' : ref ∈ ([1, 2, 3] : List ℤ))
    (h : formulate m cl tl add = .ok a) (ι : Interp) (η : Sym → ℚ) :
    ∃ x : ℝ, 0 ≤ x ∧ a.fullExpression.eval ι η = x :=
  ⟨_, Finset.sum_nonneg fun _ _ => by positivity, (C70_intensity_value hm h0 href href' h ι η).2⟩

/-- C70: cleaning up the summations does not change the value. -/
theorem C70_cleanup {a' : AmplitudeModel} (hm : ReadsModel m D rd) (h0 : NonnegativeSpins D)
    (href : IsSpectator D.referenceTopology ref) (href' : ref ∈ ([1, 2, 3] : List ℤ))
    (h : formulate m true tl add = .ok a) (h' : formulate m false tl add = .ok a') (ι : Interp) (η : Sym → ℚ) :
    a.intensity.eval ι η = a'.intensity.eval ι η ∧ a.fullExpression.eval ι η = a'.fullExpression.eval ι η := by
  obtain ⟨h1, h2⟩ := C70_intensity_value hm h0 href href' h ι η
  obtain ⟨h3, h4⟩ := C70_intensity_value hm h0 href href' h' ι η
  have hr : a.decay = a'.decay ∧ a.amplitudes = a'.amplitudes := by
    unfold formulate at h h'
    simp only [bind_ok] at h h'
    obtain ⟨x1, g1, x2, g2, x3, g3, x4, g4, x5, g5, x6, g6, x7, g7, x8, g8, x9, g9, x10, g10, x11, g11, g⟩ := h
    obtain ⟨y1, k1, y2, k2, y3, k3, y4, k4, y5, k5, y6, k6, y7, k7, y8, k8, y9, k9, y10, k10, y11, k11, k⟩ := h'
    cases g1.symm.trans k1
    cases g2.symm.trans k2
    cases g3.symm.trans k3
    cases g4.symm.trans k4
    cases g5.symm.trans k5
    cases g6.symm.trans k6
    cases g7.symm.trans k7
    cases g9.symm.trans k9
    cases g
    cases k
    exact ⟨rfl, rfl⟩
  rw [h1, h2, h3, h4, hr.1]
  refine ⟨rfl, ?_⟩
  congr 2
  unfold definedValue
  rw [hr.2]

open Classical in
/-- C70: if the topology of every chain has the spectator of its vertices, the subsystems are those of the
decay. -/
theorem C70_subsystems (hm : ReadsModel m D rd) (htop : ∀ c ∈ D.chains, IsSpectator c.topology (rd c).k)
    (h : formulate m cl tl add = .ok a) : topologySubsystems D.chains = subsystems a.decay := by
  obtain ⟨K, E, P, Θ, ref', ids, zetas, terms, hf⟩ := formulate_inv hm.head hm.kinematics h
  obtain ⟨D', p0, ps, hs, hst, hex, hmem, -⟩ := toDecay_facts.1 hf.decay
  obtain ⟨rest, hD⟩ := hm.head
  obtain ⟨rest', hD'⟩ := hs.head
  have e : D' = D := by
    rw [hD] at hD'
    exact (List.cons.inj hD').1.symm
  subst e
  have hspec : ∀ c ∈ D'.chains, ∀ ch, toDecayChain c p0 (finalOf ps) identityFunction = .ok ch →
      ch.spectator.index = (rd c).k := by
    intro c hc ch hch
    obtain ⟨⟨p, q, ho, ⟨x, y, hp⟩, hq, -⟩, -⟩ := hm.reads c hc
    have htwo : TwoVertices c p q (rd c).i (rd c).j (rd c).k :=
      ⟨ho, ⟨x, y, hp.imp And.left And.left⟩, hq⟩
    obtain ⟨s, p1, p2, p3, -, -, -, -, h3, -, rfl⟩ := (C52_decay_chain htwo _ _ _ _).1 hch
    exact (finalOf_mem h3).2
  ext k
  unfold topologySubsystems subsystems
  rw [Finset.mem_filter, List.mem_toFinset, List.mem_map]
  constructor
  · rintro ⟨-, c, hc, hk⟩
    obtain ⟨ch, hch⟩ := hex c hc
    exact ⟨ch, (hmem ch).2 ⟨c, hc, hch⟩, (hspec c hc ch hch).trans (hk.2 _ (htop c hc).1)⟩
  · rintro ⟨ch, hch, rfl⟩
    obtain ⟨c, hc, hch⟩ := (hmem ch).1 hch
    rw [hspec c hc ch hch]
    refine ⟨?_, c, hc, htop c hc⟩
    have := (standard_mem (hm.reads c hc).2).2.2.1
    simpa using this

/-- C70: then the intensity is that of the decay. -/
theorem C70_intensity_of_decay (hm : ReadsModel m D rd) (h0 : NonnegativeSpins D)
    (htop : ∀ c ∈ D.chains, IsSpectator c.topology (rd c).k)
    (href : IsSpectator D.referenceTopology ref) (href' : ref ∈ ([1, 2, 3] : List ℤ))
    (h : formulate m cl tl add = .ok a) (ι : Interp) (η : Sym → ℚ) :
    a.intensity.eval ι η = (Spec.intensity ι a.decay ref (symbolValue ι) : ℂ) ∧
    a.fullExpression.eval ι η = (Spec.intensity ι a.decay ref (definedValue a ι η) : ℂ) := by
  obtain ⟨h1, h2⟩ := C70_intensity_value hm h0 href href' h ι η
  rw [C70_subsystems hm htop h] at h1 h2
  exact ⟨h1, h2⟩

theorem exModel_topology : ∀ c ∈ exDistribution.chains, IsSpectator c.topology (exReading c).k := by
  intro c hc
  simp only [exDistribution, List.mem_cons, List.not_mem_nil, or_false] at hc
  rcases hc with rfl | rfl | rfl
  · exact (⟨by simp [exLambda], by simp [exLambda]⟩ : IsSpectator exLambda.topology 2)
  · exact (⟨by simp [exKstar], by simp [exKstar]⟩ : IsSpectator exKstar.topology 1)
  · exact (⟨by simp [exKstar], by simp [exKstar]⟩ : IsSpectator exKstar.topology 1)

theorem exModel_reference : IsSpectator exDistribution.referenceTopology 1 :=
  ⟨by simp [exDistribution], by simp [exDistribution]⟩

example : ∃ a, formulate exModel true id none = .ok a ∧ ∀ ι η, a.fullExpression.eval ι η =
    (Spec.intensity ι a.decay 1 (definedValue a ι η) : ℂ) := by
  obtain ⟨a, ha⟩ := exModel_ok id true
  exact ⟨a, ha, fun ι η => (C70_intensity_of_decay exModel_reads exDistribution_nonneg exModel_topology
    exModel_reference (by simp) ha ι η).2⟩

/-! ### C71 -/

/-- C71: the scattering angle of every chain and the alignment angle of every state with spin and every
subsystem is defined, by the angle functions for the same IDs. -/
theorem C71_angles_defined (hm : ReadsModel m D rd) (h0 : NonnegativeSpins D)
    (href : IsSpectator D.referenceTopology ref) (href' : ref ∈ ([1, 2, 3] : List ℤ))
    (h : formulate m cl tl add = .ok a) :
    (∀ c ∈ D.chains, ∃ e, formulateScatteringAngle (rd c).i (rd c).j =
        .ok (⟨"theta_" ++ toString (rd c).i ++ toString (rd c).j, .real⟩, e) ∧
      PyDict.get? a.angleDefs ⟨"theta_" ++ toString (rd c).i ++ toString (rd c).j, .real⟩ = some e) ∧
    (∀ k ∈ topologySubsystems D.chains, ∀ i ∈ ([0, 1, 2, 3] : List ℤ), a.decay.spin i ≠ 0 →
      ∃ e, formulateZetaAngle i k ref = .ok (zetaSymbol i k ref, e) ∧
        PyDict.get? a.angleDefs (zetaSymbol i k ref) = some e) := by
  classical
  obtain ⟨K, E, P, Θ, ref', ids, zetas, terms, hf⟩ := formulate_inv hm.head hm.kinematics h
  have : ref' = ref := href.2 _ (((C52_spectator _).1 _).1 hf.reference).1
  subst this
  have hd := (toDecay_standard hm.head hm.kinematics hf.decay).1
  have hz : ∀ x ∈ zetas, ∃ i ∈ ([0, 1, 2, 3] : List ℤ), ∃ k ∈ ids, x = (ThreeBody.zetaSym i k ref', zetaExpr i k ref') := by
    intro x hx
    rw [(aligned_terms hf href').2] at hx
    rcases PyDict.mem_update hx with hx | hx
    · cases hx
    · obtain ⟨k, hk, hx⟩ := List.mem_flatMap.1 hx
      obtain ⟨i, hi, hx⟩ := List.mem_flatMap.1 hx
      unfold wigItems at hx
      split at hx
      · cases hx
      · exact ⟨i, hi, k, hk, List.mem_singleton.1 hx⟩
  have htheta : ∀ y ∈ serialPairs D a.decay, ∃ c, D.chains[y.2]? = some c ∧ c ∈ D.chains ∧
      formulateScatteringAngle (rd c).i (rd c).j = .ok (Θ y.2) ∧ (Θ y.2).1 = thetaSym (rd c).i (rd c).j := by
    intro y hy
    obtain ⟨c, hc, hmem, -⟩ := pair_chain hm hf hy
    obtain ⟨hr, hs⟩ := hm.reads c hmem
    obtain ⟨d, ds, w, -, -, -, -, -, h6, h7, -⟩ :=
      chainData_facts (chains_ok hm.head) hc hr hs (hf.table y hy).data
    exact ⟨c, hc, hmem, h6, h7⟩
  constructor
  · intro c hc
    obtain ⟨l, hl⟩ := exists_helicity hd (spins_nonneg hm h0 hf.decay)
    obtain ⟨n, hn, rfl⟩ := List.mem_iff_getElem.1 hc
    have hp : ((l, n) : (ℚ × ℚ × ℚ × ℚ) × ℕ) ∈ serialPairs D a.decay := mem_serialPairs.2 ⟨hl, hn⟩
    obtain ⟨c', hc', -, h6, h7⟩ := htheta _ hp
    rw [List.getElem?_eq_getElem hn] at hc'
    injection hc' with hc'
    subst hc'
    refine ⟨(Θ n).2, ?_, ?_⟩
    · rw [h6]
      change Except.ok (Θ n) = _
      rw [show Θ n = ((Θ n).1, (Θ n).2) from rfl, h7]
      rfl
    · rw [hf.angles, PyDict.get?_update_of_not_mem]
      · refine PyDict.get?_update_const ⟨Θ n, List.mem_map.2 ⟨_, hp, rfl⟩, h7⟩ ?_
        intro x hx hx1
        obtain ⟨y, hy, rfl⟩ := List.mem_map.1 hx
        obtain ⟨c', -, hc', g6, g7⟩ := htheta y hy
        rw [g7] at hx1
        obtain ⟨e1, e2, -, e4⟩ := standard_mem (hm.reads c' hc').2
        obtain ⟨f1, f2, -, f4⟩ := standard_mem (hm.reads _ hc).2
        have hinj : ∀ i ∈ ([1, 2, 3] : List ℤ), ∀ j ∈ ([1, 2, 3] : List ℤ), ∀ i' ∈ ([1, 2, 3] : List ℤ),
            ∀ j' ∈ ([1, 2, 3] : List ℤ), thetaSym i j = thetaSym i' j' → i = i' ∧ j = j' := by decide
        obtain ⟨e5, e6⟩ := hinj _ e1 _ e2 _ f1 _ f2 hx1
        rw [e5, e6, h6] at g6
        injection g6 with g6
        rw [g6]
      · intro hk
        obtain ⟨x, hx, he⟩ := List.mem_map.1 hk
        obtain ⟨i, -, k, -, rfl⟩ := hz x hx
        exact thetaSym_ne_zetaSym _ _ _ _ _ he.symm
  · intro k hk i hi hsp
    rw [← ids_toFinset hm hf, List.mem_toFinset] at hk
    have hk3 := hf.bases k hk
    refine ⟨zetaExpr i k ref', zeta_eq hi hk3 href', ?_⟩
    rw [hf.angles]
    refine PyDict.get?_update_const ?_ ?_
    · have : ThreeBody.zetaSym i k ref' ∈ PyDict.keys zetas := by
        rw [(aligned_terms hf href').2]
        refine (PyDict.mem_keys_update ..).2 (.inr (List.mem_map.2 ⟨(ThreeBody.zetaSym i k ref', zetaExpr i k ref'),
          List.mem_flatMap.2 ⟨k, hk, List.mem_flatMap.2 ⟨i, hi, ?_⟩⟩, rfl⟩))
        unfold wigItems
        rw [if_neg (by rw [spins_eq _ hi]; exact hsp)]
        simp
      obtain ⟨x, hx, he⟩ := List.mem_map.1 this
      exact ⟨x, hx, he⟩
    · intro x hx he
      obtain ⟨i', hi', k', hk', rfl⟩ := hz x hx
      have e1 := zeta_eq hi hk3 href'
      have e2 := zeta_eq hi' (hf.bases k' hk') href'
      have he' : ThreeBody.zetaSym i' k' ref' = ThreeBody.zetaSym i k ref' := he
      rw [he'] at e2
      obtain ⟨rfl, rfl, -⟩ := C13_zeta_symbols_injective e1 e2
      rfl

/-- The angle `theta_31` of the second chain of the example and an alignment angle of the proton. -/
example : ∃ a, formulate exModel false id none = .ok a ∧
    (∃ e, PyDict.get? a.angleDefs ⟨"theta_31", .real⟩ = some e) := by
  obtain ⟨a, ha⟩ := exModel_ok id false
  obtain ⟨e, -, he⟩ := (C71_angles_defined exModel_reads exDistribution_nonneg exModel_reference (by simp)
    ha).1 exLambda (by simp [exDistribution])
  exact ⟨a, ha, e, he⟩

/-! ### C56 -/

/-- C56: the amplitude does not depend on the helicity of the initial state. -/
theorem C56_independent_of_initial (hadd : FreeBuilders add m) (hm : ReadsModel m D rd)
    (h : formulate m cl tl add = .ok a) (ι : Interp) (η : Sym → ℚ) (k : ℤ) {l l' : Fin 4 → ℚ}
    (hl : l ∈ helicities a.decay) (hl' : l' ∈ helicities a.decay)
    (heq : l 1 = l' 1 ∧ l 2 = l' 2 ∧ l 3 = l' 3) : definedValue a ι η k l = definedValue a ι η k l' := by
  rw [C60_amplitude_value hm h (dynamics_values hadd D.chains ι) η k hl,
    C60_amplitude_value hm h (dynamics_values hadd D.chains ι) η k hl']
  congr 1
  apply List.map_congr_left
  intro c hc
  have hid : ∀ i ∈ ([1, 2, 3] : List ℤ), byId l i = byId l' i := by
    intro i hi
    simp only [List.mem_cons, List.not_mem_nil, or_false] at hi
    rcases hi with rfl | rfl | rfl
    · exact heq.1
    · exact heq.2.1
    · exact heq.2.2
  unfold serialValue
  have : (c.vertices.map fun v => vertexValue v (rd c).lR (byId l)) =
      c.vertices.map fun v => vertexValue v (rd c).lR (byId l') := by
    apply List.map_congr_left
    intro v hv
    exact vertexValue_congr fun i hi => hid i (reads_ids (hm.reads c hc).1 (hm.reads c hc).2 hv hi)
  rw [this]

/-- Values for the counterexamples: 1 for everything but the Wigner functions. -/
def exInterp (wig : ℚ → ℚ → ℚ → ℂ → ℂ) : Interp where
  sym _ := 1
  idx _ _ _ := 1
  wig := wig
  cg _ _ _ _ _ _ := 1
  ff _ _ _ _ _ := 1
  edw _ _ _ _ _ _ _ _ := 1
  bmom _ _ _ := 1

theorem exInterp_breitWigner (wig : ℚ → ℚ → ℚ → ℂ → ℂ) (η : Sym → ℚ) (s m0 g0 m1 m2 d : Sym) (L : ℤ) :
    (1 * breitWigner (.sym s) (.sym m0) (.sym g0) (.sym m1) (.sym m2) L (.sym d)).eval (exInterp wig) η =
      Complex.I := by
  have hw : (breitWignerWidth (.sym s) (.sym m0) (.sym g0) (.sym m1) (.sym m2) L (.sym d)
      "PhaseSpaceFactor").eval (exInterp wig) η = 1 := by
    unfold breitWignerWidth
    split
    · rfl
    · rfl
  change (1 : ℚ) * (((1 : ℚ) : ℂ) / ((1 : ℂ) ^ 2 - 1 - 1 * (breitWignerWidth (.sym s) (.sym m0) (.sym g0) (.sym m1)
    (.sym m2) L (.sym d) "PhaseSpaceFactor").eval (exInterp wig) η * Complex.I)) = Complex.I
  rw [hw]
  simp

theorem exKstar_line (wig : ℚ → ℚ → ℚ → ℂ → ℂ) :
    lineValue exModel id none (exInterp wig) exKstar = Complex.I := by
  have h : ∃ P, formulateDynamics exKstar exModel id none = .ok ⟨1 * breitWigner
      (.sym ⟨"sigma1", .nonneg⟩) (.sym (resonanceMass "K892")) (.sym (resonanceWidth "K892"))
      (.sym ⟨"m2", .nonneg⟩) (.sym ⟨"m3", .nonneg⟩) (pyInt 1) (.sym resRadius), P⟩ := ⟨_, rfl⟩
  obtain ⟨P, h⟩ := h
  unfold lineValue
  rw [h]
  exact exInterp_breitWigner _ _ _ _ _ _ _ _ _

theorem exLambda_line (wig : ℚ → ℚ → ℚ → ℂ → ℂ) :
    lineValue exModel id none (exInterp wig) exLambda = Complex.I := by
  have h : ∃ P, formulateDynamics exLambda exModel id none = .ok ⟨1 * breitWigner
      (.sym ⟨"sigma2", .nonneg⟩) (.sym (resonanceMass "L1520")) (.sym (resonanceWidth "L1520"))
      (.sym ⟨"m3", .nonneg⟩) (.sym ⟨"m1", .nonneg⟩) (pyInt 2) (.sym resRadius), P⟩ := ⟨_, rfl⟩
  obtain ⟨P, h⟩ := h
  unfold lineValue
  rw [h]
  exact exInterp_breitWigner _ _ _ _ _ _ _ _ _

theorem ex_form (ι : Interp) : ∀ c ∈ exDistribution.chains, ∀ v ∈ c.vertices, formValue exModel ι v = 1 := by
  intro c hc v hv
  have : formulateFormFactor v exModel = .ok {} := by
    simp only [exDistribution, List.mem_cons, List.not_mem_nil, or_false] at hc
    rcases hc with rfl | rfl | rfl <;> simp only [exLambda, exKstar, List.mem_cons, List.not_mem_nil, or_false] at hv <;>
      rcases hv with rfl | rfl <;> rfl
  unfold formValue
  rw [this]
  simp [Expr.eval]

theorem exModel_spins {a : AmplitudeModel} (h : formulate exModel cl tl none = .ok a) :
    a.decay.spin 0 = 1 / 2 ∧ a.decay.spin 1 = 1 / 2 ∧ a.decay.spin 2 = 0 ∧ a.decay.spin 3 = 0 := by
  obtain ⟨K, E, P, Θ, ref', ids, zetas, terms, hf⟩ :=
    formulate_inv exModel_reads.head exModel_reads.kinematics h
  have hd := (toDecay_standard exModel_reads.head exModel_reads.kinematics hf.decay).1
  obtain ⟨D', rest', hD', hs⟩ := C53_states hf.decay
  have e : D' = exDistribution := (List.cons.inj hD').1.symm
  subst e
  have key : ∀ i ∈ ([0, 1, 2, 3] : List ℤ), ∃ x ∈ exKinematics.initialState :: exKinematics.finalState,
      x.index = i ∧ x.spin = some (a.decay.spin i) := by
    intro i hi
    obtain ⟨h1, x, hx, h2, -, -, -, -, h3, -⟩ := hs i (a.decay.st i) (get_ok.1 (Standard.get hd hi))
    exact ⟨x, hx, h3 ▸ h1, h2⟩
  simp only [exKinematics, List.mem_cons, List.not_mem_nil, or_false] at key
  refine ⟨?_, ?_, ?_, ?_⟩
  · obtain ⟨x, rfl | rfl | rfl | rfl, h1, h2⟩ := key 0 (by simp) <;>
      first | exact absurd h1 (by decide) | exact (Option.some.inj h2).symm
  · obtain ⟨x, rfl | rfl | rfl | rfl, h1, h2⟩ := key 1 (by simp) <;>
      first | exact absurd h1 (by decide) | exact (Option.some.inj h2).symm
  · obtain ⟨x, rfl | rfl | rfl | rfl, h1, h2⟩ := key 2 (by simp) <;>
      first | exact absurd h1 (by decide) | exact (Option.some.inj h2).symm
  · obtain ⟨x, rfl | rfl | rfl | rfl, h1, h2⟩ := key 3 (by simp) <;>
      first | exact absurd h1 (by decide) | exact (Option.some.inj h2).symm

theorem exModel_helicity (h : formulate exModel cl tl none = .ok a) {x y : ℚ} (hx : x = 1 / 2 ∨ x = -1 / 2)
    (hy : y = 1 / 2 ∨ y = -1 / 2) : ![x, y, 0, 0] ∈ helicities a.decay := by
  obtain ⟨h0, h1, h2, h3⟩ := exModel_spins h
  obtain ⟨K, E, P, Θ, ref', ids, zetas, terms, hf⟩ :=
    formulate_inv exModel_reads.head exModel_reads.kinematics h
  have hd := (toDecay_standard exModel_reads.head exModel_reads.kinematics hf.decay).1
  rw [mem_helicities hd]
  have p0 : Projection 0 0 := ⟨by norm_num, by norm_num, 0, by norm_num⟩
  have p1 : ∀ z : ℚ, z = 1 / 2 ∨ z = -1 / 2 → Projection (1 / 2) z := by
    rintro z (rfl | rfl)
    · exact ⟨by norm_num, by norm_num, 0, by norm_num⟩
    · exact ⟨by norm_num, by norm_num, 1, by norm_num⟩
  intro i
  match i with
  | 0 => exact h0 ▸ p1 x hx
  | 1 => exact h1 ▸ p1 y hy
  | 2 => exact h2 ▸ p0
  | 3 => exact h3 ▸ p0

/-- A sum over the chains of the example. -/
theorem exModel_sum (f : ChainDefinition → ℂ) (k : ℤ) : open Classical in
    (exDistribution.chains.map fun c => if IsSpectator c.topology k then f c else 0).sum =
      (if k = 2 then f exLambda else 0) + 2 * (if k = 1 then f exKstar else 0) := by
  classical
  have h1 : IsSpectator exLambda.topology k ↔ k = 2 := by
    simp only [exLambda, IsSpectator, List.mem_cons, List.not_mem_nil, or_false, reduceCtorEq,
      Tree.id.injEq, forall_eq]
    exact ⟨fun h => h.1, fun h => ⟨h, h.symm⟩⟩
  have h2 : IsSpectator exKstar.topology k ↔ k = 1 := by
    simp only [exKstar, IsSpectator, List.mem_cons, List.not_mem_nil, or_false, reduceCtorEq,
      Tree.id.injEq, false_or, forall_eq]
    exact ⟨fun h => h.1, fun h => ⟨h, h.symm⟩⟩
  simp only [exDistribution, List.map_cons, List.map_nil, List.sum_cons, List.sum_nil, h1, h2]
  ring

/-- C56: there is a model with a non-zero amplitude `A^k[λ0, ...]` although no chain of the subsystem
satisfies `λ0 = λR - λk`. -/
theorem C56_conservation_fails : ∃ (m : ModelDefinition) (D : Distribution) (rd : ChainDefinition → Reading)
    (a : AmplitudeModel) (ι : Interp) (k : ℤ), ReadsModel m D rd ∧ NonnegativeSpins D ∧
    formulate m false id none = .ok a ∧ ∃ l ∈ helicities a.decay,
      (∀ c ∈ D.chains, IsSpectator c.topology k → l 0 ≠ (rd c).lR - byId l k) ∧
      ∀ η, definedValue a ι η k l ≠ 0 := by
  obtain ⟨a, ha⟩ := exModel_ok id false
  refine ⟨exModel, exDistribution, exReading, a, exInterp fun _ _ _ _ => 1, 1, exModel_reads,
    exDistribution_nonneg, ha, ![1 / 2, 1 / 2, 0, 0], exModel_helicity ha (.inl rfl) (.inl rfl), ?_, ?_⟩
  · intro c hc hs
    simp only [exDistribution, List.mem_cons, List.not_mem_nil, or_false] at hc
    have hk : byId ![1 / 2, 1 / 2, 0, 0] 1 = 1 / 2 := rfl
    rcases hc with rfl | rfl | rfl
    · have := hs.2 2 (by simp [exLambda])
      norm_num at this
    · have : (exReading exKstar).lR = 0 := rfl
      rw [this, hk]
      norm_num
    · have : (exReading exKstar).lR = 0 := rfl
      rw [this, hk]
      norm_num
  · intro η
    rw [C60_amplitude_value exModel_reads ha (dynamics_values (fun _ h => by cases h) _ _) η 1
      (exModel_helicity ha (.inl rfl) (.inl rfl)), exModel_sum]
    have hform : (exKstar.vertices.map (formValue exModel (exInterp fun _ _ _ _ => 1))).prod = 1 := by
      rw [List.map_congr_left (ex_form _ exKstar (by simp [exDistribution]))]
      simp
    have hvert : (exKstar.vertices.map fun v => vertexValue v (exReading exKstar).lR
        (byId ![1 / 2, 1 / 2, 0, 0])).prod = 2 := by
      have hR : (exReading exKstar).lR = 0 := rfl
      have h1 : byId ![1 / 2, 1 / 2, 0, 0] 1 = 1 / 2 := rfl
      have h2 : byId ![1 / 2, 1 / 2, 0, 0] 2 = 0 := rfl
      have h3 : byId ![1 / 2, 1 / 2, 0, 0] 3 = 0 := rfl
      have hp : parityValue (some "+") = 1 := by
        simp only [parityValue]
        rw [if_neg, if_pos (exSign (s := "+") (x := '+') rfl)]
        rintro ⟨x, y, he, hx, hy⟩
        have : '-' ∈ ['+'] := by rw [show ['+'] = "+".toList from rfl, he]; simp
        simp at this
      rw [hR]
      generalize byId ![1 / 2, 1 / 2, 0, 0] = f at h1 h2 h3 ⊢
      simp [exKstar, vertexValue, vertexParity, recouplingValue, childHelicity, h1, h2, h3, hp]
      norm_num
    unfold serialValue
    rw [exKstar_line, hform, hvert]
    simp [exInterp]

/-- C56: there is a model, a choice of Wigner functions and helicities for which the Wigner function with
the actual helicities of the decay products vanishes for all chains of the subsystem, but the amplitude does
not: the flipped term of a parity vertex has the Wigner function of the helicities of the vertex. -/
theorem C56_flipped_wigner_fails : ∃ (m : ModelDefinition) (D : Distribution) (rd : ChainDefinition → Reading)
    (a : AmplitudeModel) (ι : Interp) (k : ℤ), ReadsModel m D rd ∧ NonnegativeSpins D ∧
    formulate m false id none = .ok a ∧ ∃ l ∈ helicities a.decay,
      (∀ c ∈ D.chains, IsSpectator c.topology k → ∀ θ,
        ι.wig (chainSpin c) (rd c).lR (byId l (rd c).i - byId l (rd c).j) θ = 0) ∧
      ∀ η, definedValue a ι η k l ≠ 0 := by
  obtain ⟨a, ha⟩ := exModel_ok id false
  refine ⟨exModel, exDistribution, exReading, a, exInterp fun _ _ x _ => if x = -1 / 2 then 1 else 0, 2,
    exModel_reads, exDistribution_nonneg, ha, ![1 / 2, -1 / 2, 0, 0],
    exModel_helicity ha (.inl rfl) (.inr rfl), ?_, ?_⟩
  · intro c hc hs θ
    simp only [exDistribution, List.mem_cons, List.not_mem_nil, or_false] at hc
    rcases hc with rfl | rfl | rfl
    · have h1 : byId ![1 / 2, -1 / 2, 0, 0] (exReading exLambda).i = 0 := rfl
      have h2 : byId ![1 / 2, -1 / 2, 0, 0] (exReading exLambda).j = -1 / 2 := rfl
      rw [h1, h2]
      exact if_neg (by norm_num)
    · have := hs.2 1 (by simp [exKstar])
      norm_num at this
    · have := hs.2 1 (by simp [exKstar])
      norm_num at this
  · intro η
    rw [C60_amplitude_value exModel_reads ha (dynamics_values (fun _ h => by cases h) _ _) η 2
      (exModel_helicity ha (.inl rfl) (.inr rfl)), exModel_sum]
    have hform : (exLambda.vertices.map (formValue exModel (exInterp fun _ _ x _ =>
        if x = -1 / 2 then 1 else 0))).prod = 1 := by
      rw [List.map_congr_left (ex_form _ exLambda (by simp [exDistribution]))]
      simp
    have hvert : (exLambda.vertices.map fun v => vertexValue v (exReading exLambda).lR
        (byId ![1 / 2, -1 / 2, 0, 0])).prod = -1 := by
      have hR : (exReading exLambda).lR = -1 / 2 := rfl
      have h1 : byId ![1 / 2, -1 / 2, 0, 0] 1 = -1 / 2 := rfl
      have h2 : byId ![1 / 2, -1 / 2, 0, 0] 2 = 0 := rfl
      have h3 : byId ![1 / 2, -1 / 2, 0, 0] 3 = 0 := rfl
      have hp : parityValue (some "-") = -1 := by
        simp only [parityValue]
        rw [if_pos (exSign (s := "-") (x := '-') rfl)]
      rw [hR]
      generalize byId ![1 / 2, -1 / 2, 0, 0] = f at h1 h2 h3 ⊢
      simp [exLambda, vertexValue, vertexParity, recouplingValue, childHelicity, h1, h2, h3, hp]
      norm_num
    have hw : (exReading exLambda).li - (exReading exLambda).lj = -1 / 2 := by
      have h1 : (exReading exLambda).li = 0 := rfl
      have h2 : (exReading exLambda).lj = 1 / 2 := rfl
      rw [h1, h2]
      norm_num
    unfold serialValue
    rw [exLambda_line, hform, hvert, hw]
    simp [exInterp]

/-- C56, weaker form that holds: the amplitude vanishes if in each chain of the subsystem a vertex has
neither the given helicities nor, for a parity vertex, the opposite ones. Missing: `λ0 = λR - λk`, and the
Wigner function of flipped helicities; both are refuted above. -/
theorem C56_vertex_helicities_partial (hadd : FreeBuilders add m) (hm : ReadsModel m D rd)
    (h : formulate m cl tl add = .ok a) (ι : Interp) (η : Sym → ℚ) (k : ℤ) {l : Fin 4 → ℚ}
    (hl : l ∈ helicities a.decay)
    (hno : ∀ c ∈ D.chains, IsSpectator c.topology k →
      ∃ v ∈ c.vertices, ¬ VertexMatches v (rd c).lR (byId l)) : definedValue a ι η k l = 0 := by
  rw [C60_amplitude_value hm h (dynamics_values hadd D.chains ι) η k hl]
  apply List.sum_eq_zero
  intro x hx
  obtain ⟨c, hc, rfl⟩ := List.mem_map.1 hx
  split
  · rename_i hs
    obtain ⟨v, hv, hn⟩ := hno c hc hs
    have h0 : vertexValue v (rd c).lR (byId l) = 0 := by
      unfold vertexValue
      split
      · rename_i x y p q hx hy
        have hn' := fun hh => hn ⟨x, y, p, q, hx, hy, hh⟩
        unfold recouplingValue vertexParity
        rw [if_neg fun hh => hn' (.inl hh)]
        split
        · simp
        · rename_i f hf
          split at hf
          · rename_i ht
            rw [if_neg fun hh => hn' (.inr ⟨ht, hh⟩)]
            simp
          · cases hf
      · rfl
    unfold serialValue
    rw [List.prod_eq_zero (List.mem_map.2 ⟨v, hv, h0⟩)]
    simp
  · rfl

/-- In the example, `A^1` vanishes for proton helicity -1/2. -/
example : ∃ a, formulate exModel true id none = .ok a ∧
    ∀ ι η, definedValue a ι η 1 ![1 / 2, -1 / 2, 0, 0] = 0 := by
  obtain ⟨a, ha⟩ := exModel_ok id true
  refine ⟨a, ha, fun ι η => C56_vertex_helicities_partial (fun _ h => by cases h) exModel_reads ha ι η 1
    (exModel_helicity ha (.inl rfl) (.inr rfl)) ?_⟩
  intro c hc hs
  have key : ∃ v ∈ exKstar.vertices, ¬ VertexMatches v (exReading exKstar).lR
      (byId ![1 / 2, -1 / 2, 0, 0]) := by
    refine ⟨exKstar.vertices[0], by simp [exKstar], ?_⟩
    rintro ⟨x, y, p, q, hn, hh, h | ⟨ht, -⟩⟩
    · simp only [exKstar, List.getElem_cons_zero, List.cons.injEq, Option.some.injEq, and_true] at hn hh
      rw [← hn.2, ← hh.2] at h
      have : childHelicity (exReading exKstar).lR (byId ![1 / 2, -1 / 2, 0, 0]) (.id 1) = -1 / 2 := rfl
      rw [this] at h
      norm_num at h
    · simp [exKstar] at ht
  simp only [exDistribution, List.mem_cons, List.not_mem_nil, or_false] at hc
  rcases hc with rfl | rfl | rfl
  · have := hs.2 2 (by simp [exLambda])
    norm_num at this
  · exact key
  · exact key

end Verif.Serialization
