import Verif.Proofs.SerialParameters
import Verif.Props.SerialAmplitude

/-!
C58, C59, C73: lineshapes and form factors of a serialized model, and their parameters.
-/
namespace Verif.Serialization
open Verif Verif.ThreeBody Verif.Spec

variable {m : ModelDefinition} {tl : String → String} {add : Option (PyDict String PropagatorBuilder)}
  {D : Distribution} {rd : ChainDefinition → Reading} {cl : Bool} {a : AmplitudeModel} {ref : ℤ}

/-! ### C58 -/

/-- C58: a value of a function definition arrives in `parameter_defaults` under the symbol that is meant
for it, if no other function definition gives the same symbol another value and the symbol is not the
mass of a state. -/
theorem C58_parameter_partial (hm : ReadsModel m D rd) (h0 : NonnegativeSpins D) (htwo : TwoBodyPropagators D)
    (h : formulate m cl tl none = .ok a) {c : ChainDefinition} (hc : c ∈ D.chains) {s : Sym} {v : ℚ}
    (hs : ChainParameter m D.kinematics.initialState.name tl c s v)
    (hall : ∀ c' ∈ D.chains, ∀ v', ChainParameter m D.kinematics.initialState.name tl c' s v' → v' = v)
    (hmass : ∀ i ∈ ([0, 1, 2, 3] : List ℤ), s ≠ massOfState i) :
    PyDict.get? a.parameterDefaults (.sym s) = some (.real v) := by
  obtain ⟨K, E, P, Θ, ref, ids, zetas, terms, hf⟩ := formulate_inv hm.head hm.kinematics h
  have hd := (toDecay_standard hm.head hm.kinematics hf.decay).1
  obtain ⟨l, hl⟩ := exists_helicity hd (spins_nonneg hm h0 hf.decay)
  exact parameter_value hm htwo hf hl hc hs hall hmass

/-- C58: the masses of the states are those of the kinematics, whatever the function definitions say. -/
theorem C58_state_masses (hm : ReadsModel m D rd) (h : formulate m cl tl add = .ok a) {d : StateDefinition}
    (hd : d ∈ D.kinematics.initialState :: D.kinematics.finalState) :
    PyDict.get? a.parameterDefaults (.sym (massOfState d.index)) = some (.real d.mass) := by
  obtain ⟨K, E, P, Θ, ref, ids, zetas, terms, hf⟩ := formulate_inv hm.head hm.kinematics h
  obtain ⟨hst, -, p0, ps, hs, hstates⟩ := toDecay_standard hm.head hm.kinematics hf.decay
  have key : ∃ s, IsState d identityFunction s ∧ (d.index, s) ∈ a.decay.states := by
    rcases List.mem_cons.1 hd with rfl | hd
    · refine ⟨p0, toParticle_ok.1 hs.initial, ?_⟩
      rw [hstates, hm.kinematics.initial]
      exact List.mem_cons_self ..
    · obtain ⟨s, hs1, hs2⟩ := Qrules.forall₂_mem_left hs.final hd
      have h1 := toParticle_ok.1 hs2
      refine ⟨s, h1, ?_⟩
      rw [hstates, ← h1.2.2.2.2.2.1]
      exact List.mem_cons_of_mem _ (List.mem_map.2 ⟨s, hs1, rfl⟩)
  obtain ⟨s, hs1, hs2⟩ := key
  have hi : d.index ∈ ([0, 1, 2, 3] : List ℤ) := by
    rcases List.mem_cons.1 hd with rfl | hd
    · rw [hm.kinematics.initial]; simp
    · exact List.mem_cons_of_mem _ (hm.kinematics.final.mem_iff.1 (List.mem_map.2 ⟨d, hd, rfl⟩))
  have hget : a.decay.st d.index = s := by
    unfold Decay.st
    rw [PyDict.get?_of_mem ?_ hs2]
    · rfl
    · exact hst.keys.nodup_iff.2 (by decide)
  rw [mass_value hf hi, hget, hs1.2.2.2.2.1]

/-- C58: the mass of a resonance arrives, if all resonances with the same LaTeX name have the same mass.
(A resonance named `a,2` would share its mass symbol with the second channel of another one.) -/
theorem C58_resonance_mass (hm : ReadsModel m D rd) (h0 : NonnegativeSpins D) (htwo : TwoBodyPropagators D)
    (h : formulate m cl tl none = .ok a) {c : ChainDefinition} (hc : c ∈ D.chains) {v : ℚ}
    (hv : ∀ c' ∈ D.chains, tl c'.name = tl c.name → ∀ p ∈ c'.propagators, ∀ f,
      FunctionNamed m p.parametrization f → PyDict.get? f.fields "mass" = some v)
    (hname : ∀ n : ℕ, tl c.name ≠ "a," ++ toString n ∧ tl c.name ≠ "b," ++ toString n) :
    PyDict.get? a.parameterDefaults (.sym ⟨"m_{" ++ tl c.name ++ "}", .nonneg⟩) = some (.real v) := by
  obtain ⟨K, E, P, Θ, ref, ids, zetas, terms, hf⟩ := formulate_inv hm.head hm.kinematics h
  have hd := (toDecay_standard hm.head hm.kinematics hf.decay).1
  obtain ⟨l, hl⟩ := exists_helicity hd (spins_nonneg hm h0 hf.decay)
  obtain ⟨e, he, p, rest, hp, -⟩ := chain_facts hm hf hl hc
  have hpm : p ∈ c.propagators := by rw [hp]; exact List.mem_cons_self ..
  obtain ⟨f, hfn, mass, hmass, ht⟩ := loop_values he p hpm
  obtain ⟨i, j, hij⟩ := htwo c hc p hpm
  have hv1 := hv c hc rfl p hpm f hfn
  refine C58_parameter_partial hm h0 htwo h hc (s := massNamed (tl c.name)) ?_ ?_ fun i _ => massNamed_ne_state _ i
  · refine .propagator p f i j hpm hij hfn ?_
    rcases ht with ⟨ht, -⟩ | ⟨ht, c', cs, w, hcs, -⟩
    · exact .breitWigner ht (by simp [breitWignerParameters, hv1])
    · exact .multichannel c' cs ht hcs (by simp [multichannelParameters, hv1])
  · intro c' hc' v' h'
    obtain ⟨h1, p', hp', f', hf', h2⟩ := mass_origin h' hname
    have := hv c' hc' h1 p' hp' f' hf'
    rw [h2] at this
    exact Option.some.inj this

/-- C58: the width of a resonance arrives, if all resonances with the same LaTeX name have the same width;
for a multichannel resonance, it is the coupling of the first channel. -/
theorem C58_resonance_width (hm : ReadsModel m D rd) (h0 : NonnegativeSpins D) (htwo : TwoBodyPropagators D)
    (h : formulate m cl tl none = .ok a) {c : ChainDefinition} (hc : c ∈ D.chains) {v : ℚ}
    (hv : ∀ c' ∈ D.chains, tl c'.name = tl c.name → ∀ p ∈ c'.propagators, ∀ f,
      FunctionNamed m p.parametrization f →
      (f.type = "BreitWigner" → PyDict.get? f.fields "width" = some v) ∧
      (f.type = "MultichannelBreitWigner" → ∀ ch chs, f.channels = some (ch :: chs) →
        PyDict.get? ch "gsq" = some v))
    (hname : ∀ c' ∈ D.chains, ∀ n : ℕ, tl c.name ≠ tl c'.name ++ "}^\\text{ch. " ++ toString n) :
    PyDict.get? a.parameterDefaults (.sym ⟨"\\Gamma_{" ++ tl c.name ++ "}", .nonneg⟩) = some (.real v) := by
  obtain ⟨K, E, P, Θ, ref, ids, zetas, terms, hf⟩ := formulate_inv hm.head hm.kinematics h
  have hd := (toDecay_standard hm.head hm.kinematics hf.decay).1
  obtain ⟨l, hl⟩ := exists_helicity hd (spins_nonneg hm h0 hf.decay)
  obtain ⟨e, he, p, rest, hp, -⟩ := chain_facts hm hf hl hc
  have hpm : p ∈ c.propagators := by rw [hp]; exact List.mem_cons_self ..
  obtain ⟨f, hfn, mass, hmass, ht⟩ := loop_values he p hpm
  obtain ⟨i, j, hij⟩ := htwo c hc p hpm
  have hv1 := hv c hc rfl p hpm f hfn
  refine C58_parameter_partial hm h0 htwo h hc (s := widthNamed (tl c.name)) ?_ ?_ fun i _ => widthNamed_ne_state _ i
  · refine .propagator p f i j hpm hij hfn ?_
    rcases ht with ⟨ht, -⟩ | ⟨ht, c', cs, w, hcs, -⟩
    · exact .breitWigner ht (by simp [breitWignerParameters, hv1.1 ht])
    · exact .multichannel c' cs ht hcs (by simp [multichannelParameters, hv1.2 ht c' cs hcs])
  · intro c' hc' v' h'
    obtain ⟨h1, p', hp', f', hf', h2, h3⟩ := width_origin h' (hname c' hc')
    have hv2 := hv c' hc' h1 p' hp' f' hf'
    obtain ⟨e', he', -⟩ := chain_facts hm hf hl hc'
    obtain ⟨f'', hfn'', -, -, ht'⟩ := loop_values he' p' hp'
    have : f'' = f' := by
      have e1 := functionNamed_iff.2 hfn''
      rw [functionNamed_iff.2 hf'] at e1
      exact (Except.ok.inj e1).symm
    subst this
    rcases ht' with ⟨ht', -⟩ | ⟨ht', -⟩
    · have := hv2.1 ht'
      rw [h2 ht'] at this
      exact Option.some.inj this
    · obtain ⟨ch, chs, hcs, h3⟩ := h3 ht'
      have := hv2.2 ht' ch chs hcs
      rw [h3] at this
      exact Option.some.inj this

/-- C58: mass and width symbols of resonances with different LaTeX names are different. -/
theorem C58_distinct {R R' : String} (h : R ≠ R') :
    (⟨"m_{" ++ R ++ "}", .nonneg⟩ : Sym) ≠ ⟨"m_{" ++ R' ++ "}", .nonneg⟩ ∧
    (⟨"\\Gamma_{" ++ R ++ "}", .nonneg⟩ : Sym) ≠ ⟨"\\Gamma_{" ++ R' ++ "}", .nonneg⟩ ∧
    (⟨"m_{" ++ R ++ "}", .nonneg⟩ : Sym) ≠ ⟨"\\Gamma_{" ++ R' ++ "}", .nonneg⟩ :=
  ⟨fun e => h (massNamed_inj e), fun e => h (widthNamed_inj e),
    name_ne (head_massNamed R) (head_widthNamed R') (by decide)⟩

theorem exTwoBody : TwoBodyPropagators exDistribution := by
  intro c hc p hp
  simp only [exDistribution, List.mem_cons, List.not_mem_nil, or_false] at hc
  rcases hc with rfl | rfl | rfl <;>
    simp only [exLambda, exKstar, List.mem_cons, List.not_mem_nil, or_false] at hp <;> subst hp <;>
    exact ⟨_, _, rfl⟩

theorem exLambda_function {f : FunctionDefinition} (h : FunctionNamed exModel "L1520_BW" f) :
    f = exFunctions[1] := by
  have := functionNamed_iff.2 h
  cases this
  rfl

theorem exKstar_function {f : FunctionDefinition} (h : FunctionNamed exModel "K892_BW" f) :
    f = exFunctions[0] := by
  have := functionNamed_iff.2 h
  cases this
  rfl

/-- Masses and widths of the example: mass and width of `L1520`, and the mass of the kaon. -/
example (cl : Bool) : ∃ a, formulate exModel cl id none = .ok a ∧
    PyDict.get? a.parameterDefaults (.sym ⟨"m_{L1520}", .nonneg⟩) = some (.real (1520 / 1000)) ∧
    PyDict.get? a.parameterDefaults (.sym ⟨"\\Gamma_{L1520}", .nonneg⟩) = some (.real (16 / 1000)) ∧
    PyDict.get? a.parameterDefaults (.sym ⟨"m3", .nonneg⟩) = some (.real (494 / 1000)) := by
  obtain ⟨a, ha⟩ := exModel_ok id cl
  have hname : ∀ c ∈ exDistribution.chains, id c.name = id exLambda.name → c = exLambda := by
    intro c hc h
    simp only [exDistribution, List.mem_cons, List.not_mem_nil, or_false] at hc
    rcases hc with rfl | rfl | rfl
    · rfl
    · exact absurd h (by decide)
    · exact absurd h (by decide)
  refine ⟨a, ha, ?_, ?_, ?_⟩
  · refine C58_resonance_mass exModel_reads exDistribution_nonneg exTwoBody ha (c := exLambda)
      (by simp [exDistribution]) (fun c hc h p hp f hf => ?_) fun n => ⟨fun h => ?_, fun h => ?_⟩
    · rw [hname c hc h] at hp
      simp only [exLambda, List.mem_cons, List.not_mem_nil, or_false] at hp
      subst hp
      rw [exLambda_function hf]
      rfl
    · have := congrArg (fun s : String => s.toList.head?) h
      simp [exLambda, String.toList_append] at this
    · have := congrArg (fun s : String => s.toList.head?) h
      simp [exLambda, String.toList_append] at this
  · refine C58_resonance_width exModel_reads exDistribution_nonneg exTwoBody ha (c := exLambda)
      (by simp [exDistribution]) (fun c hc h p hp f hf => ?_) fun c hc n h => ?_
    · rw [hname c hc h] at hp
      simp only [exLambda, List.mem_cons, List.not_mem_nil, or_false] at hp
      subst hp
      rw [exLambda_function hf]
      exact ⟨fun _ => rfl, fun h => absurd h (by decide)⟩
    · have : '}' ∈ (id exLambda.name).toList := by
        rw [h]
        simp [String.toList_append]
      exact absurd this (by decide)
  · exact C58_state_masses exModel_reads ha (d := ⟨3, "K", some 0, 494 / 1000⟩)
      (by simp [exDistribution, exKinematics])

/-- C58: the meson radius is shared by all resonances, so that with different radii one of them gets
lost. -/
theorem C58_radius_fails : ∃ (m : ModelDefinition) (D : Distribution) (rd : ChainDefinition → Reading)
    (a : AmplitudeModel), ReadsModel m D rd ∧ NonnegativeSpins D ∧ TwoBodyPropagators D ∧
    formulate m false id none = .ok a ∧
    ∃ c ∈ D.chains, ∃ p ∈ c.propagators, ∃ f d, FunctionNamed m p.parametrization f ∧
      f.type = "BreitWigner" ∧ PyDict.get? f.fields "d" = some d ∧
      ChainParameter m D.kinematics.initialState.name id c ⟨"R_\\mathrm{res}", .nonneg⟩ d ∧
      PyDict.get? a.parameterDefaults (.sym ⟨"R_\\mathrm{res}", .nonneg⟩) ≠ some (.real d) := by
  obtain ⟨a, ha⟩ := exModel_ok id false
  refine ⟨exModel, exDistribution, exReading, a, exModel_reads, exDistribution_nonneg, exTwoBody, ha, ?_⟩
  have n1 : FunctionNamed exModel "L1520_BW" exFunctions[1] := functionNamed_iff.1 rfl
  have n2 : FunctionNamed exModel "K892_BW" exFunctions[0] := functionNamed_iff.1 rfl
  by_cases h : PyDict.get? a.parameterDefaults (.sym ⟨"R_\\mathrm{res}", .nonneg⟩) = some (.real 5)
  · refine ⟨exKstar, by simp [exDistribution], _, List.mem_cons_self .., exFunctions[0], 3 / 2, n2, rfl, rfl,
      .propagator _ _ 2 3 (List.mem_cons_self ..) rfl n2 (.breitWigner rfl ?_), ?_⟩
    · exact .tail _ (.tail _ (.tail _ (.tail _ (.head _))))
    · rw [h]
      intro hh
      injection hh with hh
      injection hh with hh
      norm_num at hh
  · exact ⟨exLambda, by simp [exDistribution], _, List.mem_cons_self .., exFunctions[1], 5, n1, rfl, rfl,
      .propagator _ _ 3 1 (List.mem_cons_self ..) rfl n1 (.breitWigner rfl
        (.tail _ (.tail _ (.tail _ (.tail _ (.head _)))))), h⟩

/-! ### A model with multichannel resonances and form factors -/

def mcF0 : ChainDefinition where
  name := "f0"
  propagators := [⟨some 0, [.id 2, .id 3], "F0"⟩]
  vertices := [
    { type := "helicity", node := [.seq [.id 2, .id 3], .id 1], helicities := some [some 0, some 0],
      formfactor := some "FFP" },
    { type := "helicity", node := [.id 2, .id 3], helicities := some [some 0, some 0],
      formfactor := some "FFD" }]
  topology := [.seq [.id 2, .id 3], .id 1]
  weight := some (1, 0)

def mcA0 : ChainDefinition where
  name := "a0"
  propagators := [⟨some 0, [.id 3, .id 1], "A0"⟩]
  vertices := [
    { type := "helicity", node := [.id 2, .seq [.id 3, .id 1]], helicities := some [some 0, some 0] },
    { type := "helicity", node := [.id 3, .id 1], helicities := some [some 0, some 0] }]
  topology := [.id 2, .seq [.id 3, .id 1]]
  weight := some (-1, 2)

def mcDistribution : Distribution where
  kinematics :=
    { initialState := ⟨0, "D", some 0, 1865 / 1000⟩,
      finalState := [⟨1, "pi", some 0, 140 / 1000⟩, ⟨2, "pi", some 0, 140 / 1000⟩,
        ⟨3, "eta", some 0, 548 / 1000⟩] }
  referenceTopology := [.seq [.id 2, .id 3], .id 1]
  chains := [mcF0, mcA0]

def mcModel : ModelDefinition where
  distributions := [mcDistribution]
  functions := [
    ⟨"F0", "MultichannelBreitWigner", [("mass", 980 / 1000)], some [
      [("gsq", 4 / 10), ("l", 0), ("ma", 140 / 1000), ("mb", 548 / 1000), ("d", 1)],
      [("gsq", 7 / 10), ("l", 0), ("ma", 494 / 1000), ("mb", 497 / 1000)]]⟩,
    ⟨"A0", "MultichannelBreitWigner", [("mass", 990 / 1000)], some [
      [("gsq", 3 / 10), ("l", 0), ("ma", 548 / 1000), ("mb", 140 / 1000), ("d", 2)],
      [("gsq", 2 / 10), ("l", 0), ("ma", 498 / 1000), ("mb", 494 / 1000)]]⟩,
    ⟨"FFP", "BlattWeisskopf", [("l", 1), ("radius", 5)], none⟩,
    ⟨"FFD", "BlattWeisskopf", [("l", 0), ("radius", 3 / 2)], none⟩]

def mcReading (c : ChainDefinition) : Reading :=
  if c.name = "f0" then ⟨2, 3, 1, 0, 0, 0, 0⟩ else ⟨3, 1, 2, 0, 0, 0, 0⟩

theorem mcModel_reads : ReadsModel mcModel mcDistribution mcReading where
  head := ⟨[], rfl⟩
  kinematics := by
    refine ⟨rfl, by decide, ?_⟩
    intro d hd
    simp only [mcDistribution, List.mem_cons, List.not_mem_nil, or_false] at hd
    rcases hd with rfl | rfl | rfl | rfl <;> exact ⟨_, rfl, half_zero⟩
  reads := by
    intro c hc
    simp only [mcDistribution, List.mem_cons, List.not_mem_nil, or_false] at hc
    rcases hc with rfl | rfl
    · exact ⟨⟨_, _, .inl rfl, ⟨_, _, .inl ⟨rfl, rfl⟩⟩, rfl, rfl⟩,
        show [(2 : ℤ), 3, 1].Perm [1, 2, 3] by decide⟩
    · exact ⟨⟨_, _, .inl rfl, ⟨_, _, .inr ⟨rfl, rfl⟩⟩, rfl, rfl⟩,
        show [(3 : ℤ), 1, 2].Perm [1, 2, 3] by decide⟩

theorem mcDistribution_nonneg : NonnegativeSpins mcDistribution := by
  intro d hd s hs
  simp only [mcDistribution, List.mem_cons, List.not_mem_nil, or_false] at hd
  rcases hd with rfl | rfl | rfl | rfl <;> cases hs <;> norm_num

theorem mcTwoBody : TwoBodyPropagators mcDistribution := by
  intro c hc p hp
  simp only [mcDistribution, List.mem_cons, List.not_mem_nil, or_false] at hc
  rcases hc with rfl | rfl <;>
    simp only [mcF0, mcA0, List.mem_cons, List.not_mem_nil, or_false] at hp <;> subst hp <;>
    exact ⟨_, _, rfl⟩

theorem mcModel_ok (tl : String → String) (cl : Bool) : ∃ a, formulate mcModel cl tl none = .ok a := by
  refine C60_returns mcModel_reads (ref := 1) ⟨by simp [mcDistribution], by simp [mcDistribution]⟩ (by simp)
    ?_ cl
  intro c hc
  simp only [mcDistribution, List.mem_cons, List.not_mem_nil, or_false] at hc
  rcases hc with rfl | rfl
  · refine ⟨?_, rfl, ⟨0, ⟨_, _, rfl, rfl⟩, half_zero⟩, ⟨1, by simp, by simp [mcF0], by simp [mcF0]⟩,
      ⟨_, rfl⟩, ?_⟩ <;> intro v hv <;> simp only [mcF0, List.mem_cons, List.not_mem_nil, or_false] at hv <;>
      rcases hv with rfl | rfl
    · exact .inl rfl
    · exact .inl rfl
    · exact ⟨_, rfl⟩
    · exact ⟨_, rfl⟩
  · refine ⟨?_, rfl, ⟨0, ⟨_, _, rfl, rfl⟩, half_zero⟩, ⟨2, by simp, by simp [mcA0], by simp [mcA0]⟩,
      ⟨_, rfl⟩, ?_⟩ <;> intro v hv <;> simp only [mcA0, List.mem_cons, List.not_mem_nil, or_false] at hv <;>
      rcases hv with rfl | rfl
    · exact .inl rfl
    · exact .inl rfl
    · exact ⟨_, rfl⟩
    · exact ⟨_, rfl⟩

/-- C58: the masses of the second channel are shared by all resonances, so that one of them gets lost. -/
theorem C58_channel_mass_fails : ∃ (m : ModelDefinition) (D : Distribution) (rd : ChainDefinition → Reading)
    (a : AmplitudeModel), ReadsModel m D rd ∧ NonnegativeSpins D ∧ TwoBodyPropagators D ∧
    formulate m false id none = .ok a ∧
    ∃ c ∈ D.chains, ∃ p ∈ c.propagators, ∃ f c1 c2 cs ma, FunctionNamed m p.parametrization f ∧
      f.type = "MultichannelBreitWigner" ∧ f.channels = some (c1 :: c2 :: cs) ∧
      PyDict.get? c2 "ma" = some ma ∧
      ChainParameter m D.kinematics.initialState.name id c ⟨"m_{a,2}", .nonneg⟩ ma ∧
      PyDict.get? a.parameterDefaults (.sym ⟨"m_{a,2}", .nonneg⟩) ≠ some (.real ma) := by
  obtain ⟨a, ha⟩ := mcModel_ok id false
  refine ⟨mcModel, mcDistribution, mcReading, a, mcModel_reads, mcDistribution_nonneg, mcTwoBody, ha, ?_⟩
  have n1 : FunctionNamed mcModel "F0" mcModel.functions[0] := functionNamed_iff.1 rfl
  have n2 : FunctionNamed mcModel "A0" mcModel.functions[1] := functionNamed_iff.1 rfl
  by_cases h : PyDict.get? a.parameterDefaults (.sym ⟨"m_{a,2}", .nonneg⟩) = some (.real (494 / 1000))
  · refine ⟨mcA0, by simp [mcDistribution], _, List.mem_cons_self .., mcModel.functions[1], _, _, _,
      498 / 1000, n2, rfl, rfl, rfl,
      .propagator _ _ 3 1 (List.mem_cons_self ..) rfl n2 (.multichannel _ _ rfl rfl ?_), ?_⟩
    · exact .tail _ (.tail _ (.tail _ (.tail _ (.tail _ (.head _)))))
    · rw [h]
      intro hh
      injection hh with hh
      injection hh with hh
      norm_num at hh
  · exact ⟨mcF0, by simp [mcDistribution], _, List.mem_cons_self .., mcModel.functions[0], _, _, _,
      494 / 1000, n1, rfl, rfl, rfl,
      .propagator _ _ 2 3 (List.mem_cons_self ..) rfl n1 (.multichannel _ _ rfl rfl
        (.tail _ (.tail _ (.tail _ (.tail _ (.tail _ (.head _))))))), h⟩

/-! ### C59 -/

theorem mandelstam_node {i j k : ℤ} (hp : [i, j, k].Perm [1, 2, 3]) :
    toMassSymbol (.seq [.id i, .id j]) = .ok (mandelstam k) := by
  have hi : i ∈ ([1, 2, 3] : List ℤ) := hp.mem_iff.1 (by simp)
  have hj : j ∈ ([1, 2, 3] : List ℤ) := hp.mem_iff.1 (by simp)
  have hk : k ∈ ([1, 2, 3] : List ℤ) := hp.mem_iff.1 (by simp)
  have hn := hp.nodup_iff.2 (by decide)
  simp only [List.mem_cons, List.not_mem_nil, or_false] at hi hj hk
  rcases hi with rfl | rfl | rfl <;> rcases hj with rfl | rfl | rfl <;> rcases hk with rfl | rfl | rfl <;>
    first | rfl | exact absurd hn (by decide)

/-- C59: the form factor of a decay vertex is 1 if the vertex has none; otherwise it is the form factor of
the Mandelstam variable of the decay products, their masses, the angular momentum of the function
definition and the radius `R_res`. -/
theorem C59_decay_vertex_value {v : Vertex} {i j k : ℤ} (hn : v.node = [.id i, .id j])
    (hp : [i, j, k].Perm [1, 2, 3]) {e : DefExpr} (h : formulateFormFactor v m = .ok e) (ι : Interp)
    (η : Sym → ℚ) :
    ((v.formfactor = none ∨ v.formfactor = some "") → e.expression.eval ι η = 1) ∧
    (∀ name, v.formfactor = some name → name ≠ "" → ∃ f, FunctionNamed m name f ∧ f.type = "BlattWeisskopf" ∧
      ∃ L : ℚ, PyDict.get? f.fields "l" = some L ∧ ∀ n : ℤ, L = n → e.expression.eval ι η =
        ι.ff (ι.sym (mandelstam k)) (ι.sym (massOfState i)) (ι.sym (massOfState j)) n
          (ι.sym resonanceRadius)) := by
  have hint : allInt v.node = true := by rw [hn]; rfl
  rcases formFactor_ok.1 h with ⟨h1, rfl⟩ | ⟨name, f, s, x, y, m1, m2, R, L, radius, h1, h2, h3, h4, h5, h6, h7, h8,
    hR, hL, hr, rfl⟩
  · refine ⟨fun _ => by simp [Expr.eval], fun name h h' => ?_⟩
    rcases h1 with h1 | h1 <;> rw [h] at h1 <;> cases h1
    exact absurd rfl h'
  · refine ⟨fun h => ?_, fun name' h' _ => ?_⟩
    · rcases h with h | h <;> rw [h] at h1 <;> cases h1
      exact absurd rfl h2
    · rw [h1] at h'
      cases h'
      refine ⟨f, functionNamed_iff.1 h3, h4, L, hL, fun n hn' => ?_⟩
      rw [hn] at h6
      cases h6
      cases h7
      cases h8
      unfold toMandelstamSymbol at h5
      rw [hint, if_pos rfl, hn, mandelstam_node hp] at h5
      cases h5
      rcases hR with ⟨-, rfl⟩ | ⟨ha, -⟩
      · have : pyInt L = n := by
          rw [hn']
          unfold pyInt
          split <;> simp
        simp only [Expr.eval, this]
        rfl
      · rw [hint] at ha; cases ha

/-- C59: so at a decay vertex, every form factor receives a squared mass and two masses, and it is
dimensionless. -/
theorem C59_decay_vertex_partial {v : Vertex} {i j k : ℤ} (hn : v.node = [.id i, .id j])
    (hp : [i, j, k].Perm [1, 2, 3]) {e : DefExpr} (h : formulateFormFactor v m = .ok e) :
    (∀ a ∈ formFactorArgs e.expression, HasDim SymbolDim a.1 2 ∧ HasDim SymbolDim a.2.1 1 ∧
      HasDim SymbolDim a.2.2 1) ∧ HasDim SymbolDim e.expression 0 := by
  have hint : allInt v.node = true := by rw [hn]; rfl
  rcases formFactor_ok.1 h with ⟨h1, rfl⟩ | ⟨name, f, s, x, y, m1, m2, R, L, radius, h1, h2, h3, h4, h5, h6, h7, h8,
    hR, hL, hr, rfl⟩
  · exact ⟨fun a ha => (by cases ha), HasDim.num 1⟩
  · rw [hn] at h6
    cases h6
    cases h7
    cases h8
    unfold toMandelstamSymbol at h5
    rw [hint, if_pos rfl, hn, mandelstam_node hp] at h5
    cases h5
    have d1 : HasDim SymbolDim (.sym (mandelstam k)) 2 := .sym (.mandelstam k)
    have d2 : HasDim SymbolDim (.sym (massOfState i)) 1 := .sym (.stateMass i)
    have d3 : HasDim SymbolDim (.sym (massOfState j)) 1 := .sym (.stateMass j)
    rcases hR with ⟨-, rfl⟩ | ⟨ha, -⟩
    · refine ⟨fun a ha => ?_, .ff _ d1 d2 d3 (.sym .resonanceRadius)⟩
      rw [List.mem_singleton.1 (show a ∈ [_] from ha)]
      exact ⟨d1, d2, d3⟩
    · rw [hint] at ha; cases ha

theorem sym_dim {δ : Sym → ℤ → Prop} {s : Sym} {d : ℤ} (h : HasDim δ (.sym s) d) : δ s d := by
  cases h with
  | sym h => exact h

theorem stateMass_dim {i d : ℤ} (h : SymbolDim (massOfState i) d) : d = 1 := by
  have hm := head_state i
  generalize hs : massOfState i = s at h
  rw [hs] at hm
  cases h with
  | mandelstam k => rw [head_mandelstam] at hm; simp at hm
  | stateMass i => rfl
  | resonanceMass p => rfl
  | resonanceWidth p => rfl
  | resonanceRadius => rw [head_radius] at hm; simp at hm
  | parentRadius p => rw [head_parent] at hm; simp at hm

/-- C59: at a production vertex the property fails, for every vertex and every function definition: the
form factor receives the mass of the initial state (not its square) and, as one of the masses,
the Mandelstam variable of the resonance (not its square root); so it has no mass dimension. -/
theorem C59_production_vertex_fails {v : Vertex} {i j k : ℤ} (hn : ProductionNode v.node (.id i) (.id j) k)
    (hp : [i, j, k].Perm [1, 2, 3]) {name : String} (hv : v.formfactor = some name) (hv' : name ≠ "")
    {e : DefExpr} (h : formulateFormFactor v m = .ok e) :
    (∃ m1 m2, formFactorArgs e.expression = [(.sym (massOfState 0), m1, m2)] ∧
      ¬ HasDim SymbolDim (.sym (massOfState 0)) 2 ∧
      ((m1 = .sym (mandelstam k) ∧ ¬ HasDim SymbolDim m1 1) ∨
        (m2 = .sym (mandelstam k) ∧ ¬ HasDim SymbolDim m2 1))) ∧
    ¬ ∃ d, HasDim SymbolDim e.expression d := by
  have hint : allInt v.node = false := by rcases hn with hn | hn <;> rw [hn] <;> rfl
  have d0 : ¬ HasDim SymbolDim (.sym (massOfState 0)) 2 :=
    fun h => absurd (stateMass_dim (sym_dim h)) (by norm_num)
  have dk : ¬ HasDim SymbolDim (.sym (mandelstam k)) 1 :=
    fun h => absurd (mandelstam_dim (sym_dim h)) (by norm_num)
  rcases formFactor_ok.1 h with ⟨h1, rfl⟩ | ⟨name', f, s, x, y, m1, m2, R, L, radius, h1, h2, h3, h4, h5, h6, h7, h8,
    hR, hL, hr, rfl⟩
  · rcases h1 with h1 | h1 <;> rw [hv] at h1 <;> cases h1
    exact absurd rfl hv'
  · unfold toMandelstamSymbol at h5
    rw [hint, if_neg (by simp)] at h5
    cases h5
    refine ⟨⟨_, _, rfl, d0, ?_⟩, ?_⟩
    · rcases hn with hn | hn <;> rw [hn] at h6 <;> cases h6
      · rw [mandelstam_node hp] at h7
        cases h7
        exact .inl ⟨rfl, dk⟩
      · rw [mandelstam_node hp] at h8
        cases h8
        exact .inr ⟨rfl, dk⟩
    · rintro ⟨d, hd⟩
      cases hd with
      | ff L hs _ _ _ => exact d0 hs

/-- C59: a function definition of type `BlattWeisskopf` with `l` and `radius` is all that a decay vertex
needs; the production vertex needs the spin of the initial state to be half-integer in addition. -/
theorem C59_returns {v : Vertex} {i j k : ℤ} (hn : v.node = [.id i, .id j] ∨ ProductionNode v.node (.id i) (.id j) k)
    (hp : [i, j, k].Perm [1, 2, 3]) {D : Distribution} {rest : List Distribution}
    (hD : m.distributions = D :: rest) (hk : WellFormedKinematics D.kinematics)
    (hv : v.formfactor = none ∨ ∃ name f L r, v.formfactor = some name ∧ FunctionNamed m name f ∧
      f.type = "BlattWeisskopf" ∧ PyDict.get? f.fields "l" = some L ∧ PyDict.get? f.fields "radius" = some r) :
    ∃ e, formulateFormFactor v m = .ok e := by
  rcases hv with hv | ⟨name, f, L, r, h1, h2, h3, h4, h5⟩
  · exact ⟨_, formFactor_ok.2 (.inl ⟨.inl hv, rfl⟩)⟩
  by_cases hne : name = ""
  · exact ⟨_, formFactor_ok.2 (.inl ⟨.inr (hne ▸ h1), rfl⟩)⟩
  have hf := functionNamed_iff.2 h2
  rcases hn with hn | hn
  · have hint : allInt v.node = true := by rw [hn]; rfl
    refine ⟨_, formFactor_ok.2 (.inr ⟨name, f, mandelstam k, .id i, .id j, _, _, _, L, r, h1, hne, hf, h3, ?_, hn, rfl,
      rfl, .inl ⟨hint, rfl⟩, h4, h5, rfl⟩)⟩
    unfold toMandelstamSymbol
    rw [hint, if_pos rfl, hn, mandelstam_node hp]
  · have hint : allInt v.node = false := by rcases hn with hn | hn <;> rw [hn] <;> rfl
    obtain ⟨s, hs, hh⟩ := hk.spins _ (List.mem_cons_self ..)
    have hp0 : ∃ p0, getInitialState m identityFunction = .ok p0 := by
      refine ⟨⟨⟨D.kinematics.initialState.name, D.kinematics.initialState.name, s, none,
        D.kinematics.initialState.mass, 0⟩, D.kinematics.initialState.index⟩,
        getInitialState_ok.2 ⟨D, rest, hD, toParticle_ok.2 ⟨hs, hh, rfl, rfl, rfl, rfl, rfl, rfl⟩⟩⟩
    obtain ⟨p0, hp0⟩ := hp0
    have hms : toMandelstamSymbol v.node = .ok (massOfState 0) := by
      unfold toMandelstamSymbol
      rw [hint, if_neg (by simp)]
      rfl
    rcases hn with hn | hn
    · exact ⟨_, formFactor_ok.2 (.inr ⟨name, f, _, .seq [.id i, .id j], .id k, _, _, _, L, r, h1, hne, hf, h3, hms, hn,
        mandelstam_node hp, rfl, .inr ⟨hint, p0, hp0, rfl⟩, h4, h5, rfl⟩)⟩
    · exact ⟨_, formFactor_ok.2 (.inr ⟨name, f, _, .id k, .seq [.id i, .id j], _, _, _, L, r, h1, hne, hf, h3, hms, hn,
        rfl, mandelstam_node hp, .inr ⟨hint, p0, hp0, rfl⟩, h4, h5, rfl⟩)⟩

/-- Both vertices of a chain of the example return a form factor: the one of the decay vertex is
`F(σ1, m2, m3)`, the one of the production vertex has no mass dimension. -/
example : (∃ e, formulateFormFactor mcF0.vertices[1] mcModel = .ok e ∧ HasDim SymbolDim e.expression 0 ∧
      ∀ ι η, e.expression.eval ι η = ι.ff (ι.sym ⟨"sigma1", .nonneg⟩) (ι.sym ⟨"m2", .nonneg⟩)
        (ι.sym ⟨"m3", .nonneg⟩) 0 (ι.sym ⟨"R_\\mathrm{res}", .nonneg⟩)) ∧
    ∃ e, formulateFormFactor mcF0.vertices[0] mcModel = .ok e ∧ ¬ ∃ d, HasDim SymbolDim e.expression d := by
  have n1 : FunctionNamed mcModel "FFP" mcModel.functions[2] := functionNamed_iff.1 rfl
  have n2 : FunctionNamed mcModel "FFD" mcModel.functions[3] := functionNamed_iff.1 rfl
  have hp : [(2 : ℤ), 3, 1].Perm [1, 2, 3] := by decide
  constructor
  · obtain ⟨e, he⟩ := C59_returns (v := mcF0.vertices[1]) (.inl rfl) hp (D := mcDistribution) rfl
      mcModel_reads.kinematics (.inr ⟨_, _, _, _, rfl, n2, rfl, rfl, rfl⟩)
    refine ⟨e, he, (C59_decay_vertex_partial rfl hp he).2, fun ι η => ?_⟩
    obtain ⟨f, hf, -, L, hL, hval⟩ := (C59_decay_vertex_value rfl hp he ι η).2 "FFD" rfl (by decide)
    have := functionNamed_iff.2 hf
    cases this
    cases hL
    exact hval 0 (by simp)
  · obtain ⟨e, he⟩ := C59_returns (v := mcF0.vertices[0]) (.inr (.inl rfl)) hp (D := mcDistribution) rfl
      mcModel_reads.kinematics (.inr ⟨_, _, _, _, rfl, n1, rfl, rfl, rfl⟩)
    exact ⟨e, he, (C59_production_vertex_fails (v := mcF0.vertices[0]) (name := "FFP") (.inl rfl) hp rfl
      (by decide) he).2⟩

/-! ### C73 -/

theorem pyInt_of {L : ℚ} {n : ℤ} (h : L = n) : pyInt L = n := by
  rw [h]
  unfold pyInt
  split <;> simp

theorem mandelstam_of {node : List Tree} {i j k : ℤ} (hn : node = [.id i, .id j]) (hp : [i, j, k].Perm [1, 2, 3]) :
    toMandelstamSymbol node = .ok (mandelstam k) := by
  unfold toMandelstamSymbol
  rw [hn, if_pos (show allInt [.id i, .id j] = true from rfl), mandelstam_node hp]

/-- C73: the lineshape of a propagator `[i, j]` with a `BreitWigner` function is the Breit-Wigner function
of the Mandelstam variable of `i` and `j` with an energy-dependent width; it is returned iff the
function definition has the six fields. -/
theorem C73_breit_wigner {p : Propagator} {R : String} {i j k : ℤ} (hn : p.node = [.id i, .id j])
    (hp : [i, j, k].Perm [1, 2, 3]) :
    ((∃ e, formulateBreitWigner p R m = .ok e) ↔ ∃ f, FunctionNamed m p.parametrization f ∧
      ∀ x ∈ ["l", "mass", "width", "ma", "mb", "d"], ∃ v, PyDict.get? f.fields x = some v) ∧
    ∀ e, formulateBreitWigner p R m = .ok e → ∃ f, FunctionNamed m p.parametrization f ∧
      ∀ L : ℤ, PyDict.get? f.fields "l" = some (L : ℚ) → ∀ ι η,
        e.expression.eval ι η = breitWignerLine ι R i j k L := by
  refine ⟨⟨?_, ?_⟩, ?_⟩
  · rintro ⟨e, h⟩
    obtain ⟨f, i', j', s, m1, m2, L, mass, width, ma, mb, d, h1, -, -, -, -, h6, h7, h8, h9, h10, h11, -⟩ :=
      breitWigner_ok.1 h
    refine ⟨f, functionNamed_iff.1 h1, fun x hx => ?_⟩
    simp only [List.mem_cons, List.not_mem_nil, or_false] at hx
    rcases hx with rfl | rfl | rfl | rfl | rfl | rfl
    · exact ⟨_, h6⟩
    · exact ⟨_, h7⟩
    · exact ⟨_, h8⟩
    · exact ⟨_, h9⟩
    · exact ⟨_, h10⟩
    · exact ⟨_, h11⟩
  · rintro ⟨f, hf, h⟩
    obtain ⟨L, h1⟩ := h "l" (by simp)
    obtain ⟨mass, h2⟩ := h "mass" (by simp)
    obtain ⟨width, h3⟩ := h "width" (by simp)
    obtain ⟨ma, h4⟩ := h "ma" (by simp)
    obtain ⟨mb, h5⟩ := h "mb" (by simp)
    obtain ⟨d, h6⟩ := h "d" (by simp)
    exact ⟨_, breitWigner_ok.2 ⟨f, _, _, _, _, _, L, mass, width, ma, mb, d, functionNamed_iff.2 hf, hn,
      mandelstam_of hn hp, rfl, rfl, h1, h2, h3, h4, h5, h6, rfl⟩⟩
  · intro e h
    obtain ⟨f, i', j', s, m1, m2, L', mass, width, ma, mb, d, h1, h2, h3, h4, h5, h6, -, -, -, -, -, rfl⟩ :=
      breitWigner_ok.1 h
    refine ⟨f, functionNamed_iff.1 h1, fun L hL ι η => ?_⟩
    rw [hL] at h6
    cases h6
    rw [hn] at h2
    cases h2
    cases h4
    cases h5
    rw [mandelstam_of hn hp] at h3
    cases h3
    rw [pyInt_of rfl, (C37_closed_form ..).2.2 (by rintro ⟨-, h, -⟩; cases h)]
    rfl

theorem channelLoop_channels {R : String} {s mass d : Sym} {n : ℕ} {cs : List (PyDict String ℚ)}
    {ch : List ChannelArguments} {P : PyDict Key Val} {r : List ChannelArguments × PyDict Key Val}
    (h : channelLoop R s mass d n cs ch P = .ok r) {Ls : List ℤ}
    (hL : List.Forall₂ (fun (c : PyDict String ℚ) (L : ℤ) => PyDict.get? c "l" = some (L : ℚ)) cs Ls) :
    r.1 = ch ++ (Ls.zipIdx n).map fun x => ⟨.sym s, .sym mass, .sym (channelWidth R x.2),
      .sym (channelMassA x.2), .sym (channelMassB x.2), x.1, .sym d⟩ := by
  induction cs generalizing n ch P Ls with
  | nil => cases hL; cases h; simp
  | cons c t ih =>
    cases hL with
    | cons h1 h2 =>
    unfold channelLoop at h
    simp only [bind_ok] at h
    obtain ⟨L, hl, ma, -, mb, -, gsq, -, h⟩ := h
    have hl := get_ok.1 hl
    rw [h1] at hl
    cases hl
    rw [ih h h2, pyInt_of rfl, List.zipIdx_cons, List.map_cons, List.append_assoc, List.singleton_append]

/-- C73: the lineshape of a propagator `[i, j]` with a `MultichannelBreitWigner` function. -/
theorem C73_multichannel {p : Propagator} {R : String} {i j k : ℤ} (hn : p.node = [.id i, .id j])
    (hp : [i, j, k].Perm [1, 2, 3]) {e : DefExpr} (h : formulateMultichannelBreitWigner p R m = .ok e) :
    ∃ f c cs, FunctionNamed m p.parametrization f ∧ f.channels = some (c :: cs) ∧ cs ≠ [] ∧
      ∀ (L : ℤ) (Ls : List ℤ), PyDict.get? c "l" = some (L : ℚ) →
        List.Forall₂ (fun (c : PyDict String ℚ) (L : ℤ) => PyDict.get? c "l" = some (L : ℚ)) cs Ls →
        ∀ ι η, e.expression.eval ι η = multichannelLine ι R i j k L Ls := by
  obtain ⟨f, c1, c2, cs, i', j', s, m1, m2, L', mass, gsq, ma, mb, d, r, h1, hc, h2, h3, h4, h5, h6, -, -, -, -, -,
    h12, rfl⟩ := multichannel_ok h
  refine ⟨f, c1, c2 :: cs, functionNamed_iff.1 h1, hc, by simp, fun L Ls hL hLs ι η => ?_⟩
  rw [hL] at h6
  cases h6
  rw [hn] at h2
  cases h2
  cases h4
  cases h5
  rw [mandelstam_of hn hp] at h3
  cases h3
  rw [C39_sum_of_widths, channelLoop_channels h12 hLs, pyInt_of rfl, List.map_append, List.sum_append]
  simp only [List.map_cons, List.map_nil, List.sum_cons, List.sum_nil, add_zero, List.map_map]
  rfl

/-- C73: the number of channels must be at least two; with one channel or none, or without channels, the
function raises. -/
theorem C73_channels_needed {p : Propagator} {R : String} {f : FunctionDefinition}
    (hf : FunctionNamed m p.parametrization f) :
    (f.channels = none → formulateMultichannelBreitWigner p R m = .error .keyError) ∧
    (∀ cs, f.channels = some cs → cs.length < 2 →
      formulateMultichannelBreitWigner p R m = .error .notImplementedError) := by
  have h := functionNamed_iff.2 hf
  constructor
  · intro hc
    unfold formulateMultichannelBreitWigner
    rw [h]
    simp only [bind, Except.bind, hc]
  · intro cs hc hl
    unfold formulateMultichannelBreitWigner
    rw [h]
    match cs, hl with
    | [], _ => simp only [bind, Except.bind, hc]
    | [c], _ => simp only [bind, Except.bind, hc]

/-- C73: a custom builder takes precedence over the built-in one for the same type; types without
builder are not implemented, and an unknown function is a `KeyError`. -/
theorem C73_dispatch {c : ChainDefinition} {p : Propagator} (hc : c.propagators = [p])
    {defs : PyDict String PropagatorBuilder} (hdefs : (PyDict.keys defs).Nodup) :
    ((∀ f ∈ m.functions, f.name ≠ p.parametrization) →
      formulateDynamics c m tl (some defs) = .error .keyError) ∧
    ∀ f, FunctionNamed m p.parametrization f →
      (∀ b, PyDict.get? defs f.type = some b → ∀ d, formulateDynamics c m tl (some defs) = .ok d →
        ∃ e, b p (tl c.name) m = .ok e ∧ ∀ ι η, d.expression.eval ι η = e.expression.eval ι η) ∧
      (PyDict.get? defs f.type = none → f.type ≠ "BreitWigner" → f.type ≠ "MultichannelBreitWigner" →
        formulateDynamics c m tl (some defs) = .error .notImplementedError) := by
  refine ⟨fun h => ?_, fun f hf => ⟨fun b hb d hd => ?_, fun hn h1 h2 => ?_⟩⟩
  · unfold formulateDynamics
    rw [hc]
    unfold dynamicsLoop
    rw [(C51_function _ m).2.1.2 h]
    rfl
  · unfold formulateDynamics at hd
    rw [hc] at hd
    unfold dynamicsLoop at hd
    rw [functionNamed_iff.2 hf] at hd
    have : PyDict.get? (dynamicsDefinitions (some defs)) f.type = some b := by
      unfold dynamicsDefinitions
      simp only
      rw [PyDict.get?_update]
      have : PyDict.get? defs.reverse f.type = some b :=
        PyDict.get?_reverse_const ⟨_, PyDict.mem_of_get? hb, rfl⟩ fun x hx hk => by
          have := PyDict.get?_of_mem hdefs hx
          rw [hk, hb] at this
          exact (Option.some.inj this).symm
      rw [this, Option.some_or]
    simp only [bind, Except.bind] at hd
    rw [this] at hd
    simp only at hd
    cases hbe : b p (tl c.name) m with
    | error x => rw [hbe] at hd; cases hd
    | ok e =>
      rw [hbe] at hd
      cases hd
      refine ⟨e, rfl, fun ι η => ?_⟩
      change (Expr.mul _ _).eval ι η = _
      simp [Expr.eval]
  · unfold formulateDynamics
    rw [hc]
    unfold dynamicsLoop
    rw [functionNamed_iff.2 hf]
    have : PyDict.get? (dynamicsDefinitions (some defs)) f.type = none := by
      rw [PyDict.get?_eq_none]
      unfold dynamicsDefinitions
      simp only
      rw [PyDict.mem_keys_update]
      rintro (h | h)
      · have := PyDict.mem_keys_update.1 h
        simp [PyDict.keys, h1, h2] at this
      · exact (PyDict.get?_eq_none.1 hn) h
    simp only [bind, Except.bind, this]

/-- C73: without custom builders, the lineshape of a chain is that of its only propagator. -/
theorem C73_chain {c : ChainDefinition} {p : Propagator} (hc : c.propagators = [p]) {i j k : ℤ}
    (hn : p.node = [.id i, .id j]) (hp : [i, j, k].Perm [1, 2, 3]) {f : FunctionDefinition}
    (hf : FunctionNamed m p.parametrization f) {d : DefExpr} (hd : formulateDynamics c m tl none = .ok d) :
    (f.type = "BreitWigner" ∧ ∀ L : ℤ, PyDict.get? f.fields "l" = some (L : ℚ) → ∀ ι η,
      d.expression.eval ι η = breitWignerLine ι (tl c.name) i j k L) ∨
    (f.type = "MultichannelBreitWigner" ∧ ∃ c1 cs, f.channels = some (c1 :: cs) ∧
      ∀ (L : ℤ) (Ls : List ℤ), PyDict.get? c1 "l" = some (L : ℚ) →
        List.Forall₂ (fun (c : PyDict String ℚ) (L : ℤ) => PyDict.get? c "l" = some (L : ℚ)) cs Ls →
        ∀ ι η, d.expression.eval ι η = multichannelLine ι (tl c.name) i j k L Ls) := by
  unfold formulateDynamics at hd
  rw [hc] at hd
  unfold dynamicsLoop at hd
  rw [functionNamed_iff.2 hf] at hd
  simp only [bind, Except.bind] at hd
  cases hb : PyDict.get? (dynamicsDefinitions none) f.type with
  | none => rw [hb] at hd; cases hd
  | some b =>
    rw [hb] at hd
    simp only at hd
    cases hbe : b p (tl c.name) m with
    | error x => rw [hbe] at hd; cases hd
    | ok e =>
      rw [hbe] at hd
      cases hd
      have hval : ∀ ι η, (({} : DefExpr).mul (.defined e)).expression.eval ι η = e.expression.eval ι η := by
        intro ι η
        change (Expr.mul _ _).eval ι η = _
        simp [Expr.eval]
      rcases builtin_get hb with ⟨ht, rfl⟩ | ⟨ht, rfl⟩
      · refine .inl ⟨ht, fun L hL ι η => ?_⟩
        obtain ⟨f', hf', h⟩ := (C73_breit_wigner hn hp).2 e hbe
        have := functionNamed_iff.2 hf'
        rw [functionNamed_iff.2 hf] at this
        cases this
        exact (hval ι η).trans (h L hL ι η)
      · obtain ⟨f', c1, cs, hf', hcs, -, h⟩ := C73_multichannel hn hp hbe
        have := functionNamed_iff.2 hf'
        rw [functionNamed_iff.2 hf] at this
        cases this
        exact .inr ⟨ht, c1, cs, hcs, fun L Ls hL hLs ι η => (hval ι η).trans (h L Ls hL hLs ι η)⟩

/-- The lineshapes of the two examples. -/
example : (∃ e, formulateBreitWigner ⟨some (3 / 2), [.id 3, .id 1], "L1520_BW"⟩ "L1520" exModel = .ok e ∧
      ∀ ι η, e.expression.eval ι η = breitWignerLine ι "L1520" 3 1 2 2) ∧
    ∃ e, formulateMultichannelBreitWigner ⟨some 0, [.id 2, .id 3], "F0"⟩ "f0" mcModel = .ok e ∧
      ∀ ι η, e.expression.eval ι η = multichannelLine ι "f0" 2 3 1 0 [0] := by
  constructor
  · refine ⟨_, rfl, fun ι η => ?_⟩
    obtain ⟨f, hf, h⟩ := (C73_breit_wigner (m := exModel) (p := ⟨some (3 / 2), [.id 3, .id 1], "L1520_BW"⟩)
      (R := "L1520") (k := 2) rfl (by decide)).2 _ rfl
    refine h 2 ?_ ι η
    have := exLambda_function hf
    subst this
    rfl
  · refine ⟨_, rfl, fun ι η => ?_⟩
    obtain ⟨f, c, cs, hf, hc, -, h⟩ := C73_multichannel (m := mcModel) (p := ⟨some 0, [.id 2, .id 3], "F0"⟩)
      (R := "f0") (k := 1) rfl (by decide) rfl
    have := functionNamed_iff.2 hf
    cases this
    cases hc
    exact h 0 [0] rfl (.cons rfl .nil) ι η

end Verif.Serialization
