import Verif.Spec.FrontEnds
import Verif.Props.SerialWeights
import Verif.Props.Superposition
import Verif.Props.RegisteredDynamics

/-! C87: deserialized models for spinless particles, and their agreement with the models of
`DalitzPlotDecompositionBuilder`. -/
namespace Verif.Serialization
open Verif Verif.ThreeBody Verif.Spec

variable {m : ModelDefinition} {tl : String → String} {add : Option (PyDict String PropagatorBuilder)}
  {D : Distribution} {rd : ChainDefinition → Reading} {cl : Bool} {a : AmplitudeModel} {ref : ℤ}
  {ι : Interp} {line : ChainDefinition → ℂ} {form : Vertex → ℂ}

theorem Spinless.nonneg (h : Spinless D) : NonnegativeSpins D := by
  intro d hd s hs
  rw [h d hd] at hs
  cases hs
  exact le_rfl

theorem Spinless.spin (hs : Spinless D) (hm : ReadsModel m D rd) (h : formulate m cl tl add = .ok a) :
    ∀ i ∈ ([0, 1, 2, 3] : List ℤ), a.decay.spin i = 0 := by
  obtain ⟨K, E, P, Θ, ref', ids, zetas, terms, hf⟩ := formulate_inv hm.head hm.kinematics h
  have hd := (toDecay_standard hm.head hm.kinematics hf.decay).1
  obtain ⟨D', rest', hD', hst⟩ := C53_states hf.decay
  obtain ⟨rest, hD⟩ := hm.head
  have e : D' = D := by
    rw [hD] at hD'
    exact (List.cons.inj hD').1.symm
  subst e
  intro i hi
  obtain ⟨-, x, hx, h2, -⟩ := hst i (a.decay.st i) (get_ok.1 (Standard.get hd hi))
  rw [hs x hx] at h2
  exact (Option.some.inj h2).symm

/-- The coupling of a vertex without helicities. -/
theorem vertexValue_zero {c : ChainDefinition} {r : Reading} (hr : Reads c r) (hz : r.Zero) :
    ∀ v ∈ c.vertices, vertexValue v r.lR (fun _ => 0) = scalarFactor v := by
  obtain ⟨p, q, ho, hp, hq, hqh⟩ := hr
  obtain ⟨z1, z2, z3, z4⟩ := hz
  have key : ∀ x : Option ℤ, recouplingValue x 0 0 0 0 = match x with | none => 1 | some f => 1 + (f : ℂ) := by
    intro x
    unfold recouplingValue
    cases x <;> simp
  have hv : ∀ v : Vertex, ∀ x y, v.node = [x, y] → v.helicities = some [some 0, some 0] →
      childHelicity 0 (fun _ => 0) x = 0 → childHelicity 0 (fun _ => 0) y = 0 →
      vertexValue v 0 (fun _ => 0) = scalarFactor v := by
    intro v x y h1 h2 h3 h4
    unfold vertexValue scalarFactor vertexParity
    simp only [h1, h2, h3, h4, key]
    split_ifs <;> rfl
  have hc : ∀ t : Tree, childHelicity 0 (fun _ => 0) t = 0 := by rintro (_ | _) <;> rfl
  have hboth : ∀ v, v = p ∨ v = q → vertexValue v r.lR (fun _ => 0) = scalarFactor v := by
    rw [z1]
    rintro v (rfl | rfl)
    · obtain ⟨x, y, ⟨h1, h2⟩ | ⟨h1, h2⟩⟩ := hp
      · exact hv _ _ _ h1 (by rw [h2, z1, z2]) (hc _) (hc _)
      · exact hv _ _ _ h1 (by rw [h2, z1, z2]) (hc _) (hc _)
    · exact hv _ _ _ hq (by rw [hqh, z3, z4]) (hc _) (hc _)
  intro v hv'
  rcases ho with ho | ho <;> rw [ho] at hv' <;> simp only [List.mem_cons, List.not_mem_nil, or_false] at hv'
  · exact hboth v hv'
  · exact hboth v hv'.symm

theorem byId_zero : byId (0 : Fin 4 → ℚ) = fun _ => 0 := by
  funext x
  unfold byId tup
  split_ifs <;> rfl

theorem serialValue_zero {c : ChainDefinition} {r : Reading} (hr : Reads c r) (hz : r.Zero) :
    serialValue ι tl line form (byId 0) c r = spinlessValue ι tl line form c r := by
  unfold serialValue spinlessValue
  rw [byId_zero, List.map_congr_left (vertexValue_zero hr hz), hz.1, hz.2.2.1, hz.2.2.2, sub_zero]

/-- C87: for spinless particles, the intensity of a deserialized model is the squared modulus of the sum over the
chains of weight, vertex factors, `d^J_{00}` of the angle between the decay products, lineshape and form factors.
There is no alignment and no summation, and the reference topology does not matter. -/
theorem C87_spinless (hm : ReadsModel m D rd) (hs : Spinless D) (hz : ∀ c ∈ D.chains, (rd c).Zero)
    (htop : ∀ c ∈ D.chains, IsSpectator c.topology (rd c).k)
    (href : IsSpectator D.referenceTopology ref) (href' : ref ∈ ([1, 2, 3] : List ℤ))
    (h : formulate m cl tl add = .ok a) (hv : DynamicsValues m D.chains tl add ι line form) (η : Sym → ℚ) :
    a.fullExpression.eval ι η =
      (‖(D.chains.map fun c => spinlessValue ι tl line form c (rd c)).sum‖ ^ 2 : ℝ) := by
  classical
  have h0 := hs.spin hm h
  rw [(C70_intensity_value hm hs.nonneg href href' h ι η).2]
  unfold intensityOver
  rw [projections_spin_zero h0, Finset.sum_singleton]
  unfold alignedOver
  rw [projections_spin_zero h0, Finset.sum_singleton]
  have hrot : ∀ k (i : Fin 4) x y, rotation ι a.decay ref k i x y = 1 := by
    intro k i x y
    unfold rotation
    rw [if_pos (h0 i (by fin_cases i <;> simp))]
  simp only [hrot, mul_one]
  refine congrArg _ (congrArg (‖·‖ ^ 2) ?_)
  have hmem : (0 : Fin 4 → ℚ) ∈ helicities a.decay := by
    rw [projections_spin_zero h0]
    exact Finset.mem_singleton_self _
  have hA : ∀ k, definedValue a ι η k 0 = ((D.chains.filter fun c => (rd c).k = k).map
      fun c => spinlessValue ι tl line form c (rd c)).sum := by
    intro k
    rw [C60_amplitude_value hm h hv η k hmem, sum_filter]
    congr 1
    apply List.map_congr_left
    intro c hc
    have : IsSpectator c.topology k ↔ (rd c).k = k :=
      ⟨fun hk => hk.2 _ (htop c hc).1, fun hk => hk ▸ htop c hc⟩
    rw [serialValue_zero (hm.reads c hc).1 (hz c hc)]
    simp only [this]
  simp only [hA]
  rw [sum_by_key (fun c => (rd c).k) (topologySubsystems D.chains)]
  intro c hc
  unfold topologySubsystems
  rw [Finset.mem_filter]
  refine ⟨?_, c, hc, htop c hc⟩
  have := (standard_mem (hm.reads c hc).2).2.2.1
  simpa using this

/-- The chains of the decay of a model, one for every chain definition if these differ in resonance or products. -/
theorem chains_perm (hm : ReadsModel m D rd) (h : formulate m cl tl add = .ok a)
    (hnd : (D.chains.map fun c => (c.name, (rd c).i, (rd c).j)).Nodup) :
    ∃ F : ChainDefinition → Chain, (D.chains.map F).Perm a.decay.chains ∧
      ∀ c ∈ D.chains, Describes c (rd c) (F c) ∧ (F c).resonance.toP.spin = chainSpin c ∧
        (F c).spectator.index = (rd c).k ∧ (F c).incomingLs = none ∧ (F c).outgoingLs = none ∧
        ∃ R, (F c).resonance = .particle R ∧ R.latex = R.name := by
  classical
  obtain ⟨K, E, P, Θ, ref', ids, zetas, terms, hf⟩ := formulate_inv hm.head hm.kinematics h
  obtain ⟨D', p0, ps, hs, hst, hex, hmem, hlt, -⟩ := toDecay_facts.1 hf.decay
  obtain ⟨rest, hD⟩ := hm.head
  obtain ⟨rest', hD'⟩ := hs.head
  have e : D' = D := by
    rw [hD] at hD'
    exact (List.cons.inj hD').1.symm
  subst e
  have : Nonempty Chain := ⟨chainOf p0 ⟨"", "", 0, none, 0, 0⟩ p0 p0 p0⟩
  choose! F hF using hex
  have hprop : ∀ c ∈ D'.chains, Describes c (rd c) (F c) ∧ (F c).resonance.toP.spin = chainSpin c ∧
        (F c).spectator.index = (rd c).k ∧ (F c).incomingLs = none ∧ (F c).outgoingLs = none ∧
        ∃ R, (F c).resonance = .particle R ∧ R.latex = R.name := by
    intro c hc
    obtain ⟨⟨p, q, ho, ⟨x, y, hp⟩, hq, -⟩, -⟩ := hm.reads c hc
    have htwo : TwoVertices c p q (rd c).i (rd c).j (rd c).k :=
      ⟨ho, ⟨x, y, hp.imp And.left And.left⟩, hq⟩
    obtain ⟨s, p1, p2, p3, ⟨pr, r, h1, h2⟩, -, h3, h4, h5, -, hch⟩ := (C52_decay_chain htwo _ _ _ _).1 (hF c hc)
    rw [hch]
    refine ⟨⟨rfl, (finalOf_mem h3).2, (finalOf_mem h4).2⟩, ?_, (finalOf_mem h5).2, rfl, rfl, _, rfl, rfl⟩
    unfold chainSpin
    rw [h1]
    simp only [h2]
    rfl
  refine ⟨F, ?_, hprop⟩
  have hnd1 : (D'.chains.map F).Nodup := by
    refine List.Nodup.of_map (fun ch => (ch.resonance.toP.name, ch.product1.index, ch.product2.index)) ?_
    rw [List.map_map]
    have : D'.chains.map ((fun ch : Chain => (ch.resonance.toP.name, ch.product1.index, ch.product2.index)) ∘ F) =
        D'.chains.map fun c => (c.name, (rd c).i, (rd c).j) := by
      apply List.map_congr_left
      intro c hc
      obtain ⟨⟨h1, h2, h3⟩, -⟩ := hprop c hc
      simp only [Function.comp, h1, h2, h3]
    rw [this]
    exact hnd
  have hnd2 : a.decay.chains.Nodup :=
    List.Nodup.of_map chainKey (hlt.imp fun h => ne_of_lt h)
  rw [List.perm_ext_iff_of_nodup hnd1 hnd2]
  intro ch
  rw [hmem ch, List.mem_map]
  constructor
  · rintro ⟨c, hc, rfl⟩
    exact ⟨c, hc, hF c hc⟩
  · rintro ⟨c, hc, h⟩
    refine ⟨c, hc, ?_⟩
    rw [hF c hc] at h
    exact Except.ok.inj h

theorem angle_of_even {i j k : ℤ} (h : EvenPerm i j k) :
    helicityAngle k = ⟨"theta_" ++ toString i ++ toString j, .real⟩ := by
  unfold EvenPerm at h
  simp only [Prod.mk.injEq] at h
  rcases h with ⟨rfl, rfl, rfl⟩ | ⟨rfl, rfl, rfl⟩ | ⟨rfl, rfl, rfl⟩ <;> decide +kernel

/-- C87: the two ways to a model agree for spinless particles. If a `DalitzPlotDecompositionBuilder` is given the decay
of a deserialized model and, chain by chain, lineshape times couplings of the one are weight, vertex factors, lineshape
and form factors of the other, the two intensities are the same, for whatever options of the builder. -/
theorem C87_front_ends (hm : ReadsModel m D rd) (hs : Spinless D) (hz : ∀ c ∈ D.chains, (rd c).Zero)
    (htop : ∀ c ∈ D.chains, IsSpectator c.topology (rd c).k)
    (href : IsSpectator D.referenceTopology ref) (href' : ref ∈ ([1, 2, 3] : List ℤ))
    (h : formulate m cl tl add = .ok a) (hv : DynamicsValues m D.chains tl add ι line form)
    (hnd : (D.chains.map fun c => (c.name, (rd c).i, (rd c).j)).Nodup)
    (heven : ∀ c ∈ D.chains, EvenPerm (rd c).i (rd c).j (rd c).k)
    (hspin : ∀ c ∈ D.chains, 0 ≤ chainSpin c ∧ IsInteger (chainSpin c))
    {b : Builder} (hb : b.decay = a.decay) {dyn : Chain → DefExpr} (hdyn : Lineshapes b dyn)
    {reference : Option ℤ} (hr : RefOk reference) {cl' uc : Bool} {m' : AmplitudeModel}
    (h' : b.formulate reference cl' uc = .ok m')
    (hfree : ∀ c ∈ b.decay.chains, HelicityFree (dyn c).expression) (η : Sym → ℚ)
    (hval : ∀ c ∈ D.chains, ∀ ch ∈ a.decay.chains, Describes c (rd c) ch →
      (dyn ch).expression.eval ι η * couplings ι b ch uc 0 0 0 0 =
        ι.sym (weightSymbol tl c (rd c)) * (c.vertices.map scalarFactor).prod *
          (line c * (c.vertices.map form).prod)) :
    m'.fullExpression.eval ι η = a.fullExpression.eval ι η := by
  classical
  obtain ⟨K, E, P, Θ, ref', ids, zetas, terms, hf⟩ := formulate_inv hm.head hm.kinematics h
  have hd : Standard b.decay := by
    rw [hb]
    exact (toDecay_standard hm.head hm.kinematics hf.decay).1
  obtain ⟨F, hp, hF⟩ := chains_perm hm h hnd
  have hback : ∀ ch ∈ a.decay.chains, ∃ c ∈ D.chains, F c = ch := by
    intro ch hch
    exact List.mem_map.1 (hp.mem_iff.2 hch)
  rw [C78_spinless hd hdyn hr h' hfree ?_ (by rw [hb]; exact hs.spin hm h) ι η,
    C87_spinless hm hs hz htop href href' h hv η]
  · refine congrArg _ (congrArg (‖·‖ ^ 2) ?_)
    rw [sum_filter, hb, ← (hp.map _).sum_eq, List.map_map]
    congr 1
    apply List.map_congr_left
    intro c hc
    obtain ⟨h1, h2, h3, h4, h5, -⟩ := hF c hc
    have hq := hval c hc (F c) (hp.mem_iff.1 (List.mem_map.2 ⟨c, hc, rfl⟩)) h1
    have e1 : decayFactor ι b (F c) (fun _ => 0) = 1 := by
      unfold decayFactor
      rw [h5]
      cases b.useDecHel <;> rfl
    have e2 : productionFactor ι b (F c) 0 0 = 1 := by
      unfold productionFactor
      rw [h4]
      cases b.useProdHel <;> rfl
    simp only [Function.comp]
    rw [h2, if_pos (hspin c hc), e1, e2, h3, angle_of_even (heven c hc)]
    unfold spinlessValue
    linear_combination ι.wig (chainSpin c) 0 0
      (ι.sym ⟨"theta_" ++ toString (rd c).i ++ toString (rd c).j, .real⟩) * hq
  · intro _ ch hch
    rw [hb] at hch
    obtain ⟨c, hc, rfl⟩ := hback ch hch
    obtain ⟨-, -, -, -, -, R, hR, -⟩ := hF c hc
    rw [hR]
    rintro ⟨⟩

/-! An example: `D → π π K` with a `K*`, whose decay vertex is a parity vertex, and a `ρ`. -/

def scKinematics : Kinematics where
  initialState := ⟨0, "D", some 0, 2⟩
  finalState := [⟨1, "pi", some 0, 1 / 7⟩, ⟨2, "pi", some 0, 1 / 7⟩, ⟨3, "K", some 0, 1 / 2⟩]

def scKstar : ChainDefinition where
  name := "K892"
  propagators := [⟨some 1, [.id 2, .id 3], "flat"⟩]
  vertices := [
    { type := "helicity", node := [.seq [.id 2, .id 3], .id 1], helicities := some [some 0, some 0] },
    { type := "parity", node := [.id 2, .id 3], helicities := some [some 0, some 0], parityFactor := some "+" }]
  topology := [.seq [.id 2, .id 3], .id 1]
  weight := some (1, 0)

def scRho : ChainDefinition where
  name := "rho"
  propagators := [⟨some 1, [.id 1, .id 2], "flat"⟩]
  vertices := [
    { type := "helicity", node := [.id 3, .seq [.id 1, .id 2]], helicities := some [some 0, some 0] },
    { type := "helicity", node := [.id 1, .id 2], helicities := some [some 0, some 0] }]
  topology := [.seq [.id 1, .id 2], .id 3]
  weight := some (1, 1)

def scDistribution : Distribution := ⟨scKinematics, [.id 1, .seq [.id 2, .id 3]], [scKstar, scRho]⟩

def scModel : ModelDefinition := ⟨[scDistribution], [⟨"flat", "Flat", [], none⟩]⟩

def scAdditional : Option (PyDict String PropagatorBuilder) := some [("Flat", fun _ _ _ => .ok {})]

def scReading (c : ChainDefinition) : Reading :=
  if c.name = "K892" then ⟨2, 3, 1, 0, 0, 0, 0⟩ else ⟨1, 2, 3, 0, 0, 0, 0⟩

theorem scModel_reads : ReadsModel scModel scDistribution scReading where
  head := ⟨[], rfl⟩
  kinematics := {
    initial := rfl
    final := by decide
    spins := by
      intro d hd
      simp only [scDistribution, scKinematics, List.mem_cons, List.not_mem_nil, or_false] at hd
      rcases hd with rfl | rfl | rfl | rfl <;> exact ⟨_, rfl, half_zero⟩ }
  reads := by
    intro c hc
    simp only [scDistribution, List.mem_cons, List.not_mem_nil, or_false] at hc
    rcases hc with rfl | rfl
    · exact ⟨⟨_, _, .inl rfl, ⟨_, _, .inl ⟨rfl, rfl⟩⟩, rfl, rfl⟩, show [(2 : ℤ), 3, 1].Perm [1, 2, 3] by decide⟩
    · exact ⟨⟨_, _, .inl rfl, ⟨_, _, .inr ⟨rfl, rfl⟩⟩, rfl, rfl⟩, show [(1 : ℤ), 2, 3].Perm [1, 2, 3] by decide⟩

theorem scModel_spinless : Spinless scDistribution := by
  intro d hd
  simp only [scDistribution, scKinematics, List.mem_cons, List.not_mem_nil, or_false] at hd
  rcases hd with rfl | rfl | rfl | rfl <;> rfl

theorem scModel_zero : ∀ c ∈ scDistribution.chains, (scReading c).Zero := by
  intro c hc
  simp only [scDistribution, List.mem_cons, List.not_mem_nil, or_false] at hc
  rcases hc with rfl | rfl <;> exact ⟨rfl, rfl, rfl, rfl⟩

theorem scModel_topology : ∀ c ∈ scDistribution.chains, IsSpectator c.topology (scReading c).k := by
  intro c hc
  simp only [scDistribution, List.mem_cons, List.not_mem_nil, or_false] at hc
  rcases hc with rfl | rfl
  · exact (⟨by simp [scKstar], by simp [scKstar]⟩ : IsSpectator scKstar.topology 1)
  · exact (⟨by simp [scRho], by simp [scRho]⟩ : IsSpectator scRho.topology 3)

theorem scModel_reference : IsSpectator scDistribution.referenceTopology 1 :=
  ⟨by simp [scDistribution], by simp [scDistribution]⟩

theorem scModel_ok (tl : String → String) (cl : Bool) : ∃ a, formulate scModel cl tl scAdditional = .ok a := by
  refine C60_returns scModel_reads (ref := 1) scModel_reference (by simp) ?_ cl
  intro c hc
  simp only [scDistribution, List.mem_cons, List.not_mem_nil, or_false] at hc
  rcases hc with rfl | rfl
  · refine ⟨?_, rfl, ⟨1, ⟨_, _, rfl, rfl⟩, 2, by norm_num⟩, ⟨1, by simp, scModel_topology scKstar (by simp [scDistribution])⟩,
      ⟨_, rfl⟩, ?_⟩
    · intro v hv
      simp only [scKstar, List.mem_cons, List.not_mem_nil, or_false] at hv
      rcases hv with rfl | rfl
      · exact .inl rfl
      · refine .inr ⟨rfl, fun s hs => ?_⟩
        cases hs
        exact .inl (exSign rfl)
    · intro v hv
      simp only [scKstar, List.mem_cons, List.not_mem_nil, or_false] at hv
      rcases hv with rfl | rfl <;> exact ⟨_, rfl⟩
  · refine ⟨?_, rfl, ⟨1, ⟨_, _, rfl, rfl⟩, 2, by norm_num⟩, ⟨3, by simp, scModel_topology scRho (by simp [scDistribution])⟩,
      ⟨_, rfl⟩, ?_⟩
    · intro v hv
      simp only [scRho, List.mem_cons, List.not_mem_nil, or_false] at hv
      rcases hv with rfl | rfl <;> exact .inl rfl
    · intro v hv
      simp only [scRho, List.mem_cons, List.not_mem_nil, or_false] at hv
      rcases hv with rfl | rfl <;> exact ⟨_, rfl⟩

/-- Values for the example: all parameters are 1, the coefficient of the `K*` is 2, and `d^J_{00}` is 1. -/
def scInterp : Interp :=
  { exInterp (fun _ _ _ _ => 1) with idx := fun n _ _ => if n = coefficientName "K892" true true then 2 else 1 }

theorem scModel_values : DynamicsValues scModel scDistribution.chains id scAdditional scInterp (fun _ => 1)
    (fun _ => 1) where
  line := by
    intro c hc d hd η
    simp only [scDistribution, List.mem_cons, List.not_mem_nil, or_false] at hc
    have : d = ⟨1 * .num 1, []⟩ := by
      rcases hc with rfl | rfl <;> exact (Except.ok.inj hd).symm
    rw [this]
    show ((1 : ℚ) : ℂ) * ((1 : ℚ) : ℂ) = 1
    norm_num
  form := by
    intro c hc v hv d hd η
    simp only [scDistribution, List.mem_cons, List.not_mem_nil, or_false] at hc
    have : d = {} := by
      rcases hc with rfl | rfl <;> simp only [scKstar, scRho, List.mem_cons, List.not_mem_nil, or_false] at hv <;>
        rcases hv with rfl | rfl <;> exact (Except.ok.inj hd).symm
    rw [this]
    show ((1 : ℚ) : ℂ) = 1
    norm_num

theorem scFactor_K : (scKstar.vertices.map scalarFactor).prod = 2 := by
  have hp : Surrounded "+" ['+'] := exSign rfl
  have hn : ¬ Surrounded "+" ['-'] := by
    rintro ⟨x, y, h, -, -⟩
    have : '-' ∈ "+".toList := by rw [h]; simp
    simp at this
  simp only [scKstar, scalarFactor, parityValue, List.map_cons, List.map_nil, List.prod_cons, List.prod_nil]
  simp [hp, hn]
  norm_num

theorem scFactor_rho : (scRho.vertices.map scalarFactor).prod = 1 := by
  simp [scRho, scalarFactor]

/-- Both models exist, and both intensities are `|2 + 1|² = 9`. -/
example : ∃ a m', formulate scModel true id scAdditional = .ok a ∧
    (Builder.mk a.decay (Configurator.init a.decay) true true false).formulate (some 2) false true = .ok m' ∧
    m'.fullExpression.eval scInterp (fun _ => 0) = a.fullExpression.eval scInterp (fun _ => 0) ∧
    a.fullExpression.eval scInterp (fun _ => 0) = 9 := by
  obtain ⟨a, ha⟩ := scModel_ok id true
  have hnd : (scDistribution.chains.map fun c => (c.name, (scReading c).i, (scReading c).j)).Nodup := by
    decide +kernel
  obtain ⟨F, hp, hF⟩ := chains_perm scModel_reads ha hnd
  obtain ⟨K, E, P, Θ, ref', ids, zetas, terms, hf⟩ := formulate_inv scModel_reads.head scModel_reads.kinematics ha
  have hd := (toDecay_standard scModel_reads.head scModel_reads.kinematics hf.decay).1
  have hdyn : Lineshapes (Builder.mk a.decay (Configurator.init a.decay) true true false) (fun _ => {}) := by
    refine lineshapes_by_name (history := []) rfl fun c _ c' _ => ⟨?_, fun _ => rfl⟩
    rintro g ⟨x, i, y, h, -⟩
    cases x <;> cases h
  obtain ⟨Q, hm', -⟩ := formulate_ok (b := Builder.mk a.decay (Configurator.init a.decay) true true false)
    (reference := some 2) (ref := 2) hd hdyn rfl (by simp) false true (by
      rw [missing_iff (b := Builder.mk a.decay (Configurator.init a.decay) true true false) hd]
      rintro ⟨-, c, hc, h⟩
      exact h ⟨by simp, by simp⟩)
  refine ⟨a, _, ha, hm', ?_, ?_⟩
  · refine C87_front_ends scModel_reads scModel_spinless scModel_zero scModel_topology scModel_reference (by simp) ha
      scModel_values hnd ?_ ?_ (b := Builder.mk a.decay (Configurator.init a.decay) true true false) rfl hdyn
      (by rintro x ⟨⟩; simp) hm' (fun _ _ _ _ _ => rfl) _ ?_
    · intro c hc
      simp only [scDistribution, List.mem_cons, List.not_mem_nil, or_false] at hc
      rcases hc with rfl | rfl
      · show EvenPerm 2 3 1
        unfold EvenPerm; decide
      · show EvenPerm 1 2 3
        unfold EvenPerm; decide
    · intro c hc
      simp only [scDistribution, List.mem_cons, List.not_mem_nil, or_false] at hc
      rcases hc with rfl | rfl <;> exact ⟨by norm_num [chainSpin, scKstar, scRho], 1, by norm_num [chainSpin, scKstar, scRho]⟩
    · intro c hc ch hch hdes
      have hlat : ch.resonance.toP.latex = ch.resonance.toP.name := by
        obtain ⟨c', hc', rfl⟩ := List.mem_map.1 (hp.mem_iff.2 hch)
        obtain ⟨-, -, -, -, -, R, hR, hl⟩ := hF c' hc'
        rw [hR]
        exact hl
      simp only [scDistribution, List.mem_cons, List.not_mem_nil, or_false] at hc
      simp only [couplings, if_true, hlat, hdes.1]
      rcases hc with rfl | rfl
      · rw [scFactor_K]
        simp [scInterp, exInterp, scKstar, Expr.eval]
      · rw [scFactor_rho]
        have : coefficientName scRho.name true true ≠ coefficientName "K892" true true := by decide +kernel
        simp [scInterp, exInterp, this, Expr.eval]
  · rw [C87_spinless scModel_reads scModel_spinless scModel_zero scModel_topology scModel_reference (by simp) ha
      scModel_values]
    simp only [scDistribution, List.map_cons, List.map_nil, spinlessValue, scFactor_K, scFactor_rho]
    simp [scInterp, exInterp]
    norm_num

end Verif.Serialization
