import Verif.Proofs.Parity
import Verif.Proofs.WignerReflect

/-! C93: models that conserve parity. -/
namespace Verif.ThreeBody
open Verif Verif.Spec Verif.Spin Verif.Angles

variable {b : Builder} {dyn : Chain → DefExpr} {reference : Option ℤ} {cl uc : Bool}
  {m : AmplitudeModel} {ι : Interp} {P : ℤ → ℤ}

/-- C93: if the couplings conserve parity, the subsystem amplitudes with all helicities reversed
are the same up to a sign, which is the same for all subsystems. -/
theorem C93_amplitudes (hd : Standard b.decay) (hdyn : Lineshapes b dyn) (hr : RefOk reference)
    (h : b.formulate reference cl uc = .ok m) (hfree : ∀ c ∈ b.decay.chains, HelicityFree (dyn c).expression)
    (hres : ∀ c ∈ b.decay.chains, c.resonance ≠ .state c.spectator)
    (hP : ∀ c ∈ b.decay.chains, ConservesParity ι b uc P c)
    (hcg : UsesClebschGordan ι) (hw : ReflectsWigner ι) (η : Sym → ℚ) {k : ℤ} (hk : k ∈ subsystems b.decay)
    {l : Fin 4 → ℚ} (hl : l ∈ helicities b.decay) :
    definedValue m ι η k (-l) = paritySign b.decay P l * definedValue m ι η k l ∧ ‖paritySign b.decay P l‖ = 1 := by
  constructor
  · rw [definedValue_eq hd hdyn hr h hfree (fun _ => hres) ι η hk hl,
      definedValue_eq hd hdyn hr h hfree (fun _ => hres) ι η hk ((neg_mem_helicities hd).2 hl),
      subsystemValue_reflect hd hcg hw hP _ k hl]
  · rw [mem_subsystems] at hk
    obtain ⟨c, hc, -⟩ := ((C18_partition hd.valid).1 k).1 hk
    exact norm_paritySign hd hc (hP c hc) l

/-- C93: then each contribution to the intensity is the same for the reversed helicities. -/
theorem C93_reversed_helicities (hd : Standard b.decay) (hdyn : Lineshapes b dyn) (hr : RefOk reference)
    (h : b.formulate reference cl uc = .ok m) (hfree : ∀ c ∈ b.decay.chains, HelicityFree (dyn c).expression)
    (hres : ∀ c ∈ b.decay.chains, c.resonance ≠ .state c.spectator)
    (hP : ∀ c ∈ b.decay.chains, ConservesParity ι b uc P c)
    (hcg : UsesClebschGordan ι) (hw : ReflectsWigner ι) (η : Sym → ℚ) (ref : ℤ)
    {l : Fin 4 → ℚ} (hl : l ∈ helicities b.decay) :
    ‖aligned ι b.decay ref (definedValue m ι η) (-l)‖ = ‖aligned ι b.decay ref (definedValue m ι η) l‖ := by
  rw [aligned_reflect hd hw ref (fun k hk l hl =>
    (C93_amplitudes hd hdyn hr h hfree hres hP hcg hw η hk hl).1) hl, norm_mul]
  rcases Finset.eq_empty_or_nonempty (subsystems b.decay) with he | ⟨k, hk⟩
  · unfold aligned
    simp [he]
  · rw [(C93_amplitudes hd hdyn hr h hfree hres hP hcg hw η hk hl).2, one_mul]

/-- C93: the unpolarised intensity is the sum over the helicity of the decaying particle, and opposite helicities
contribute the same. -/
theorem C93_polarisation (hd : Standard b.decay) (hdyn : Lineshapes b dyn) (hr : RefOk reference)
    (h : b.formulate reference cl uc = .ok m) (hfree : ∀ c ∈ b.decay.chains, HelicityFree (dyn c).expression)
    (hres : ∀ c ∈ b.decay.chains, c.resonance ≠ .state c.spectator)
    (hP : ∀ c ∈ b.decay.chains, ConservesParity ι b uc P c)
    (hcg : UsesClebschGordan ι) (hw : ReflectsWigner ι) (η : Sym → ℚ) :
    ∃ ref, UsedRef b reference ref ∧
      m.fullExpression.eval ι η =
        ((∑ M ∈ projections (b.decay.spin 0), polarised ι b.decay ref (definedValue m ι η) M : ℝ) : ℂ) ∧
      ∀ M, polarised ι b.decay ref (definedValue m ι η) (-M) = polarised ι b.decay ref (definedValue m ι η) M := by
  obtain ⟨ref, PP, hu, -, -, rfl, -⟩ := formulate_inv hd hdyn hr h
  refine ⟨ref, hu, ?_, fun M => ?_⟩
  · rw [eval_full ι η hd dyn ref cl uc PP]
    congr 1
    unfold intensity polarised
    rw [Finset.sum_fiberwise_of_maps_to]
    intro l hl
    unfold helicities at hl
    rw [Fintype.mem_piFinset] at hl
    exact hl 0
  · unfold polarised
    refine Finset.sum_equiv (Equiv.neg _) (fun x => ?_) (fun x hx => ?_)
    · rw [Finset.mem_filter, Finset.mem_filter, Equiv.neg_apply, neg_mem_helicities hd, Pi.neg_apply, neg_eq_iff_eq_neg]
    · rw [Equiv.neg_apply, C93_reversed_helicities hd hdyn hr h hfree hres hP hcg hw η ref
        (Finset.mem_filter.1 hx).1]

/-- C93: LS couplings conserve parity if `P = P₁ P₂ (-1)^L` at both vertices, whatever their values. -/
theorem C93_ls (hp : b.useProdHel = false) (hq : b.useDecHel = false) {c : Chain} {r : ℤ} (h : HasParities P r c)
    {a a' : LS} (ha : c.incomingLs = some a) (ha' : c.outgoingLs = some a')
    (v : VertexParity (P c.parent.index) r (P c.spectator.index) a.L)
    (v' : VertexParity r (P c.product1.index) (P c.product2.index) a'.L) (ι : Interp) (uc : Bool) :
    ConservesParity ι b uc P c := by
  refine ⟨r, h, fun _ => ⟨a, ha, v⟩, fun _ => ⟨a', ha', v'⟩, fun h => ?_, fun lR lk li lj => ?_⟩
  · rw [hq] at h; cases h
  · unfold couplings
    rw [hp, hq, ha, ha']
    simp [couplingIndices]

open Classical in
/-- C93: the actual Wigner d-functions have the required symmetry. -/
theorem C93_wigner (hι : ∀ j m m' z, ι.wig j m m' z =
    if Projection j m' then (Wigner.wignerD j m m' z.re : ℂ) else 0) : ReflectsWigner ι := by
  intro j hj x hx y hy z
  rw [hι, hι]
  by_cases hp : Projection j y
  swap
  · rw [if_neg hp, if_neg fun h => hp ((projection_neg hj).1 h), mul_zero]
  obtain ⟨-, -, a, ha⟩ := (mem_projections hj x).1 hx
  obtain ⟨b, hb⟩ := hp.2.2
  have e : x - y = ((b - a : ℤ) : ℚ) := by push_cast; linarith
  rw [if_pos hp, if_pos ((projection_neg hj).2 hp), Wigner.wignerD_reflect hj hx ((mem_projections hj y).2 hp) e, e,
    minusOnePow_int]
  push_cast
  rfl

/-! Example: J/ψ → p p̄ π⁰ with an N*(1440) and its antiparticle. -/

def paJpsi : State := ⟨⟨"J/psi", "J/\\psi", 1, some (-1), 3, 0⟩, 0⟩
def paP : State := ⟨⟨"p", "p", 1 / 2, some 1, 1, 0⟩, 1⟩
def paPbar : State := ⟨⟨"p~", "\\bar{p}", 1 / 2, some (-1), 1, 0⟩, 2⟩
def paPi : State := ⟨⟨"pi0", "\\pi^0", 0, some (-1), 1 / 7, 0⟩, 3⟩
def paN : Particle := ⟨"N(1440)+", "N(1440)^+", 1 / 2, some 1, 1.44, 0.35⟩
def paNbar : Particle := ⟨"N(1440)~-", "\\bar{N}(1440)^-", 1 / 2, some (-1), 1.44, 0.35⟩

def paNodeN : Node :=
  .isobar (.state paJpsi) (.isobar (.particle paN) (.leaf (.state paPi)) (.leaf (.state paP)) (some ⟨1, 1 / 2⟩))
    (.leaf (.state paPbar)) (some ⟨0, 1⟩)

def paNodeNbar : Node :=
  .isobar (.state paJpsi) (.leaf (.state paP))
    (.isobar (.particle paNbar) (.leaf (.state paPbar)) (.leaf (.state paPi)) (some ⟨1, 1 / 2⟩)) (some ⟨2, 1⟩)

def paChainN : Chain := ⟨paNodeN, paJpsi, .particle paN, paPi, paP, paPbar, some ⟨0, 1⟩, some ⟨1, 1 / 2⟩⟩
def paChainNbar : Chain := ⟨paNodeNbar, paJpsi, .particle paNbar, paPbar, paPi, paP, some ⟨2, 1⟩, some ⟨1, 1 / 2⟩⟩

def paDecay : Decay := ⟨[(0, paJpsi), (1, paP), (2, paPbar), (3, paPi)], [paChainN, paChainNbar]⟩

theorem paDecay_standard : Standard paDecay := by
  refine ⟨⟨?_, ?_⟩, by decide, ?_, ?_, ?_⟩
  · have hf : (finalStateDict paDecay.states).map Prod.snd = [paP, paPbar, paPi] := rfl
    have : checkChains paJpsi ((finalStateDict paDecay.states).map Prod.snd) paDecay.chains = .ok () := by
      rw [checkChains_ok, hf]
      intro c hc
      simp only [paDecay, List.mem_cons, List.not_mem_nil, or_false] at hc
      rcases hc with rfl | rfl
      · refine ⟨rfl, fun s => ?_⟩
        simp only [paChainN, List.mem_cons, List.not_mem_nil, or_false]
        tauto
      · refine ⟨rfl, fun s => ?_⟩
        simp only [paChainNbar, List.mem_cons, List.not_mem_nil, or_false]
    have h0 : initialState paDecay.states = .ok paJpsi := rfl
    unfold Decay.new
    rw [h0]
    simp only [bind, Except.bind]
    rw [this]; rfl
  · intro c hc
    simp only [paDecay, List.mem_cons, List.not_mem_nil, or_false] at hc
    rcases hc with rfl | rfl
    · exact (chainNew_shape _ _ _ _ _ _ _ paNodeN (.inl rfl)).trans rfl
    · exact (chainNew_shape _ _ _ _ _ _ _ paNodeNbar (.inr rfl)).trans rfl
  · intro x hx
    simp only [paDecay, List.mem_cons, List.not_mem_nil, or_false] at hx
    rcases hx with rfl | rfl | rfl | rfl <;> rfl
  · intro x hx
    simp only [paDecay, List.mem_cons, List.not_mem_nil, or_false] at hx
    rcases hx with rfl | rfl | rfl | rfl
    · exact ⟨2, by norm_num [paJpsi]⟩
    · exact ⟨1, by norm_num [paP]⟩
    · exact ⟨1, by norm_num [paPbar]⟩
    · exact ⟨0, by norm_num [paPi]⟩
  · intro c hc
    simp only [paDecay, List.mem_cons, List.not_mem_nil, or_false] at hc
    rcases hc with rfl | rfl <;> exact ⟨1, by norm_num [paChainN, paChainNbar, paN, paNbar, Obj.toP]⟩

def paBuilder : Builder := ⟨paDecay, Configurator.init paDecay, false, false, false⟩

theorem paBuilder_lineshapes : Lineshapes paBuilder (fun _ => {}) := by
  intro c hc
  simp only [paBuilder, paDecay, List.mem_cons, List.not_mem_nil, or_false] at hc
  rcases hc with rfl | rfl <;> exact ⟨unitDynamics, rfl, rfl⟩

theorem paBuilder_ok : ∃ m, paBuilder.formulate none true false = .ok m := by
  have := C36_missing_ls (b := paBuilder) (reference := none) paDecay_standard
    paBuilder_lineshapes (by rintro x ⟨⟩) (fun _ => by simp [paBuilder, paDecay]) true false
  apply this.2
  rw [Ne, this.1]
  rintro ⟨-, c, hc, h⟩
  simp only [paBuilder, paDecay, List.mem_cons, List.not_mem_nil, or_false] at hc
  rcases hc with rfl | rfl <;>
    exact h ⟨fun _ => by simp [paChainN, paChainNbar], fun _ => by simp [paChainN, paChainNbar]⟩

/-- The parities of the states. -/
def paP' (i : ℤ) : ℤ := if i = 1 then 1 else -1

theorem paParities : HasParities paP' 1 paChainN ∧ HasParities paP' (-1) paChainNbar := by
  refine ⟨⟨by decide, rfl, ?_⟩, ⟨by decide, rfl, ?_⟩⟩
  · intro s hs
    simp only [paChainN, List.mem_cons, List.not_mem_nil, or_false] at hs
    rcases hs with rfl | rfl | rfl | rfl <;> exact ⟨rfl, by decide⟩
  · intro s hs
    simp only [paChainNbar, List.mem_cons, List.not_mem_nil, or_false] at hs
    rcases hs with rfl | rfl | rfl | rfl <;> exact ⟨rfl, by decide⟩

theorem paParity (ι : Interp) (uc : Bool) : ∀ c ∈ paDecay.chains, ConservesParity ι paBuilder uc paP' c := by
  intro c hc
  simp only [paDecay, List.mem_cons, List.not_mem_nil, or_false] at hc
  rcases hc with rfl | rfl
  · exact C93_ls rfl rfl paParities.1 rfl rfl (by unfold VertexParity; decide) (by unfold VertexParity; decide) _ _
  · exact C93_ls rfl rfl paParities.2 rfl rfl (by unfold VertexParity; decide) (by unfold VertexParity; decide) _ _

theorem paResonances : ∀ c ∈ paDecay.chains, c.resonance ≠ .state c.spectator := by
  intro c hc
  simp only [paDecay, List.mem_cons, List.not_mem_nil, or_false] at hc
  rcases hc with rfl | rfl <;> simp [paChainN, paChainNbar]

/-- The J/ψ helicities 1 and -1 contribute the same, for all couplings, masses and angles. -/
example (ι : Interp) (hw : ReflectsWigner ι) (hcg : UsesClebschGordan ι) :
    ∃ m ref, paBuilder.formulate none true false = .ok m ∧
    polarised ι paDecay ref (definedValue m ι fun _ => 0) (-1) =
      polarised ι paDecay ref (definedValue m ι fun _ => 0) 1 := by
  obtain ⟨m, hm⟩ := paBuilder_ok
  obtain ⟨ref, -, -, h⟩ := C93_polarisation (b := paBuilder) (P := paP') paDecay_standard paBuilder_lineshapes
    (by rintro x ⟨⟩) hm (fun _ _ => exFree) paResonances (paParity ι false) hcg hw (fun _ => 0)
  exact ⟨m, ref, hm, h 1⟩

/-- The same decay with helicity couplings. The production couplings are even, the decay couplings are odd. -/
def paHelicity : Builder := ⟨paDecay, Configurator.init paDecay, true, true, false⟩

example (ι : Interp)
    (hι : ι.idx = fun base _ ix => if base = couplingName true "production" then 1 else (ix.sum : ℂ)) :
    ∀ c ∈ paDecay.chains, ConservesParity ι paHelicity false paP' c := by
  have hne : couplingName true "decay" ≠ couplingName true "production" := by decide
  intro c hc
  simp only [paDecay, List.mem_cons, List.not_mem_nil, or_false] at hc
  rcases hc with rfl | rfl
  · refine ⟨1, paParities.1, fun h => (nomatch h), fun h => (nomatch h), fun _ => ⟨0, ?_⟩, fun lR lk li lj => ?_⟩
    · norm_num [paChainN, paN, paPi, paP, Obj.toP]
    · have e1 : vertexSign (paP' paChainN.parent.index) 1 (paP' paChainN.spectator.index) paChainN.parent.spin
          paChainN.resonance.toP.spin paChainN.spectator.spin = 1 := by
        norm_num [vertexSign, paP', paChainN, paN, paPbar, paJpsi, Obj.toP, minusOnePow]
      have e2 : vertexSign 1 (paP' paChainN.product1.index) (paP' paChainN.product2.index)
          paChainN.resonance.toP.spin paChainN.product1.spin paChainN.product2.spin = -1 := by
        norm_num [vertexSign, paP', paChainN, paN, paP, paPi, Obj.toP, minusOnePow]
      rw [e1, e2]
      simp only [couplings, couplingIndices, paHelicity, hι, hne]
      simp
      ring
  · refine ⟨-1, paParities.2, fun h => (nomatch h), fun h => (nomatch h), fun _ => ⟨0, ?_⟩, fun lR lk li lj => ?_⟩
    · norm_num [paChainNbar, paNbar, paPi, paPbar, Obj.toP]
    · have e1 : vertexSign (paP' paChainNbar.parent.index) (-1) (paP' paChainNbar.spectator.index)
          paChainNbar.parent.spin paChainNbar.resonance.toP.spin paChainNbar.spectator.spin = 1 := by
        norm_num [vertexSign, paP', paChainNbar, paNbar, paP, paJpsi, Obj.toP, minusOnePow]
      have e2 : vertexSign (-1) (paP' paChainNbar.product1.index) (paP' paChainNbar.product2.index)
          paChainNbar.resonance.toP.spin paChainNbar.product1.spin paChainNbar.product2.spin = -1 := by
        norm_num [vertexSign, paP', paChainNbar, paNbar, paPbar, paPi, Obj.toP, minusOnePow]
      rw [e1, e2]
      simp only [couplings, couplingIndices, paHelicity, hι, hne]
      simp
      ring

open Classical in
/-- Every interpretation can be given the actual Clebsch-Gordan coefficients and Wigner functions. -/
example (ι : Interp) : ∃ ι' : Interp, ι'.sym = ι.sym ∧ ι'.idx = ι.idx ∧ UsesClebschGordan ι' ∧ ReflectsWigner ι' :=
  ⟨{ ι with
      cg := fun a b c d e f => (clebschGordan a b c d e f : ℂ)
      wig := fun j m m' z => if Projection j m' then (Wigner.wignerD j m m' z.re : ℂ) else 0 },
    rfl, rfl, fun _ _ _ _ _ _ => rfl, C93_wigner fun _ _ _ _ => rfl⟩

/-- `⟨1/2 1/2; 1/2 -1/2 | 1 0⟩ = 1/√2`. -/
example : clebschGordan (1 / 2) (1 / 2) (1 / 2) (-1 / 2) 1 0 = √(1 / 2) := by
  have f0 : fac 0 = 1 := by decide
  have f1 : fac 1 = 1 := by decide
  have f3 : fac 3 = 6 := by decide
  unfold clebschGordan
  rw [if_pos]
  · norm_num [f0, f1, f3]
  · refine ⟨⟨⟨1, by norm_num⟩, ⟨1, by norm_num⟩, ⟨2, by norm_num⟩⟩, ?_, by norm_num, ?_⟩
    · refine ⟨⟨by norm_num, by norm_num, 0, by norm_num⟩, ⟨by norm_num, by norm_num, 1, by norm_num⟩,
        ⟨by norm_num, by norm_num, 1, by norm_num⟩⟩
    · exact ⟨by norm_num, by norm_num, 0, by norm_num⟩

end Verif.ThreeBody
