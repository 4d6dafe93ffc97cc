import Verif.Props.QuantumNumbers
import Verif.Props.RegisteredDynamics

/-! Property C128: which parameters of a model are redundant. -/
namespace Verif.ThreeBody
open Verif Verif.Spec

variable {b b' : Builder} {dyn dyn' : Chain → DefExpr} {cl cl' uc uc' : Bool} {m m' : AmplitudeModel} {ι ι' : Interp} {r : ℤ}

theorem chainValue_product {L L' : Chain → ℂ} {ε : ℂ} (ha : SameAngles ι ι') (hb : b'.decay = b.decay)
    (hp : b'.useProdHel = b.useProdHel) (hq : b'.useDecHel = b.useDecHel) {c : Chain}
    (h : ∀ lR lk li lj, L' c * couplings ι' b' c uc' lR lk li lj = ε * (L c * couplings ι b c uc lR lk li lj))
    (i j k : ℤ) (l : ℤ → ℚ) : chainValue ι' b' uc' L' i j k l c = ε * chainValue ι b uc L i j k l c := by
  have hd : decayFactor ι' b' c l = decayFactor ι b c l := by
    unfold decayFactor lsFactor
    rw [hq, ha.cg]
  have hpr : ∀ x y, productionFactor ι' b' c x y = productionFactor ι b c x y := by
    intro x y
    unfold productionFactor lsFactor
    rw [hp, ha.cg]
  unfold chainValue
  split
  · rw [hb, ha.wig, ha.theta, hd, hpr]
    linear_combination (minusOnePow (b.decay.spin k - l k) * minusOnePow (b.decay.spin j - l j) *
      ι.wig c.resonance.toP.spin (l 0 + l k) (l i - l j) (ι.sym ⟨"theta_" ++ toString i ++ toString j, .real⟩) *
      decayFactor ι b c l * productionFactor ι b c (l 0 + l k) (l k)) * h (l 0 + l k) (l k) (l i) (l j)
  · rw [mul_zero]

/-- C128: the couplings and the lineshapes only enter as the product of lineshape and couplings of each chain, up to a
common phase. The two models may have different lineshapes and one may have coefficients. -/
theorem C128_products (hd : Standard b.decay) (hdyn : Lineshapes b dyn) (hdyn' : Lineshapes b' dyn')
    (hb : b'.decay = b.decay) (hp : b'.useProdHel = b.useProdHel) (hq : b'.useDecHel = b.useDecHel)
    (hfree : ∀ c ∈ b.decay.chains, HelicityFree (dyn c).expression)
    (hfree' : ∀ c ∈ b.decay.chains, HelicityFree (dyn' c).expression)
    (hres : b.useProdHel = false → ∀ c ∈ b.decay.chains, c.resonance ≠ .state c.spectator)
    (hr : r = 1 ∨ r = 2 ∨ r = 3) (h : b.formulate (some r) cl uc = .ok m) (h' : b'.formulate (some r) cl' uc' = .ok m')
    (ha : SameAngles ι ι') {η : Sym → ℚ} {ε : ℂ} (hε : ‖ε‖ = 1)
    (hprod : ∀ c ∈ b.decay.chains, ∀ lR lk li lj,
      (dyn' c).expression.eval ι' η * couplings ι' b' c uc' lR lk li lj =
        ε * ((dyn c).expression.eval ι η * couplings ι b c uc lR lk li lj)) :
    m'.fullExpression.eval ι' η = m.fullExpression.eval ι η := by
  have hro : RefOk (some r) := fun _ e => Option.some.inj e ▸ hr
  obtain ⟨ref, hu, hv⟩ := full_value hd hdyn hro h hfree hres η
  obtain ⟨ref', hu', hv'⟩ := full_value (hb ▸ hd) hdyn' hro h' (by rwa [hb]) (by rwa [hb, hp]) η
  have e1 : r = ref := hu
  have e2 : r = ref' := hu'
  rw [hv, hv', ← e1, ← e2, intensity_same (d := b.decay) (A := fun k l => ε *
    subsystemValue ι b uc (fun c => (dyn c).expression.eval ι η) k l) ha (fun i => by rw [hb]) (by rw [hb]) ?_]
  · refine congrArg _ ?_
    unfold Spec.intensity
    refine Finset.sum_congr rfl fun l _ => ?_
    rw [aligned_linear (A := subsystemValue ι b uc fun c => (dyn c).expression.eval ι η)
      (A' := fun _ _ => 0) (z := ε) (z' := 0) (fun k l => by ring), zero_mul, add_zero, norm_mul, hε, one_mul]
  · intro k l
    unfold subsystemValue
    rw [hb, ← List.sum_map_mul_left]
    refine congrArg List.sum (List.map_congr_left fun c hc => ?_)
    exact chainValue_product ha hb hp hq (hprod c (List.mem_filter.1 hc).1) _ _ _ _

/-- C128: the production couplings of each resonance can be multiplied by a number if its decay couplings are divided by
it, and the production couplings of all resonances by a common phase. -/
theorem C128_vertices (hd : Standard b.decay) (hdyn : Lineshapes b dyn)
    (hfree : ∀ c ∈ b.decay.chains, HelicityFree (dyn c).expression)
    (hres : b.useProdHel = false → ∀ c ∈ b.decay.chains, c.resonance ≠ .state c.spectator)
    (hr : r = 1 ∨ r = 2 ∨ r = 3) (h : b.formulate (some r) cl false = .ok m) (ha : SameAngles ι ι') {η : Sym → ℚ}
    (hline : ∀ c ∈ b.decay.chains, (dyn c).expression.eval ι' η = (dyn c).expression.eval ι η)
    {z : String → ℂ} (hz : ∀ c ∈ b.decay.chains, z c.resonance.toP.latex ≠ 0) {ε : ℂ} (hε : ‖ε‖ = 1)
    (hprod : ∀ R ix, ι'.idx (couplingName b.useProdHel "production") (some R) ix =
      ε * z R * ι.idx (couplingName b.useProdHel "production") (some R) ix)
    (hdec : ∀ R ix, ι'.idx (couplingName b.useDecHel "decay") (some R) ix =
      (z R)⁻¹ * ι.idx (couplingName b.useDecHel "decay") (some R) ix) :
    m.fullExpression.eval ι' η = m.fullExpression.eval ι η := by
  refine C128_products hd hdyn hdyn rfl rfl rfl hfree hfree hres hr h h ha hε fun c hc lR lk li lj => ?_
  have := hz c hc
  unfold couplings
  simp only [Bool.false_eq_true, if_false]
  rw [hline c hc, hprod, hdec]
  field_simp

/-- C128: such values exist for all values of the couplings and all numbers. -/
theorem C128_vertices_exist (ι : Interp) (p q : Bool) (z : String → ℂ) (ε : ℂ) : ∃ ι' : Interp, SameFunctions ι ι' ∧ ι'.sym = ι.sym ∧
    (∀ R ix, ι'.idx (couplingName p "production") (some R) ix =
      ε * z R * ι.idx (couplingName p "production") (some R) ix) ∧
    (∀ R ix, ι'.idx (couplingName q "decay") (some R) ix = (z R)⁻¹ * ι.idx (couplingName q "decay") (some R) ix) := by
  have hne : couplingName q "decay" ≠ couplingName p "production" := by
    cases p <;> cases q <;> decide +kernel
  let idx : String → Option String → List ℚ → ℂ := fun base res ix =>
    if base = couplingName p "production" then ε * z (res.getD "") * ι.idx base res ix
    else if base = couplingName q "decay" then (z (res.getD ""))⁻¹ * ι.idx base res ix
    else ι.idx base res ix
  refine ⟨{ ι with idx := idx }, ⟨rfl, rfl, rfl, rfl, rfl⟩, rfl, fun R ix => ?_, fun R ix => ?_⟩
  · exact if_pos rfl
  · exact (if_neg hne).trans (if_pos rfl)

/-- C128: the normalisation of the lineshapes of a resonance can be chosen freely if its coefficients are divided by it:
for other lineshapes that are `z R` times the first, the model has the same value. -/
theorem C128_normalisation (hd : Standard b.decay) (hdyn : Lineshapes b dyn) (hdyn' : Lineshapes b' dyn')
    (hb : b'.decay = b.decay) (hp : b'.useProdHel = b.useProdHel) (hq : b'.useDecHel = b.useDecHel)
    (hfree : ∀ c ∈ b.decay.chains, HelicityFree (dyn c).expression)
    (hfree' : ∀ c ∈ b.decay.chains, HelicityFree (dyn' c).expression)
    (hres : b.useProdHel = false → ∀ c ∈ b.decay.chains, c.resonance ≠ .state c.spectator)
    (hr : r = 1 ∨ r = 2 ∨ r = 3) (h : b.formulate (some r) cl true = .ok m) (h' : b'.formulate (some r) cl' true = .ok m')
    (ha : SameAngles ι ι') {η : Sym → ℚ} {z : String → ℂ} (hz : ∀ c ∈ b.decay.chains, z c.resonance.toP.latex ≠ 0)
    (hline : ∀ c ∈ b.decay.chains,
      (dyn' c).expression.eval ι' η = z c.resonance.toP.latex * (dyn c).expression.eval ι η)
    (hcoef : ∀ R ix, ι'.idx (coefficientName R b.useProdHel b.useDecHel) none ix =
      (z R)⁻¹ * ι.idx (coefficientName R b.useProdHel b.useDecHel) none ix) :
    m'.fullExpression.eval ι' η = m.fullExpression.eval ι η := by
  refine C128_products hd hdyn hdyn' hb hp hq hfree hfree' hres hr h h' ha (ε := 1) norm_one fun c hc lR lk li lj => ?_
  have := hz c hc
  unfold couplings
  simp only [if_true]
  rw [hline c hc, hp, hq, hcoef]
  field_simp

theorem couplingIndices_length {hel : Bool} {ls : Option LS} (h : hel = false → ls ≠ none) (x y : ℚ) :
    (couplingIndices hel ls x y).length = 2 := by
  cases hel with
  | true => rfl
  | false =>
    cases ls with
    | none => exact absurd rfl (h rfl)
    | some _ => rfl

/-- C128: for all values of the couplings there are values of the coefficients for which the model with coefficients has the same
value at every point; nothing is lost by `use_coefficients`. -/
theorem C128_coefficients (hd : Standard b.decay) (hdyn : Lineshapes b dyn)
    (hfree : ∀ c ∈ b.decay.chains, HelicityFree (dyn c).expression)
    (hres : b.useProdHel = false → ∀ c ∈ b.decay.chains, c.resonance ≠ .state c.spectator)
    (hls : ∀ c ∈ b.decay.chains, HasLS b c) (hr : r = 1 ∨ r = 2 ∨ r = 3) (h : b.formulate (some r) cl false = .ok m)
    (h' : b.formulate (some r) cl' true = .ok m') (ι : Interp) : ∃ ι' : Interp, SameFunctions ι ι' ∧ ι'.sym = ι.sym ∧
      ∀ η, (∀ c ∈ b.decay.chains, (dyn c).expression.eval ι' η = (dyn c).expression.eval ι η) →
        m'.fullExpression.eval ι' η = m.fullExpression.eval ι η := by
  obtain ⟨ι', hf, hs, hv⟩ := C111_coefficients_free (b := b) ι fun R ix =>
    ι.idx (couplingName b.useProdHel "production") (some R) (ix.take 2) *
      ι.idx (couplingName b.useDecHel "decay") (some R) (ix.drop 2)
  refine ⟨ι', hf, hs, fun η hline => C128_products hd hdyn hdyn rfl rfl rfl hfree hfree hres hr h h'
    ⟨hf.wig.symm, hf.cg.symm, fun _ _ => by rw [hs], fun _ _ _ => by rw [hs]⟩ (ε := 1) norm_one fun c hc lR lk li lj => ?_⟩
  rw [hv, one_mul, hline c hc, List.take_left' (couplingIndices_length (hls c hc).1 _ _),
    List.drop_left' (couplingIndices_length (hls c hc).1 _ _)]
  rfl

/-! ### Concrete cases -/

theorem sameAngles_of (hf : SameFunctions ι ι') (hs : ι'.sym = ι.sym) : SameAngles ι ι' :=
  ⟨hf.wig.symm, hf.cg.symm, fun _ _ => by rw [hs], fun _ _ _ => by rw [hs]⟩

/-- `C128_vertices` for the example decay in every basis and all values of the couplings: the production couplings of the `K*` are
doubled and its decay couplings halved, those of the other resonance are multiplied and divided by 3i, and all production
couplings have the phase i. -/
example (p q a : Bool) (ι : Interp) (η : Sym → ℚ) : ∃ m ι', (exBuilder p q a).formulate (some 1) true false = .ok m ∧
    (∀ ix, ι'.idx (couplingName p "production") (some "K^*") ix =
      Complex.I * 2 * ι.idx (couplingName p "production") (some "K^*") ix) ∧
    m.fullExpression.eval ι' η = m.fullExpression.eval ι η := by
  obtain ⟨m, hm⟩ := exBuilder_ok p q a true false
  obtain ⟨ι', hf, hs, h1, h2⟩ := C128_vertices_exist ι p q (fun R => if R = "K^*" then 2 else 3 * Complex.I) Complex.I
  refine ⟨m, ι', hm, fun ix => (h1 _ ix).trans (by simp), C128_vertices (b := exBuilder p q a) (dyn := fun _ => {})
    exDecay_standard (exBuilder_lineshapes p q a) (fun _ _ => exFree) (fun _ => exRes) (.inl rfl) hm (sameAngles_of hf hs)
    (fun _ _ => rfl) (fun c _ => ?_) Complex.norm_I h1 h2⟩
  split <;> simp

/-- A lineshape without parameters. -/
def exScaled : DynBuilder := fun _ => .ok { expression := .num 3 }

/-- This lineshape registered for both resonances of the example decay. -/
def exScaledHistory : List (Ident × DynBuilder) := [(.chain exChainK, exScaled), (.chain exChainL, exScaled)]

def exScaledBuilder (p q a : Bool) : Builder := ⟨exDecay, (Configurator.init exDecay).run exScaledHistory, p, q, a⟩

theorem exScaled_lineshapes (p q a : Bool) : Lineshapes (exScaledBuilder p q a) (fun _ => { expression := .num 3 }) := by
  refine lineshapes_by_name (history := exScaledHistory) rfl fun c _ c' h => ⟨?_, fun hno => ?_⟩
  · rintro g ⟨before, i, after, h1, -, -⟩
    have : (i, g) ∈ exScaledHistory := by rw [h1]; simp
    simp only [exScaledHistory, List.mem_cons, List.not_mem_nil, or_false, Prod.mk.injEq] at this
    rcases this with ⟨-, rfl⟩ | ⟨-, rfl⟩ <;> rfl
  · have hc' : c' ∈ exDecay.chains := by
      generalize c.resonance.toP.name = n at h
      cases h with
      | name pre _ post h1 _ => rw [show exDecay.chains = _ from h1]; simp
    simp only [exDecay, List.mem_cons, List.not_mem_nil, or_false] at hc'
    rcases hc' with rfl | rfl
    · refine absurd ⟨[], .chain exChainK, [(.chain exChainL, exScaled)], rfl, .chain _ (by simp [exScaledBuilder, exDecay]), ?_⟩
        (hno exScaled)
      intro x hx hden
      rw [List.mem_singleton.1 hx] at hden
      generalize hL : exChainL = y at hden
      cases hden
      exact exL_ne_exK hL
    · exact absurd ⟨[(.chain exChainK, exScaled)], .chain exChainL, [], rfl, .chain _ (by simp [exScaledBuilder, exDecay]), by simp⟩
        (hno exScaled)

theorem exScaled_ok (p q a cl uc : Bool) : ∃ m, (exScaledBuilder p q a).formulate (some 1) cl uc = .ok m := by
  obtain ⟨P, h, -⟩ := formulate_ok (b := exScaledBuilder p q a) (reference := some 1) (ref := 1)
    exDecay_standard (exScaled_lineshapes p q a) rfl (by simp) cl uc (by
      rw [missing_iff (b := exScaledBuilder p q a) exDecay_standard]
      rintro ⟨-, c, hc, h⟩
      exact h (exBuilder_ls p q a hc))
  exact ⟨_, h⟩

/-- `C128_normalisation`: the models without lineshape and with the lineshape 3 have the same value, if the coefficients of
the second are those of the first divided by 3. Such coefficients exist. -/
example (p q a : Bool) (ι : Interp) (η : Sym → ℚ) : ∃ m m' ι', (exBuilder p q a).formulate (some 1) true true = .ok m ∧
    (exScaledBuilder p q a).formulate (some 1) true true = .ok m' ∧ ι'.sym = ι.sym ∧
    (∀ R ix, ι'.idx (coefficientName R p q) none ix = 3⁻¹ * ι.idx (coefficientName R p q) none ix) ∧
    m'.fullExpression.eval ι' η = m.fullExpression.eval ι η := by
  obtain ⟨m, hm⟩ := exBuilder_ok p q a true true
  obtain ⟨m', hm'⟩ := exScaled_ok p q a true true
  let ι' : Interp := { ι with idx := fun base res ix => 3⁻¹ * ι.idx base res ix }
  refine ⟨m, m', ι', hm, hm', rfl, fun _ _ => rfl,
    C128_normalisation (ι := ι) (ι' := ι') (η := η) (b := exBuilder p q a) (b' := exScaledBuilder p q a) (dyn := fun _ => {}) (z := fun _ => 3)
      (dyn' := fun _ => { expression := .num 3 }) exDecay_standard (exBuilder_lineshapes p q a) (exScaled_lineshapes p q a)
      rfl rfl rfl (fun _ _ => exFree) (fun _ _ _ _ _ => rfl) (fun _ => exRes) (.inl rfl) hm hm'
      (sameAngles_of ⟨rfl, rfl, rfl, rfl, rfl⟩ rfl) (fun _ _ => by norm_num) (fun c _ => ?_) (fun _ _ => rfl)⟩
  simp [Expr.eval]

/-- `C128_coefficients` and with it `C128_products`, in every basis. -/
example (p q a : Bool) (ι : Interp) : ∃ m m' ι', (exBuilder p q a).formulate (some 1) true false = .ok m ∧
    (exBuilder p q a).formulate (some 1) true true = .ok m' ∧ SameFunctions ι ι' ∧ ι'.sym = ι.sym ∧
    ∀ η, m'.fullExpression.eval ι' η = m.fullExpression.eval ι η := by
  obtain ⟨m, hm⟩ := exBuilder_ok p q a true false
  obtain ⟨m', hm'⟩ := exBuilder_ok p q a true true
  obtain ⟨ι', hf, hs, hv⟩ := C128_coefficients (b := exBuilder p q a) (dyn := fun _ => {}) exDecay_standard
    (exBuilder_lineshapes p q a) (fun _ _ => exFree) (fun _ => exRes) (fun c hc => exBuilder_ls p q a hc) (.inl rfl) hm hm' ι
  exact ⟨m, m', ι', hm, hm', hf, hs, fun η => hv η fun _ _ => rfl⟩

end Verif.ThreeBody
