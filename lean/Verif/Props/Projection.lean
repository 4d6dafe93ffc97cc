import Verif.Proofs.Projection
import Verif.Proofs.DalitzSlice
import Verif.Proofs.ExampleBuilder
import Verif.Props.Reference
import Verif.Props.LineshapeBuilder

/-!
Property C98: resonances with different spins in the same subsystem do not interfere in the projection of the
intensity on their mass, i.e. after integration over the decay angle or over the other Mandelstam variable.
-/
namespace Verif.ThreeBody
open Verif Verif.Spec Verif.Spin Verif.Angles

variable {b : Builder} {dyn : Chain → DefExpr} {cl uc : Bool} {m : AmplitudeModel} {ι : Interp}

theorem evenPerm_ids {i j k : ℤ} (h : EvenPerm i j k) : prodIds k = (i, j) := by
  rcases h with h | h | h <;> cases h <;> rfl

theorem decayAngle_ne_zeta {i j : ℤ} {n k r : ℤ} : zetaSymbol n k r ≠ decayAngle i j := by
  intro h
  have := congrArg (fun s => s.name.toList.head?) h
  simp [zetaSymbol, decayAngle, String.toList_append] at this

theorem spins_half_integer (hd : Standard b.decay) : ∀ J ∈ resonanceSpins b.decay, IsHalfInteger J := by
  intro J hJ
  obtain ⟨c, hc, rfl⟩ := List.mem_map.1 (List.mem_toFinset.1 hJ)
  exact hd.resonances c hc

/-- C98: if all chains are in subsystem `k`, the integral of the intensity over the cosine of the decay angle `θ_ij` is
the sum of `2/(2J+1) Σ_λ |Σ_c lineshape · couplings · Clebsch-Gordan factors|²` over the spins `J` of the resonances, where
the inner sum runs over the chains with spin `J`. This holds for every choice of the reference subsystem and all
values of the alignment angles. -/
theorem C98_angle_integral (hd : Standard b.decay) (hdyn : Lineshapes b dyn) {r : ℤ} (hr : r = 1 ∨ r = 2 ∨ r = 3)
    (h : b.formulate (some r) cl uc = .ok m)
    (hfree : ∀ c ∈ b.decay.chains, HelicityFree (dyn c).expression)
    (hres : b.useProdHel = false → ∀ c ∈ b.decay.chains, c.resonance ≠ .state c.spectator)
    {i j k : ℤ} (hijk : EvenPerm i j k) (hk : ∀ c ∈ b.decay.chains, c.spectator.index = k) (η : Sym → ℚ)
    (hw : ActualWigner ι) (hζ : ∀ n : Fin 4, ∃ z : ℝ, ι.sym (zetaSymbol n k r) = z)
    (hline : ∀ c ∈ b.decay.chains, ∀ x, (dyn c).expression.eval (withSymbol ι (decayAngle i j) x) η =
      (dyn c).expression.eval ι η) :
    ∫ x in (0 : ℝ)..Real.pi, m.fullExpression.eval (withSymbol ι (decayAngle i j) x) η * (Real.sin x : ℂ) =
      ((∑ J ∈ resonanceSpins b.decay, spinIntensity ι b uc (fun c => (dyn c).expression.eval ι η) i j k J : ℝ) : ℂ) := by
  have hp := evenPerm_ids hijk
  have hrr : RefOk (some r) := by rintro x ⟨⟩; exact hr
  obtain ⟨x, hx, hv⟩ := single_value hd hdyn hrr h hfree hres η hk
  obtain rfl : r = x := hx
  choose z hz using hζ
  have hval : ∀ x : ℝ, m.fullExpression.eval (withSymbol ι (decayAngle i j) x) η * (Real.sin x : ℂ) =
      ((angleIntensity (resonanceSpins b.decay) b.decay k (spinSum ι b uc (fun c => (dyn c).expression.eval ι η) k) x *
        Real.sin x : ℝ) : ℂ) := by
    intro x
    rw [hv (withSymbol ι (decayAngle i j) x) hw x (fun _ => by rw [hp]; simp [withSymbol]) z fun n _ => by
      rw [← hz n]; simp [withSymbol, decayAngle_ne_zeta]]
    rw [spinSum_congr (ι := withSymbol ι (decayAngle i j) x) (ι' := ι) rfl rfl fun c hc => hline c hc x]
    push_cast
    unfold angleIntensity
    push_cast
    rfl
  simp only [hval]
  rw [intervalIntegral.integral_ofReal, integral_angleIntensity (spins_half_integer hd)]
  simp only [spinIntensity_eq hp]

/-- C98, no interference: the integral of the intensity over the decay angle is the sum of the integrals of models that
contain only the resonances with one spin, for all values of all parameters. -/
theorem C98_no_interference (hd : Standard b.decay) (hdyn : Lineshapes b dyn) {r : ℤ} (hr : r = 1 ∨ r = 2 ∨ r = 3)
    (h : b.formulate (some r) cl uc = .ok m)
    (hfree : ∀ c ∈ b.decay.chains, HelicityFree (dyn c).expression)
    (hres : b.useProdHel = false → ∀ c ∈ b.decay.chains, c.resonance ≠ .state c.spectator)
    {i j k : ℤ} (hijk : EvenPerm i j k) (hk : ∀ c ∈ b.decay.chains, c.spectator.index = k) (η : Sym → ℚ)
    (hw : ActualWigner ι) (hζ : ∀ n : Fin 4, ∃ z : ℝ, ι.sym (zetaSymbol n k r) = z)
    (hline : ∀ c ∈ b.decay.chains, ∀ x, (dyn c).expression.eval (withSymbol ι (decayAngle i j) x) η =
      (dyn c).expression.eval ι η)
    (sub : ℚ → Builder) (hs : ∀ J, (sub J).decay.states = b.decay.states)
    (hc : ∀ J, (sub J).decay.chains = b.decay.chains.filter fun c => c.resonance.toP.spin = J)
    (hp : ∀ J, (sub J).useProdHel = b.useProdHel) (hq : ∀ J, (sub J).useDecHel = b.useDecHel)
    (hdyn' : ∀ J, Lineshapes (sub J) dyn) {cl' : Bool} {ms : ℚ → AmplitudeModel}
    (h' : ∀ J ∈ resonanceSpins b.decay, (sub J).formulate (some r) cl' uc = .ok (ms J)) :
    ∫ x in (0 : ℝ)..Real.pi, m.fullExpression.eval (withSymbol ι (decayAngle i j) x) η * (Real.sin x : ℂ) =
      ∑ J ∈ resonanceSpins b.decay,
        ∫ x in (0 : ℝ)..Real.pi, (ms J).fullExpression.eval (withSymbol ι (decayAngle i j) x) η * (Real.sin x : ℂ) := by
  rw [C98_angle_integral hd hdyn hr h hfree hres hijk hk η hw hζ hline, Complex.ofReal_sum]
  apply Finset.sum_congr rfl
  intro J hJ
  have hsub : ∀ c ∈ (sub J).decay.chains, c ∈ b.decay.chains := fun c h => by
    rw [hc] at h; exact (List.mem_filter.1 h).1
  rw [C98_angle_integral (standard_filter hd (hs J) (hc J)) (hdyn' J) hr (h' J hJ) (fun c h => hfree c (hsub c h))
    (fun g c h => hres ((hp J).symm.trans g) c (hsub c h)) hijk (fun c h => hk c (hsub c h)) η hw hζ
    fun c h => hline c (hsub c h)]
  congr 1
  exact (sub_spinIntensity (hs J) (hc J) (hp J) (hq J) hJ _ i j k).symm

/-! ### Projections of the Dalitz plot -/

/-- The conditions on the values of the symbols along a line `σ_k = const` of the Dalitz plot: the couplings and
functions do not change, the Wigner functions are the actual ones, and all angles of the model follow from their
definitions. -/
structure AlongSlice (ι : ℝ → Interp) (ι₀ : Interp) (ρ : ℝ → Sym → ℝ) (m : AmplitudeModel) : Prop where
  wigner : ∀ t, ActualWigner (ι t)
  couplings : ∀ t, (ι t).idx = ι₀.idx
  clebsch : ∀ t, (ι t).cg = ι₀.cg
  angles : ∀ t, DalitzInterior (ρ t) → AnglesAt (ι t) (ρ t) m

theorem slice_value (hd : Standard b.decay) (hdyn : Lineshapes b dyn) {r : ℤ} (hr : r = 1 ∨ r = 2 ∨ r = 3)
    (h : b.formulate (some r) cl uc = .ok m)
    (hfree : ∀ c ∈ b.decay.chains, HelicityFree (dyn c).expression)
    (hres : b.useProdHel = false → ∀ c ∈ b.decay.chains, c.resonance ≠ .state c.spectator) (hne : b.decay.chains ≠ [])
    {i j k : ℤ} (hijk : EvenPerm i j k) (hk : ∀ c ∈ b.decay.chains, c.spectator.index = k) (η : Sym → ℚ)
    {ρ : ℝ → Sym → ℝ} {ι : ℝ → Interp} {ι₀ : Interp} (hι : AlongSlice ι ι₀ ρ m)
    {L : Chain → ℂ} {t : ℝ} (ht : DalitzInterior (ρ t))
    (hline : ∀ c ∈ b.decay.chains, (dyn c).expression.eval (ι t) η = L c) {x : ℝ} (hx : (scatE i j k).eval (ρ t) = some x) :
    m.fullExpression.eval (ι t) η = ((angleIntensity (resonanceSpins b.decay) b.decay k (spinSum ι₀ b uc L k) x : ℝ) : ℂ) := by
  have hrr : RefOk (some r) := by rintro x ⟨⟩; exact hr
  have hp := evenPerm_ids hijk
  have hp123 : IsPerm123 i j k := by
    rcases hijk with h | h | h <;> cases h <;> unfold IsPerm123 <;> decide
  have hk3 : k ∈ ([1, 2, 3] : List ℤ) := by rcases hijk with h | h | h <;> cases h <;> simp
  obtain ⟨c₀, hc₀⟩ := List.exists_mem_of_ne_nil _ hne
  have hmem : k ∈ subsystems b.decay := List.mem_toFinset.2 (List.mem_map.2 ⟨c₀, hc₀, hk c₀ hc₀⟩)
  obtain ⟨ref, hu, hv⟩ := single_value hd hdyn hrr h hfree hres η hk
  obtain ⟨x', P, hu', -, -, rfl, -⟩ := formulate_inv hd hdyn hrr h
  obtain rfl : r = ref := hu
  obtain rfl : r = x' := hu'
  have hr3 : r ∈ ([1, 2, 3] : List ℤ) := by simpa using hr
  rw [hv (ι t) (hι.wigner t) x ?_ (fun n => zv (ρ t) n k r) fun n hs => zeta_value hd ht.region hr3 (hι.angles t ht) hmem n hs]
  · rw [spinSum_congr (hι.couplings t) (hι.clebsch t) hline]
    rfl
  · rintro ⟨l, hl⟩
    have hth : thetaExpr k = scatE i j k := by
      have h1 := theta_eq hk3
      rw [hp, scat_forms hp123] at h1
      injection h1 with h1
      injection h1 with _ h1
      exact h1.symm
    exact hι.angles t ht _ _ _ (angle_get?_theta hd ((selected_iff hd k).2 (selected_of_chain hd hmem)) (helicities_tuple hd hl))
      (by rw [hth]; exact hx)

/-- C98, projection of the Dalitz plot: if all chains are in subsystem `k`, the integral of the intensity over all `σ_j`
inside the Dalitz plot at a fixed `σ_k` is half the length of the range of `σ_j` times the sum of
`2/(2J+1) Σ_λ |Σ_c lineshape · couplings · Clebsch-Gordan factors|²` over the spins `J`. All angles have the values of
their definitions. -/
theorem C98_dalitz_value (hd : Standard b.decay) (hdyn : Lineshapes b dyn) {r : ℤ} (hr : r = 1 ∨ r = 2 ∨ r = 3)
    (h : b.formulate (some r) cl uc = .ok m)
    (hfree : ∀ c ∈ b.decay.chains, HelicityFree (dyn c).expression)
    (hres : b.useProdHel = false → ∀ c ∈ b.decay.chains, c.resonance ≠ .state c.spectator) (hne : b.decay.chains ≠ [])
    {i j k : ℤ} (hijk : EvenPerm i j k) (hk : ∀ c ∈ b.decay.chains, c.spectator.index = k) (η : Sym → ℚ)
    {ρ : ℝ → Sym → ℝ} (hρ : Slice ρ j k) {t₀ : ℝ} (ht₀ : DalitzInterior (ρ t₀)) {ι : ℝ → Interp} {ι₀ : Interp}
    (hι : AlongSlice ι ι₀ ρ m) {L : Chain → ℂ}
    (hline : ∀ c ∈ b.decay.chains, ∀ t, DalitzInterior (ρ t) → (dyn c).expression.eval (ι t) η = L c) :
    ∃ c R : ℝ, 0 < R ∧ {t | DalitzInterior (ρ t)} = Set.Ioo (c - R) (c + R) ∧
      ∫ t in {t | DalitzInterior (ρ t)}, m.fullExpression.eval (ι t) η =
        ((R * ∑ J ∈ resonanceSpins b.decay, spinIntensity ι₀ b uc L i j k J : ℝ) : ℂ) := by
  have hp := evenPerm_ids hijk
  obtain ⟨hR, c, hc⟩ := slice_interval hijk hρ ht₀
  set R := halfRange (vm (ρ 0) 0) (vm (ρ 0) i) (vm (ρ 0) j) (vm (ρ 0) k) (vs (ρ 0) k)
  have hset : {t | DalitzInterior (ρ t)} = {t | |t - c| < R} := by
    ext t
    exact (hc t).1
  have hset2 : {t | |t - c| < R} = Set.Ioo (c - R) (c + R) := by
    ext t
    rw [Set.mem_ofPred_eq, abs_lt, Set.mem_Ioo]
    constructor <;> rintro ⟨h1, h2⟩ <;> constructor <;> linarith
  refine ⟨c, R, hR, hset.trans hset2, ?_⟩
  have hcongr : ∫ t in {t | DalitzInterior (ρ t)}, m.fullExpression.eval (ι t) η = ∫ t in {t | |t - c| < R},
      ((angleIntensity (resonanceSpins b.decay) b.decay k (spinSum ι₀ b uc L k) (Real.arccos ((t - c) / R)) : ℝ) : ℂ) := by
    rw [hset]
    apply MeasureTheory.setIntegral_congr_fun (by rw [hset2]; exact measurableSet_Ioo)
    intro t ht
    have ht : DalitzInterior (ρ t) := (hc t).1.2 ht
    exact slice_value hd hdyn hr h hfree hres hne hijk hk η hι ht (fun c hc => hline c hc t ht) ((hc t).2 ht)
  rw [hcongr, integral_complex_ofReal, integral_slice (continuous_angleIntensity (spins_half_integer hd) _ _ _) c hR,
    integral_angleIntensity (spins_half_integer hd)]
  simp only [spinIntensity_eq hp]

/-- C98, projection of the Dalitz plot: resonances with different spins in the same subsystem do not interfere in the
distribution of the mass of the subsystem. The integral of the intensity over the Dalitz plot at fixed `σ_k` is the sum of
those of the models that contain only the resonances with one spin. This holds for every `σ_k` and all values of the
parameters, for lineshapes that do not change along the line `σ_k = const`. -/
theorem C98_dalitz_no_interference (hd : Standard b.decay) (hdyn : Lineshapes b dyn) {r : ℤ} (hr : r = 1 ∨ r = 2 ∨ r = 3)
    (h : b.formulate (some r) cl uc = .ok m)
    (hfree : ∀ c ∈ b.decay.chains, HelicityFree (dyn c).expression)
    (hres : b.useProdHel = false → ∀ c ∈ b.decay.chains, c.resonance ≠ .state c.spectator) (hne : b.decay.chains ≠ [])
    {i j k : ℤ} (hijk : EvenPerm i j k) (hk : ∀ c ∈ b.decay.chains, c.spectator.index = k) (η : Sym → ℚ)
    {ρ : ℝ → Sym → ℝ} (hρ : Slice ρ j k) {ι : ℝ → Interp} {ι₀ : Interp} (hι : AlongSlice ι ι₀ ρ m) {L : Chain → ℂ}
    (hline : ∀ c ∈ b.decay.chains, ∀ t, DalitzInterior (ρ t) → (dyn c).expression.eval (ι t) η = L c)
    (sub : ℚ → Builder) (hs : ∀ J, (sub J).decay.states = b.decay.states)
    (hc : ∀ J, (sub J).decay.chains = b.decay.chains.filter fun c => c.resonance.toP.spin = J)
    (hp : ∀ J, (sub J).useProdHel = b.useProdHel) (hq : ∀ J, (sub J).useDecHel = b.useDecHel)
    (hdyn' : ∀ J, Lineshapes (sub J) dyn) {r' : ℤ} (hr' : r' = 1 ∨ r' = 2 ∨ r' = 3) {cl' : Bool} {ms : ℚ → AmplitudeModel}
    (h' : ∀ J ∈ resonanceSpins b.decay, (sub J).formulate (some r') cl' uc = .ok (ms J))
    (hι' : ∀ J ∈ resonanceSpins b.decay, AlongSlice ι ι₀ ρ (ms J)) :
    ∫ t in {t | DalitzInterior (ρ t)}, m.fullExpression.eval (ι t) η =
      ∑ J ∈ resonanceSpins b.decay, ∫ t in {t | DalitzInterior (ρ t)}, (ms J).fullExpression.eval (ι t) η := by
  by_cases hex : ∃ t₀, DalitzInterior (ρ t₀)
  swap
  · have : {t | DalitzInterior (ρ t)} = ∅ := by
      ext t
      simp only [Set.mem_ofPred_eq, Set.mem_empty_iff_false, iff_false]
      exact fun h => hex ⟨t, h⟩
    simp [this]
  obtain ⟨t₀, ht₀⟩ := hex
  obtain ⟨c, R, hR, hset, hval⟩ := C98_dalitz_value hd hdyn hr h hfree hres hne hijk hk η hρ ht₀ hι hline
  rw [hval, Finset.mul_sum, Complex.ofReal_sum]
  apply Finset.sum_congr rfl
  intro J hJ
  have hsub : ∀ c ∈ (sub J).decay.chains, c ∈ b.decay.chains := fun c h => by
    rw [hc] at h; exact (List.mem_filter.1 h).1
  have hne' : (sub J).decay.chains ≠ [] := by
    obtain ⟨c, hm, hJ⟩ := List.mem_map.1 (List.mem_toFinset.1 hJ)
    rw [hc]
    exact List.ne_nil_of_mem (List.mem_filter.2 ⟨hm, by simpa using hJ⟩)
  obtain ⟨c', R', hR', hset', hval'⟩ := C98_dalitz_value (standard_filter hd (hs J) (hc J)) (hdyn' J) hr' (h' J hJ)
    (fun c h => hfree c (hsub c h)) (fun g c h => hres ((hp J).symm.trans g) c (hsub c h)) hne' hijk
    (fun c h => hk c (hsub c h)) η hρ ht₀ (hι' J hJ) fun c h => hline c (hsub c h)
  rw [hval', sub_spinIntensity (hs J) (hc J) (hp J) (hq J) hJ]
  congr 2
  rw [hset] at hset'
  have h1 : (c - R, c + R) = (c' - R', c' + R') := by
    have hne1 : (Set.Ioo (c - R) (c + R)).Nonempty := ⟨c, by constructor <;> linarith⟩
    have e1 := congrArg sInf hset'
    have e2 := congrArg sSup hset'
    rw [csInf_Ioo (by linarith), csInf_Ioo (by linarith)] at e1
    rw [csSup_Ioo (by linarith), csSup_Ioo (by linarith)] at e2
    rw [e1, e2]
  injection h1 with h1 h2
  linarith

/-! ### Lineshapes of `BreitWignerBuilder` -/

/-- Along a line `σ_k = const` only the other two Mandelstam variables `sigma…` and the angles `theta_…` and `\zeta^…` change. -/
structure ParametersFixed (ι : ℝ → Interp) (ι₀ : Interp) (k : ℤ) : Prop where
  symbols : ∀ t s, s.name.toList.take 2 ∉ [['s', 'i'], ['t', 'h'], ['\\', 'z']] → (ι t).sym s = ι₀.sym s
  mandelstam : ∀ t, (ι t).sym (mandelstam k) = ι₀.sym (mandelstam k)
  width : ∀ t, (ι t).edw = ι₀.edw
  formFactor : ∀ t, (ι t).ff = ι₀.ff

/-- C98: the lineshapes of `BreitWignerBuilder` do not change along the line, for all settings of its flags. -/
theorem C98_breit_wigner {ι : ℝ → Interp} {ι₀ : Interp} {c : Chain} (h : ParametersFixed ι ι₀ c.spectator.index)
    (hl : dyn c = {} ∨ ∃ bw R first, PlainChain c R first ∧ NumberedFinalState c ∧
      BreitWignerBuilder.call bw c = .ok (dyn c)) (t : ℝ) (η : Sym → ℚ) :
    (dyn c).expression.eval (ι t) η = (dyn c).expression.eval ι₀ η := by
  rcases hl with hl | ⟨bw, R, first, h1, h2, h3⟩
  · rw [hl]; rfl
  have hm : ∀ n, (ι t).sym (massOfState n) = ι₀.sym (massOfState n) := fun n =>
    h.symbols t _ (by simp [massOfState, String.toList_append])
  have hR : (ι t).sym (massOfResonance R) = ι₀.sym (massOfResonance R) :=
    h.symbols t _ (by simp [massOfResonance, String.toList_append])
  have hW : (ι t).sym (widthOfResonance R) = ι₀.sym (widthOfResonance R) :=
    h.symbols t _ (by simp [widthOfResonance, String.toList_append])
  have hr : (ι t).sym resonanceRadius = ι₀.sym resonanceRadius :=
    h.symbols t _ (by simp [resonanceRadius, String.toList_append])
  have hp : (ι t).sym (parentRadius c.parent) = ι₀.sym (parentRadius c.parent) :=
    h.symbols t _ (by simp [parentRadius, String.toList_append])
  rw [C42_value h1 h2 h3, C42_value h1 h2 h3]
  cases first <;>
    simp only [lineshapeValue, h.mandelstam t, h.width t, h.formFactor t, hm, hR, hW, hr, hp, if_true, if_false,
      Bool.false_eq_true]

/-- C98 for models with Breit-Wigner lineshapes: the distribution of the mass of the subsystem is the sum of those of the
models with the resonances of one spin. -/
theorem C98_breit_wigner_no_interference (hd : Standard b.decay) (hdyn : Lineshapes b dyn) {r : ℤ}
    (hr : r = 1 ∨ r = 2 ∨ r = 3) (h : b.formulate (some r) cl uc = .ok m)
    (hl : ∀ c ∈ b.decay.chains, dyn c = {} ∨ ∃ bw R first, PlainChain c R first ∧
      NumberedFinalState c ∧ BreitWignerBuilder.call bw c = .ok (dyn c))
    (hres : b.useProdHel = false → ∀ c ∈ b.decay.chains, c.resonance ≠ .state c.spectator) (hne : b.decay.chains ≠ [])
    {i j k : ℤ} (hijk : EvenPerm i j k) (hk : ∀ c ∈ b.decay.chains, c.spectator.index = k) (η : Sym → ℚ)
    {ρ : ℝ → Sym → ℝ} (hρ : Slice ρ j k) {ι : ℝ → Interp} {ι₀ : Interp} (hι : AlongSlice ι ι₀ ρ m)
    (hfix : ParametersFixed ι ι₀ k)
    (sub : ℚ → Builder) (hs : ∀ J, (sub J).decay.states = b.decay.states)
    (hc : ∀ J, (sub J).decay.chains = b.decay.chains.filter fun c => c.resonance.toP.spin = J)
    (hp : ∀ J, (sub J).useProdHel = b.useProdHel) (hq : ∀ J, (sub J).useDecHel = b.useDecHel)
    (hdyn' : ∀ J, Lineshapes (sub J) dyn) {r' : ℤ} (hr' : r' = 1 ∨ r' = 2 ∨ r' = 3) {cl' : Bool} {ms : ℚ → AmplitudeModel}
    (h' : ∀ J ∈ resonanceSpins b.decay, (sub J).formulate (some r') cl' uc = .ok (ms J))
    (hι' : ∀ J ∈ resonanceSpins b.decay, AlongSlice ι ι₀ ρ (ms J)) :
    ∫ t in {t | DalitzInterior (ρ t)}, m.fullExpression.eval (ι t) η =
      ∑ J ∈ resonanceSpins b.decay, ∫ t in {t | DalitzInterior (ρ t)}, (ms J).fullExpression.eval (ι t) η := by
  refine C98_dalitz_no_interference hd hdyn hr h (fun c hc => ?_) hres hne hijk hk η hρ hι
    (L := fun c => (dyn c).expression.eval ι₀ η)
    (fun c hc t _ => C98_breit_wigner (by rw [hk c hc]; exact hfix) (hl c hc) t η) sub hs hc hp hq hdyn' hr' h' hι'
  rcases hl c hc with h | ⟨bw, R, first, h1, h2, h3⟩
  · rw [h]; exact fun _ _ _ => rfl
  · exact (C42_usable_in_formulate h1 h2 h3).2.2

/-! ### A concrete case: `Λc → p K* K₀*` with spins 1 and 0 in the same subsystem -/

/-- A scalar resonance in the subsystem of `exChainK`. -/
def exScalar : Node :=
  .isobar (.state (exState "Lc" (1/2) 2 0))
    (.isobar (.particle ⟨"K0*", "K_0^*", 0, some 1, 14/10, 1/4⟩)
      (.leaf (.state (exState "pi" 0 (1/7) 2))) (.leaf (.state (exState "K" 0 (1/2) 3))) (some ⟨0, 0⟩))
    (.leaf (.state (exState "p" (1/2) 1 1))) (some ⟨0, 1/2⟩)

def exChainS : Chain :=
  ⟨exScalar, exState "Lc" (1/2) 2 0, .particle ⟨"K0*", "K_0^*", 0, some 1, 14/10, 1/4⟩,
    exState "pi" 0 (1/7) 2, exState "K" 0 (1/2) 3, exState "p" (1/2) 1 1, some ⟨0, 1/2⟩, some ⟨0, 0⟩⟩

/-- Two resonances with different spins in subsystem 1. -/
def exTwo : Builder := ⟨⟨exStates, [exChainK, exChainS]⟩, Configurator.init ⟨exStates, [exChainK, exChainS]⟩, true, true, false⟩

theorem exTwo_valid : exTwo.decay.Valid := by
  refine ⟨?_, ?_⟩
  · have hf : (finalStateDict exStates).map Prod.snd =
        [exState "p" (1/2) 1 1, exState "pi" 0 (1/7) 2, exState "K" 0 (1/2) 3] := rfl
    have : checkChains (exState "Lc" (1/2) 2 0) ((finalStateDict exStates).map Prod.snd)
        exTwo.decay.chains = .ok () := by
      rw [checkChains_ok, hf]
      intro c hc
      simp only [exTwo, List.mem_cons, List.not_mem_nil, or_false] at hc
      rcases hc with rfl | rfl <;>
      · refine ⟨rfl, fun s => ?_⟩
        simp only [exChainK, exChainS, List.mem_cons, List.not_mem_nil, or_false]
    have h0 : initialState exTwo.decay.states = .ok (exState "Lc" (1/2) 2 0) := rfl
    unfold Decay.new
    rw [h0]
    simp only [bind, Except.bind]
    rw [show exTwo.decay.states = exStates from rfl, this]; rfl
  · intro c hc
    simp only [exTwo, List.mem_cons, List.not_mem_nil, or_false] at hc
    rcases hc with rfl | rfl
    · exact exK_ok
    · show Chain.new exScalar = .ok exChainS
      rw [chainNew_shape _ _ _ _ _ _ _ exScalar (.inl rfl)]; rfl

theorem exTwo_standard : Standard exTwo.decay := by
  refine ⟨exTwo_valid, by decide, exDecay_standard.3, exDecay_standard.4, ?_⟩
  intro c hc
  simp only [exTwo, List.mem_cons, List.not_mem_nil, or_false] at hc
  rcases hc with rfl | rfl
  · exact ⟨2, by norm_num [exChainK, Obj.toP]⟩
  · exact ⟨0, by norm_num [exChainS, Obj.toP]⟩

/-- The model of the resonances with spin `J`. -/
def exSub (J : ℚ) : Builder :=
  let d : Decay := ⟨exStates, [exChainK, exChainS].filter fun c => c.resonance.toP.spin = J⟩
  ⟨d, Configurator.init d, true, true, false⟩

theorem exSub_standard (J : ℚ) : Standard (exSub J).decay :=
  standard_filter (keep := fun c => c.resonance.toP.spin = J) exTwo_standard rfl rfl

theorem ex_formulate {b : Builder} (hd : Standard b.decay) (hl : Lineshapes b fun _ => {}) (hp : b.useProdHel = true)
    (hq : b.useDecHel = true) (r : ℤ) (hr : r ∈ ([1, 2, 3] : List ℤ)) :
    ∃ m, b.formulate (some r) true false = .ok m ∧
      ∀ (ρ : Sym → ℝ) (ι : Interp), ι.sym = angleValues ρ → AnglesAt ι ρ m := by
  obtain ⟨P, hP, -⟩ := formulate_ok (b := b) (reference := some r) hd hl (ref := r) rfl hr true false (by
    rw [missing_iff (b := b) hd]
    rintro ⟨-, c, hc, h⟩
    exact h ⟨fun h => absurd hp (by simp [h]), fun h => absurd hq (by simp [h])⟩)
  exact ⟨_, hP, fun ρ ι hι => anglesAt_exists (b := b) ρ ι hι hd hr⟩

open Classical in
/-- Values of all symbols and functions at a point of the Dalitz plot, with couplings 1. -/
noncomputable def exActual (ρ : Sym → ℝ) : Interp :=
  ⟨angleValues ρ, fun _ _ _ => 1, fun j m m' z => if Projection j m' then (Wigner.wignerD j m m' z.re : ℂ) else 0,
    fun _ _ _ _ _ _ => 1, fun _ _ _ _ _ => 1, fun _ _ _ _ _ _ _ _ => 1, fun _ _ _ => 1⟩

/-- The line `σ_1 = 28/3` through the centre of the Dalitz plot of `5 → 1 1 1`. -/
noncomputable def exSlice (t : ℝ) (s : Sym) : ℝ :=
  if s.name = "m0" then 5 else if s.name = "m1" then 1 else if s.name = "m2" then 1 else if s.name = "m3" then 1
  else if s.name = "sigma1" then 28 / 3 else if s.name = "sigma3" then t else 28 - 28 / 3 - t

/-- All hypotheses of `C98_dalitz_value` and `C98_dalitz_no_interference` hold for `exTwo` with reference subsystem 2 on the line
`σ_1 = 28/3`, which crosses the Dalitz plot, and the two models for spins 1 and 0 can be formulated. -/
example : ∃ (m : AmplitudeModel) (ms : ℚ → AmplitudeModel),
    Standard exTwo.decay ∧ Lineshapes exTwo (fun _ => {}) ∧ exTwo.formulate (some 2) true false = .ok m ∧
    EvenPerm 2 3 1 ∧ (∀ c ∈ exTwo.decay.chains, c.spectator.index = 1) ∧ resonanceSpins exTwo.decay = {1, 0} ∧
    Slice exSlice 3 1 ∧ DalitzInterior (exSlice (28 / 3)) ∧ AlongSlice (fun t => exActual (exSlice t)) (exActual 0) exSlice m ∧
    (∀ J, Lineshapes (exSub J) fun _ => {}) ∧
    (∀ J, (exSub J).formulate (some 2) true false = .ok (ms J)) ∧
    ∀ J, AlongSlice (fun t => exActual (exSlice t)) (exActual 0) exSlice (ms J) := by
  obtain ⟨m, hm, am⟩ := ex_formulate exTwo_standard (unit_lineshapes _ _ _ _) rfl rfl 2 (by simp)
  choose ms hms ams using fun J => ex_formulate (exSub_standard J) (unit_lineshapes _ _ _ _) rfl rfl 2 (by simp)
  have hA : ∀ ρ, ActualWigner (exActual ρ) := fun ρ j m m' x => by simp [exActual]
  refine ⟨m, ms, exTwo_standard, unit_lineshapes _ _ _ _, hm, by simp [EvenPerm], ?_, rfl, ?_, ?_,
    ⟨fun _ => hA _, fun _ => rfl, fun _ => rfl, fun t _ => am _ _ rfl⟩, fun J => unit_lineshapes _ _ _ _, hms,
    fun J => ⟨fun _ => hA _, fun _ => rfl, fun _ => rfl, fun t _ => ams J _ _ rfl⟩⟩
  · intro c hc
    simp only [exTwo, List.mem_cons, List.not_mem_nil, or_false] at hc
    rcases hc with rfl | rfl <;> rfl
  · refine ⟨?_, ?_, ?_, ?_⟩
    · intro t n hn
      simp only [List.mem_cons, List.not_mem_nil, or_false] at hn
      rcases hn with rfl | rfl | rfl | rfl <;> rfl
    · intro t; rfl
    · intro t; simp [exSlice, show toString (3 : ℤ) = "3" from rfl]
    · intro t; simp [SumRule, exSlice]; ring
  · constructor <;> simp [SumRule, BetweenThresholds, lam, exSlice] <;> norm_num

/-- All hypotheses of `C98_angle_integral` and `C98_no_interference` hold for `exTwo` at every value of the other angles that is the same
for all symbols. -/
example (z : ℝ) : ∃ (m : AmplitudeModel) (ms : ℚ → AmplitudeModel) (ι : Interp),
    exTwo.formulate (some 2) true false = .ok m ∧ (∀ c ∈ exTwo.decay.chains, HelicityFree ({} : DefExpr).expression) ∧
    (∀ c ∈ exTwo.decay.chains, c.spectator.index = 1) ∧ ActualWigner ι ∧
    (∀ n : Fin 4, ∃ z : ℝ, ι.sym (zetaSymbol n 1 2) = z) ∧
    (∀ η x, ({} : DefExpr).expression.eval (withSymbol ι (decayAngle 2 3) x) η = ({} : DefExpr).expression.eval ι η) ∧
    (∀ J, (exSub J).decay.states = exTwo.decay.states) ∧
    (∀ J, (exSub J).decay.chains = exTwo.decay.chains.filter fun c => c.resonance.toP.spin = J) ∧
    (∀ J, Lineshapes (exSub J) fun _ => {}) ∧ ∀ J, (exSub J).formulate (some 2) true false = .ok (ms J) := by
  obtain ⟨m, hm, am⟩ := ex_formulate exTwo_standard (unit_lineshapes _ _ _ _) rfl rfl 2 (by simp)
  choose ms hms ams using fun J => ex_formulate (exSub_standard J) (unit_lineshapes _ _ _ _) rfl rfl 2 (by simp)
  refine ⟨m, ms, { exActual 0 with sym := fun _ => z }, hm, fun _ _ _ _ _ => rfl, ?_,
    fun j m m' x => by simp [exActual], fun _ => ⟨z, rfl⟩, fun η x => rfl, fun _ => rfl, fun _ => rfl,
    fun J => unit_lineshapes _ _ _ _, hms⟩
  intro c hc
  simp only [exTwo, List.mem_cons, List.not_mem_nil, or_false] at hc
  rcases hc with rfl | rfl <;> rfl

theorem angleValues_other {ρ : Sym → ℝ} {s : Sym} (h : s.name.toList.take 2 ∉ [['t', 'h'], ['\\', 'z']]) :
    angleValues ρ s = 0 := by
  unfold angleValues
  rw [dif_neg, dif_neg]
  · rintro ⟨e, i, k, r, hz⟩
    rw [zeta_sym hz] at h
    simp [Angles.zetaSym, String.toList_append] at h
  · rintro ⟨k, e, rfl, -⟩
    simp [thetaSym, String.toList_append] at h

/-- The hypotheses of `C98_breit_wigner` hold for both chains of `exTwo` and the values `exActual` along the line
`σ_1 = 28/3`, with the lineshapes of `BreitWignerBuilder` with all flags set. -/
example : ParametersFixed (fun t => exActual (exSlice t)) (exActual 0) 1 ∧
    ∃ dyn : Chain → DefExpr, ∀ c ∈ exTwo.decay.chains, ∃ R first, PlainChain c R first ∧ NumberedFinalState c ∧
      BreitWignerBuilder.call ⟨true, true, true, "PhaseSpaceFactor"⟩ c = .ok (dyn c) := by
  constructor
  · refine ⟨fun t s hs => ?_, fun t => ?_, fun _ => rfl, fun _ => rfl⟩
    · simp only [List.mem_cons, List.not_mem_nil, or_false, not_or] at hs
      show angleValues _ s = angleValues _ s
      rw [angleValues_other (by simp [hs]), angleValues_other (by simp [hs])]
    · show angleValues _ _ = angleValues _ _
      rw [angleValues_other (by simp [mandelstam, String.toList_append]),
        angleValues_other (by simp [mandelstam, String.toList_append])]
  · have hcall : ∀ c ∈ exTwo.decay.chains, ∃ e R first, PlainChain c R first ∧ NumberedFinalState c ∧
        BreitWignerBuilder.call ⟨true, true, true, "PhaseSpaceFactor"⟩ c = .ok e := by
      intro c hc
      simp only [exTwo, List.mem_cons, List.not_mem_nil, or_false] at hc
      rcases hc with rfl | rfl
      · have h1 : PlainChain exChainK ⟨"K*", "K^*", 1, some (-1), 9/10, 1/20⟩ true := rfl
        have h2 : NumberedFinalState exChainK := by show [(2 : ℤ), 3, 1].Perm [1, 2, 3]; decide
        obtain ⟨e, he⟩ := (C42_missing_ls ⟨true, true, true, "PhaseSpaceFactor"⟩ h1 h2).2 (by
          rw [ne_eq, (C42_missing_ls _ h1 h2).1]; simp [exChainK])
        exact ⟨e, _, _, h1, h2, he⟩
      · have h1 : PlainChain exChainS ⟨"K0*", "K_0^*", 0, some 1, 14/10, 1/4⟩ true := rfl
        have h2 : NumberedFinalState exChainS := by show [(2 : ℤ), 3, 1].Perm [1, 2, 3]; decide
        obtain ⟨e, he⟩ := (C42_missing_ls ⟨true, true, true, "PhaseSpaceFactor"⟩ h1 h2).2 (by
          rw [ne_eq, (C42_missing_ls _ h1 h2).1]; simp [exChainS])
        exact ⟨e, _, _, h1, h2, he⟩
    choose f hf using hcall
    classical
    refine ⟨fun c => if hc : c ∈ exTwo.decay.chains then f c hc else {}, fun c hc => ?_⟩
    obtain ⟨R, first, h⟩ := hf c hc
    exact ⟨R, first, by simpa only [dif_pos hc] using h⟩

end Verif.ThreeBody
