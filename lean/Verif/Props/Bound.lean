import Verif.Proofs.Bound
import Verif.Props.Projection
import Verif.Props.Interference
import Verif.Props.LineshapeBuilder
import Verif.Props.Dynamics
import Verif.Proofs.Exchange
import Verif.Props.Closure

/-! Property C115: upper bounds on the intensity. -/
namespace Verif.ThreeBody
open Verif Verif.Spec Verif.Spin Verif.Angles

variable {b : Builder} {dyn : Chain → DefExpr} {reference : Option ℤ} {cl uc : Bool} {m : AmplitudeModel} {ι : Interp}

/-- C115: the alignment of several subsystems. The root of the intensity is at most the sum over the subsystems `k` of
`√(Σ_λ |A^k_λ|²)`, for all real values of the angles and every reference subsystem. -/
theorem C115_subsystems (hd : Standard b.decay) (hdyn : Lineshapes b dyn) (hr : RefOk reference)
    (h : b.formulate reference cl uc = .ok m) (hw : ActualWigner ι) (ha : RealAngles ι) (η : Sym → ℚ) :
    √(m.intensity.eval ι η).re ≤ ∑ k ∈ subsystems b.decay, √(∑ l ∈ helicities b.decay, ‖symbolValue ι k l‖ ^ 2) ∧
    √(m.fullExpression.eval ι η).re ≤
      ∑ k ∈ subsystems b.decay, √(∑ l ∈ helicities b.decay, ‖definedValue m ι η k l‖ ^ 2) := by
  obtain ⟨ref, -, h1, h2⟩ := C30_intensity_value hd hdyn hr h ι η
  rw [h1, h2, Complex.ofReal_re, Complex.ofReal_re]
  exact ⟨sqrt_intensityOver_le hd hw ha _ ref _, sqrt_intensityOver_le hd hw ha _ ref _⟩

/-- C115: the alignment of a single subsystem. If all chains are in subsystem `k`, the intensity is `Σ_λ |A^k_λ|²`, for all real
values of the alignment angles and every reference subsystem. -/
theorem C115_one_subsystem (hd : Standard b.decay) (hdyn : Lineshapes b dyn) (hr : RefOk reference)
    (h : b.formulate reference cl uc = .ok m) (hw : ActualWigner ι) (ha : RealAngles ι) (η : Sym → ℚ)
    (hne : b.decay.chains ≠ []) {k : ℤ} (hk : ∀ c ∈ b.decay.chains, c.spectator.index = k) :
    m.intensity.eval ι η = ((∑ l ∈ helicities b.decay, ‖symbolValue ι k l‖ ^ 2 : ℝ) : ℂ) ∧
    m.fullExpression.eval ι η = ((∑ l ∈ helicities b.decay, ‖definedValue m ι η k l‖ ^ 2 : ℝ) : ℂ) := by
  obtain ⟨ref, -, h1, h2⟩ := C30_intensity_value hd hdyn hr h ι η
  have hs : subsystems b.decay = {k} := by
    ext x
    unfold subsystems
    rw [List.mem_toFinset, Finset.mem_singleton, List.mem_map]
    constructor
    · rintro ⟨c, hc, rfl⟩
      exact hk c hc
    · rintro rfl
      obtain ⟨c, hc⟩ := List.exists_mem_of_ne_nil _ hne
      exact ⟨c, hc, hk c hc⟩
  choose z hz using fun i : Fin 4 => ha.alignment i k ref
  have key : ∀ A, Spec.intensity ι b.decay ref A = ∑ l ∈ helicities b.decay, ‖A k l‖ ^ 2 := by
    intro A
    rw [← intensityOver_single hd actual_isWignerD hw.uses z (fun i _ => hz i) A, ← hs]
    rfl
  rw [h1, h2, key, key]
  exact ⟨rfl, rfl⟩

/-- C115: upper bound. The root of the value of a model is at most the sum over the chains of the modulus of the lineshape times
the root of the strength of the chain, for all real values of all angles and every reference subsystem. -/
theorem C115_bound (hd : Standard b.decay) (hdyn : Lineshapes b dyn) (hr : RefOk reference)
    (h : b.formulate reference cl uc = .ok m)
    (hfree : ∀ c ∈ b.decay.chains, HelicityFree (dyn c).expression)
    (hres : b.useProdHel = false → ∀ c ∈ b.decay.chains, c.resonance ≠ .state c.spectator)
    (hw : ActualWigner ι) (ha : RealAngles ι) (η : Sym → ℚ) {i j : ℤ → ℤ}
    (hij : ∀ k ∈ ([1, 2, 3] : List ℤ), EvenPerm (i k) (j k) k) :
    √(m.fullExpression.eval ι η).re ≤ (b.decay.chains.map fun c =>
      ‖(dyn c).expression.eval ι η‖ *
        √(chainStrength ι b uc (i c.spectator.index) (j c.spectator.index) c.spectator.index c)).sum := by
  obtain ⟨ref, -, hv⟩ := full_value hd hdyn hr h hfree hres η
  rw [hv ι, Complex.ofReal_re]
  refine (sqrt_intensityOver_le hd hw ha _ ref _).trans ?_
  have hstep : ∀ k ∈ subsystems b.decay, √(∑ l ∈ helicities b.decay,
      ‖subsystemValue ι b uc (fun c => (dyn c).expression.eval ι η) k l‖ ^ 2) ≤
      ((b.decay.chains.filter fun c => c.spectator.index = k).map fun c =>
        ‖(dyn c).expression.eval ι η‖ * √(chainStrength ι b uc (i k) (j k) k c)).sum := by
    intro k hk
    have h3 := Standard.subsystem hd ((mem_subsystems _ _).1 hk)
    have e : prodIds k = (i k, j k) := (evenPerm_ids (hij k h3)).symm ▸ rfl
    refine (l2_list _ _ _).trans (List.sum_le_sum fun c hc => ?_)
    rw [e]
    exact l2_chain hd (List.mem_filter.1 hc).1 hw ha _ _ _ _
  refine (Finset.sum_le_sum hstep).trans (le_of_eq ?_)
  exact sum_filter_index b.decay.chains (fun k c => ‖(dyn c).expression.eval ι η‖ * √(chainStrength ι b uc (i k) (j k) k c))
    fun c hc => List.mem_toFinset.2 (List.mem_map.2 ⟨c, hc, rfl⟩)

/-- C115: upper bound in the LS basis. The root of the value of a model with LS couplings at both vertices is at most the sum over
the chains of `|lineshape| · |coupling|`: the Clebsch-Gordan factors and the angular functions do not add up to more
than 1. -/
theorem C115_ls_bound (hd : Standard b.decay) (hdyn : Lineshapes b dyn) (hr : RefOk reference)
    (h : b.formulate reference cl uc = .ok m)
    (hfree : ∀ c ∈ b.decay.chains, HelicityFree (dyn c).expression)
    (hres : ∀ c ∈ b.decay.chains, c.resonance ≠ .state c.spectator)
    (hp : b.useProdHel = false) (hq : b.useDecHel = false) {P Q : Chain → LS}
    (hls : ∀ c ∈ b.decay.chains, c.incomingLs = some (P c) ∧ c.outgoingLs = some (Q c))
    (hcg : UsesClebschGordan ι) (hw : ActualWigner ι) (ha : RealAngles ι) (η : Sym → ℚ) :
    √(m.fullExpression.eval ι η).re ≤ (b.decay.chains.map fun c =>
      ‖(dyn c).expression.eval ι η‖ * ‖lsCoupling ι c uc (P c) (Q c)‖).sum := by
  refine (C115_bound hd hdyn hr h hfree (fun _ => hres) hw ha η (i := fun k => (prodIds k).1) (j := fun k => (prodIds k).2)
    fun k hk => evenPerm_prodIds hk).trans (List.sum_le_sum fun c hc => ?_)
  have hk := ((Standard.chain hd hc).2.1 c.spectator (by simp)).1
  refine mul_le_mul_of_nonneg_left ?_ (norm_nonneg _)
  rw [← Real.sqrt_sq (norm_nonneg (lsCoupling ι c uc (P c) (Q c)))]
  exact Real.sqrt_le_sqrt (chainStrength_ls hd hc hcg hp hq (hls c hc).1 (hls c hc).2 (evenPerm_prodIds hk))

/-- C115: a model with LS couplings and Breit-Wigner lineshapes of constant width is bounded on the whole Dalitz plot: the root of
the intensity is at most the sum of `|coupling| / |m Γ|`, for all real values of the Mandelstam variables and the
angles. -/
theorem C115_breit_wigner (hd : Standard b.decay) (hdyn : Lineshapes b dyn) (hr : RefOk reference)
    (h : b.formulate reference cl uc = .ok m) {bw : BreitWignerBuilder} {R : Chain → Particle} {first : Chain → Bool}
    (hbw : bw.energyDependentWidth = false ∧ bw.decayFormFactor = false ∧ bw.productionFormFactor = false)
    (hl : ∀ c ∈ b.decay.chains, PlainChain c (R c) (first c) ∧ NumberedFinalState c ∧ bw.call c = .ok (dyn c))
    (hres : ∀ c ∈ b.decay.chains, c.resonance ≠ .state c.spectator)
    (hp : b.useProdHel = false) (hq : b.useDecHel = false) {P Q : Chain → LS}
    (hls : ∀ c ∈ b.decay.chains, c.incomingLs = some (P c) ∧ c.outgoingLs = some (Q c))
    (hcg : UsesClebschGordan ι) (hw : ActualWigner ι) (ha : RealAngles ι) (η : Sym → ℚ) {σ : ℤ → ℝ} {M Γ : Chain → ℝ}
    (hσ : ∀ k, ι.sym (mandelstam k) = σ k)
    (hM : ∀ c ∈ b.decay.chains, ι.sym (massOfResonance (R c)) = M c ∧ ι.sym (widthOfResonance (R c)) = Γ c ∧ M c * Γ c ≠ 0) :
    √(m.fullExpression.eval ι η).re ≤ (b.decay.chains.map fun c =>
      ‖lsCoupling ι c uc (P c) (Q c)‖ / |M c * Γ c|).sum := by
  have hval : ∀ c ∈ b.decay.chains, ∀ (ι : Interp) (η : Sym → ℚ), (dyn c).expression.eval ι η =
      breitWignerValue (ι.sym (mandelstam c.spectator.index)) (ι.sym (massOfResonance (R c))) (ι.sym (widthOfResonance (R c))) := by
    intro c hc ι η
    rw [C42_value (hl c hc).1 (hl c hc).2.1 (hl c hc).2.2]
    unfold lineshapeValue
    simp only [hbw.1, hbw.2.1, hbw.2.2]
    simp
  refine (C115_ls_bound hd hdyn hr h (fun c hc ι η η' => by rw [hval c hc, hval c hc]) hres hp hq hls hcg hw ha η).trans
    (List.sum_le_sum fun c hc => ?_)
  obtain ⟨h1, h2, h3⟩ := hM c hc
  rw [hval c hc, hσ, h1, h2, div_eq_inv_mul, ← one_div]
  exact mul_le_mul_of_nonneg_right (C37_bounded _ _ _ h3).2.1 (norm_nonneg _)

theorem norm_lsFactor_zero (hcg : UsesClebschGordan ι) : ‖lsFactor ι 0 0 0 ⟨0, 0⟩ 0 0‖ = 1 := by
  have hs : DecaySpins 0 0 0 := ⟨⟨le_refl _, 0, by norm_num⟩, ⟨le_refl _, 0, by norm_num⟩, ⟨le_refl _, 0, by norm_num⟩, 0, by norm_num⟩
  have hmem : ((0 : ℤ), (0 : ℚ)) ∈ generateLsCouplings 0 0 0 0 := by
    rw [(C04_ls_contents _ _ _ _).1]
    exact ⟨le_refl _, le_refl _, ⟨0, by norm_num⟩, by norm_num, by norm_num, by norm_num⟩
  have h := Cg.ls_orthogonal_spins hcg hs (maxL := 0) (by norm_num) hmem hmem
  have hv : vertexHelicities 0 0 0 = {(0, 0)} := by
    classical
    unfold vertexHelicities
    rw [projections_zero]
    ext x
    simp only [Finset.singleton_product_singleton, Finset.mem_filter, Finset.mem_singleton]
    exact ⟨fun h => h.1, fun h => ⟨h, by subst h; exact ⟨by norm_num, by norm_num, 0, by norm_num⟩⟩⟩
  rw [hv, Finset.sum_singleton, if_pos rfl] at h
  have h2 := congrArg norm h
  rw [norm_mul, norm_one] at h2
  have h3 := norm_nonneg (lsFactor ι 0 0 0 ⟨0, 0⟩ 0 0)
  simp only at h2
  nlinarith

/-- C115: the bound cannot be improved: for a chain with spin 0 in a decay of spinless particles, the value is
`|lineshape|² |coupling|²`. -/
theorem C115_attained (hd : Standard b.decay) (hdyn : Lineshapes b dyn) (hr : RefOk reference)
    (h : b.formulate reference cl uc = .ok m)
    (hfree : ∀ c ∈ b.decay.chains, HelicityFree (dyn c).expression)
    (hres : ∀ c ∈ b.decay.chains, c.resonance ≠ .state c.spectator)
    (hp : b.useProdHel = false) (hq : b.useDecHel = false) (h0 : ∀ i ∈ ([0, 1, 2, 3] : List ℤ), b.decay.spin i = 0)
    {c : Chain} (hc : b.decay.chains = [c]) (hJ : c.resonance.toP.spin = 0)
    (hls : c.incomingLs = some ⟨0, 0⟩ ∧ c.outgoingLs = some ⟨0, 0⟩)
    (hcg : UsesClebschGordan ι) (hw : ActualWigner ι) (ha : RealAngles ι) (η : Sym → ℚ) :
    √(m.fullExpression.eval ι η).re = ‖(dyn c).expression.eval ι η‖ * ‖lsCoupling ι c uc ⟨0, 0⟩ ⟨0, 0⟩‖ := by
  classical
  have hmem : c ∈ b.decay.chains := by rw [hc]; simp
  obtain ⟨hpar, hst, -⟩ := Standard.chain hd hmem
  have f := fun s hs => hst s hs
  have sp : ∀ s ∈ [c.product1, c.product2, c.spectator], s.spin = 0 := by
    intro s hs
    rw [(hst s hs).2]
    exact h0 _ (List.mem_cons_of_mem _ (hst s hs).1)
  have e0 : c.parent.spin = 0 := by rw [hpar]; exact h0 0 (by simp)
  have hH : couplings ι b c uc 0 0 0 0 = lsCoupling ι c uc ⟨0, 0⟩ ⟨0, 0⟩ := by
    unfold couplings lsCoupling couplingName coefficientName
    simp only [hp, hq, hls.1, hls.2, couplingIndices]
    rfl
  rw [C78_spinless hd hdyn hr h hfree (fun _ => hres) h0, hc, Complex.ofReal_re, Real.sqrt_sq (norm_nonneg _),
    List.filter_eq_self.2 (by
      intro x hx
      rw [List.mem_singleton.1 hx, hJ]
      exact decide_eq_true ⟨le_refl _, 0, by norm_num⟩)]
  simp only [List.map_cons, List.map_nil, List.sum_cons, List.sum_nil, add_zero, norm_mul, hH]
  obtain ⟨x, hx⟩ : ∃ x : ℝ, ι.sym (helicityAngle c.spectator.index) = x := by
    have := (hst c.spectator (by simp)).1
    simp only [List.mem_cons, List.not_mem_nil, or_false] at this
    rcases this with e | e | e <;> rw [e]
    · exact ha.decay 2 3
    · exact ha.decay 3 1
    · exact ha.decay 1 2
  have hwig : ι.wig c.resonance.toP.spin 0 0 (ι.sym (helicityAngle c.spectator.index)) = 1 := by
    rw [hx, hw, hJ, if_pos ⟨by norm_num, by norm_num, 0, by norm_num⟩, Wigner.wignerD_zero]
    norm_num
  have hdec : ‖decayFactor ι b c (fun _ => 0)‖ = 1 := by
    unfold decayFactor
    simp only [hq, hls.2, hJ, sp c.product1 (by simp), sp c.product2 (by simp)]
    exact norm_lsFactor_zero hcg
  have hprod : ‖productionFactor ι b c 0 0‖ = 1 := by
    unfold productionFactor
    simp only [hp, hls.1, hJ, sp c.spectator (by simp), e0]
    split <;> exact norm_lsFactor_zero hcg
  rw [hwig, hdec, hprod]
  simp

/-! ### Examples -/

open Classical in
/-- All symbols and couplings are 1; actual Wigner functions and Clebsch-Gordan coefficients. -/
noncomputable def exOnes : Interp :=
  ⟨fun _ => 1, fun _ _ _ => 1, fun j m m' z => if Projection j m' then (Wigner.wignerD j m m' z.re : ℂ) else 0,
    fun j1 m1 j2 m2 J M => clebschGordan j1 m1 j2 m2 J M, fun _ _ _ _ _ => 1, fun _ _ _ _ _ _ _ _ => 1, fun _ _ _ => 1⟩

theorem exOnes_actual : ActualWigner exOnes := fun j m m' x => by simp [exOnes]

theorem exOnes_cg : UsesClebschGordan exOnes := fun _ _ _ _ _ _ => rfl

theorem exOnes_angles : RealAngles exOnes := ⟨fun _ _ => ⟨1, Complex.ofReal_one.symm⟩, fun _ _ _ => ⟨1, Complex.ofReal_one.symm⟩⟩

/-- The example decay with LS couplings 1 and without lineshapes: the two chains give an intensity of at most 4. -/
example : ∃ m, (exBuilder false false false).formulate (some 1) true false = .ok m ∧
    √(m.fullExpression.eval exOnes fun _ => 0).re ≤ 2 := by
  obtain ⟨m, hm⟩ := exBuilder_ok false false false true false
  refine ⟨m, hm, (C115_ls_bound (b := exBuilder false false false) exDecay_standard (exBuilder_lineshapes _ _ _)
    (by rintro x ⟨⟩; simp) hm (fun _ _ => exFree) ?_ rfl rfl (P := fun c => c.incomingLs.getD ⟨0, 0⟩)
    (Q := fun c => c.outgoingLs.getD ⟨0, 0⟩) ?_ exOnes_cg exOnes_actual exOnes_angles _).trans ?_⟩
  · intro c hc
    simp only [exBuilder, exDecay, List.mem_cons, List.not_mem_nil, or_false] at hc
    rcases hc with rfl | rfl <;> simp [exChainK, exChainL]
  · intro c hc
    simp only [exBuilder, exDecay, List.mem_cons, List.not_mem_nil, or_false] at hc
    rcases hc with rfl | rfl <;> simp [exChainK, exChainL]
  · simp only [exBuilder, exDecay, List.map_cons, List.map_nil, List.sum_cons, List.sum_nil, lsCoupling, exOnes,
      Bool.false_eq_true, if_false, mul_one, norm_one, show ∀ ι η, ({} : DefExpr).expression.eval ι η = 1 by
        intro ι η; simp [Expr.eval]]
    norm_num

/-- The example with one chain. -/
example : ∃ m, (exWithoutL true true false).formulate (some 3) true false = .ok m ∧
    m.intensity.eval exOnes (fun _ => 0) = 4 := by
  have hd' : Standard (exWithoutL true true false).decay :=
    standard_filter (keep := fun c => c.spectator.index = 1) exDecay_standard rfl rfl
  obtain ⟨m, hm, -⟩ := ex_formulate hd' (unit_lineshapes _ _ _ _) rfl rfl 3 (by simp)
  refine ⟨m, hm, ?_⟩
  rw [(C115_one_subsystem hd' (unit_lineshapes _ _ _ _) (by rintro x ⟨⟩; simp) hm exOnes_actual exOnes_angles _
    (by simp [exWithoutL]) (k := 1) (by simp [exWithoutL, exChainK, exState])).1]
  have hc : (helicities (exWithoutL true true false).decay).card = 4 := by
    unfold helicities
    rw [Fintype.card_piFinset, Fin.prod_univ_four]
    decide +kernel
  simp only [show ∀ l, ‖symbolValue exOnes 1 l‖ ^ 2 = 1 by intro l; simp [symbolValue, exOnes]]
  simp [hc]

/-- The `K*` of the example with a Breit-Wigner of constant width. -/
def exConstantWidth : BreitWignerBuilder := ⟨false, false, false, "PhaseSpaceFactor"⟩

def exConstantBuilder : Builder :=
  { exWithoutL false false false with
    dynamics := ((Configurator.init ⟨exStates, [exChainK]⟩).registerBuilder (.name "K*") exConstantWidth.call).2 }

example : ∃ m, exConstantBuilder.formulate (some 2) true false = .ok m ∧ √(m.fullExpression.eval exOnes fun _ => 0).re ≤ 1 := by
  have hd' : Standard exConstantBuilder.decay :=
    standard_filter (keep := fun c => c.spectator.index = 1) exDecay_standard rfl rfl
  obtain ⟨e, he⟩ : ∃ e, exConstantWidth.call exChainK = .ok e := by
    refine (C42_missing_ls exConstantWidth exK_plain exK_numbered).2 ?_
    rw [ne_eq, (C42_missing_ls exConstantWidth exK_plain exK_numbered).1]
    simp [exChainK]
  have hl : Lineshapes exConstantBuilder fun _ => e := by
    intro c hc
    simp only [exConstantBuilder, exWithoutL, List.mem_cons, List.not_mem_nil, or_false] at hc
    subst hc
    refine ⟨exConstantWidth.call, ?_, he⟩
    change Except.ok ((PyDict.get? [(exChainK, exConstantWidth.call)] exChainK).getD unitDynamics) = _
    rw [PyDict.get?_cons, if_pos rfl]; rfl
  obtain ⟨P, hP, -⟩ := formulate_ok (b := exConstantBuilder) (reference := some 2) hd' hl (ref := 2) rfl (by simp) true false (by
    rw [missing_iff (b := exConstantBuilder) hd']
    rintro ⟨-, c, hc, h⟩
    simp only [exConstantBuilder, exWithoutL, List.mem_cons, List.not_mem_nil, or_false] at hc
    subst hc
    exact h ⟨fun _ => by simp [exChainK], fun _ => by simp [exChainK]⟩)
  refine ⟨_, hP, (C115_breit_wigner hd' hl (by rintro x ⟨⟩; simp) hP (bw := exConstantWidth) (first := fun _ => true)
    (R := fun _ => ⟨"K*", "K^*", 1, some (-1), 9/10, 1/20⟩) ⟨rfl, rfl, rfl⟩ ?_ ?_ rfl rfl
    (P := fun c => c.incomingLs.getD ⟨0, 0⟩) (Q := fun c => c.outgoingLs.getD ⟨0, 0⟩) ?_ exOnes_cg exOnes_actual exOnes_angles _
    (σ := fun _ => 1) (M := fun _ => 1) (Γ := fun _ => 1) (fun _ => Complex.ofReal_one.symm) ?_).trans ?_⟩
  · intro c hc
    simp only [exConstantBuilder, exWithoutL, List.mem_cons, List.not_mem_nil, or_false] at hc
    subst hc
    exact ⟨exK_plain, exK_numbered, he⟩
  · simp [exConstantBuilder, exWithoutL, exChainK]
  · simp [exConstantBuilder, exWithoutL, exChainK]
  · intro c _
    exact ⟨Complex.ofReal_one.symm, Complex.ofReal_one.symm, by norm_num⟩
  · simp [exConstantBuilder, exWithoutL, lsCoupling, exOnes]

/-- A decay of spinless particles with one chain with a scalar resonance. -/
def exKappa : Node :=
  .isobar (.state (exState "D" 0 2 0))
    (.isobar (.particle ⟨"kappa", "\\kappa", 0, some 1, 7/10, 1/2⟩)
      (.leaf (.state (exState "pi" 0 (1/7) 2))) (.leaf (.state (exState "K" 0 (1/2) 3))) (some ⟨0, 0⟩))
    (.leaf (.state (exState "pi" 0 (1/7) 1))) (some ⟨0, 0⟩)

def exChainKappa : Chain :=
  ⟨exKappa, exState "D" 0 2 0, .particle ⟨"kappa", "\\kappa", 0, some 1, 7/10, 1/2⟩,
    exState "pi" 0 (1/7) 2, exState "K" 0 (1/2) 3, exState "pi" 0 (1/7) 1, some ⟨0, 0⟩, some ⟨0, 0⟩⟩

def exKappaDecay : Decay := ⟨spStates, [exChainKappa]⟩

theorem exKappaDecay_standard : Standard exKappaDecay := by
  refine ⟨⟨?_, ?_⟩, by decide, spDecay_standard.3, spDecay_standard.4, ?_⟩
  · have hf : (finalStateDict spStates).map Prod.snd =
        [exState "pi" 0 (1/7) 1, exState "pi" 0 (1/7) 2, exState "K" 0 (1/2) 3] := rfl
    have : checkChains (exState "D" 0 2 0) ((finalStateDict spStates).map Prod.snd) exKappaDecay.chains = .ok () := by
      rw [checkChains_ok, hf]
      intro c hc
      simp only [exKappaDecay, List.mem_cons, List.not_mem_nil, or_false] at hc
      subst hc
      refine ⟨rfl, fun s => ?_⟩
      simp only [exChainKappa, List.mem_cons, List.not_mem_nil, or_false]
    have h0 : initialState exKappaDecay.states = .ok (exState "D" 0 2 0) := rfl
    unfold Decay.new
    rw [h0]
    simp only [bind, Except.bind]
    rw [show exKappaDecay.states = spStates from rfl, this]; rfl
  · intro c hc
    simp only [exKappaDecay, List.mem_cons, List.not_mem_nil, or_false] at hc
    subst hc
    exact (chainNew_shape _ _ _ _ _ _ _ exKappa (.inl rfl)).trans rfl
  · intro c hc
    simp only [exKappaDecay, List.mem_cons, List.not_mem_nil, or_false] at hc
    subst hc
    exact ⟨0, by norm_num [exChainKappa, Obj.toP]⟩

example : ∃ m, (⟨exKappaDecay, Configurator.init exKappaDecay, false, false, false⟩ : Builder).formulate (some 1) true false =
      .ok m ∧ √(m.fullExpression.eval exOnes fun _ => 0).re = 1 := by
  have hl := unit_lineshapes exKappaDecay false false false
  obtain ⟨P, hP, -⟩ := formulate_ok (b := ⟨exKappaDecay, Configurator.init exKappaDecay, false, false, false⟩)
    (reference := some 1) exKappaDecay_standard hl (ref := 1) rfl (by simp) true false (by
    rw [missing_iff (b := ⟨exKappaDecay, Configurator.init exKappaDecay, false, false, false⟩) exKappaDecay_standard]
    rintro ⟨-, c, hc, h⟩
    simp only [exKappaDecay, List.mem_cons, List.not_mem_nil, or_false] at hc
    subst hc
    exact h ⟨fun _ => by simp [exChainKappa], fun _ => by simp [exChainKappa]⟩)
  refine ⟨_, hP, ?_⟩
  rw [C115_attained exKappaDecay_standard hl (by rintro x ⟨⟩; simp) hP (fun _ _ => exFree)
    (by simp [exKappaDecay, exChainKappa]) rfl rfl spDecay_spinless (c := exChainKappa) rfl rfl ⟨rfl, rfl⟩
    exOnes_cg exOnes_actual exOnes_angles]
  simp [lsCoupling, exOnes, Expr.eval]

end Verif.ThreeBody
