import Verif.Proofs.Units
import Verif.Props.Superposition
import Verif.Props.Closure
import Verif.Props.Exchange
import Verif.Props.LineshapeBuilder

/-! Property C83: the unit of mass does not matter. -/
namespace Verif.ThreeBody
open Verif Verif.Spec Verif.Spin Verif.Angles

variable {b : Builder} {dyn : Chain → DefExpr} {reference : Option ℤ} {cl uc : Bool}
  {m : AmplitudeModel} {ι ι' : Interp} {ρ ρ' : Sym → ℝ} {t : ℝ}

theorem provided_scaled (hm : ∀ i ∈ ([0, 1, 2, 3] : List ℤ),
      ρ' ⟨"m" ++ toString i, .nonneg⟩ = t * ρ ⟨"m" ++ toString i, .nonneg⟩)
    (hs : ∀ i ∈ ([1, 2, 3] : List ℤ),
      ρ' ⟨"sigma" ++ toString i, .nonneg⟩ = t ^ 2 * ρ ⟨"sigma" ++ toString i, .nonneg⟩) :
    ∀ s ∈ providedSymbols, ρ' s = t ^ symDim s * ρ s := by
  have t0 : "m" ++ toString (0 : ℤ) = "m0" := by decide +kernel
  have t1 : "m" ++ toString (1 : ℤ) = "m1" := by decide +kernel
  have t2 : "m" ++ toString (2 : ℤ) = "m2" := by decide +kernel
  have t3 : "m" ++ toString (3 : ℤ) = "m3" := by decide +kernel
  have u1 : "sigma" ++ toString (1 : ℤ) = "sigma1" := by decide +kernel
  have u2 : "sigma" ++ toString (2 : ℤ) = "sigma2" := by decide +kernel
  have u3 : "sigma" ++ toString (3 : ℤ) = "sigma3" := by decide +kernel
  have m0 := hm 0 (by simp)
  have m1 := hm 1 (by simp)
  have m2 := hm 2 (by simp)
  have m3 := hm 3 (by simp)
  have s1 := hs 1 (by simp)
  have s2 := hs 2 (by simp)
  have s3 := hs 3 (by simp)
  rw [t0] at m0
  rw [t1] at m1
  rw [t2] at m2
  rw [t3] at m3
  rw [u1] at s1
  rw [u2] at s2
  rw [u3] at s3
  have one : ∀ s, symDim s = 1 → t ^ symDim s = t := fun s h => by rw [h, zpow_one]
  have two : ∀ s, symDim s = 2 → t ^ symDim s = t ^ 2 := fun s h => by rw [h]; rfl
  intro s hs
  simp only [providedSymbols, List.mem_cons, List.not_mem_nil, or_false] at hs
  rcases hs with rfl | rfl | rfl | rfl | rfl | rfl | rfl
  · rw [one _ (by decide)]; exact m0
  · rw [one _ (by decide)]; exact m1
  · rw [one _ (by decide)]; exact m2
  · rw [one _ (by decide)]; exact m3
  · rw [two _ (by decide)]; exact s1
  · rw [two _ (by decide)]; exact s2
  · rw [two _ (by decide)]; exact s3

/-- C83: alignment angles and helicity angles do not depend on the unit of mass. -/
theorem C83_angles (ht : 0 < t) (hm : ∀ i ∈ ([0, 1, 2, 3] : List ℤ),
      ρ' ⟨"m" ++ toString i, .nonneg⟩ = t * ρ ⟨"m" ++ toString i, .nonneg⟩)
    (hs : ∀ i ∈ ([1, 2, 3] : List ℤ),
      ρ' ⟨"sigma" ++ toString i, .nonneg⟩ = t ^ 2 * ρ ⟨"sigma" ++ toString i, .nonneg⟩) :
    (∀ i ∈ ([0, 1, 2, 3] : List ℤ), ∀ k ∈ ([1, 2, 3] : List ℤ), ∀ r ∈ ([1, 2, 3] : List ℤ), ∃ s e,
      formulateZetaAngle i k r = .ok (s, e) ∧ e.eval ρ' = e.eval ρ) ∧
    ∀ i j k, EvenPerm i j k → ∃ s e, formulateScatteringAngle i j = .ok (s, e) ∧ e.eval ρ' = e.eval ρ := by
  have h := provided_scaled hm hs
  constructor
  · intro i hi k hk r hr
    exact ⟨_, _, zeta_eq hi hk hr, eval_dimensionless ht (zeta_dim hi hk hr) (zeta_symbols hi hk hr) h⟩
  · intro i j k hp
    have hk : k ∈ ([1, 2, 3] : List ℤ) := by
      rcases hp with h | h | h <;> injection h with _ h <;> injection h with _ h <;> rw [h] <;> decide
    have hij : (i, j) = prodIds k := by
      rcases hp with h | h | h <;> injection h with h1 h <;> injection h with h2 h3 <;> rw [h1, h2, h3] <;> decide
    have h1 := theta_eq hk
    rw [← hij] at h1
    exact ⟨_, _, h1, eval_dimensionless ht (theta_dim hk) (theta_symbols hk) h⟩

theorem rescaled_provided (hι : Rescaled t ι ι') :
    ∀ s ∈ providedSymbols, (ι'.sym s).re = t ^ symDim s * (ι.sym s).re := by
  refine provided_scaled (ρ := fun s => (ι.sym s).re) (ρ' := fun s => (ι'.sym s).re) ?_ ?_
  · intro i _
    have := hι.symbols _ _ (.stateMass i)
    rw [zpow_one] at this
    have e : ι'.sym ⟨"m" ++ toString i, .nonneg⟩ = t * ι.sym ⟨"m" ++ toString i, .nonneg⟩ := this
    simp only [e, Complex.re_ofReal_mul]
  · intro i _
    have e : ι'.sym ⟨"sigma" ++ toString i, .nonneg⟩ = (t : ℂ) ^ (2 : ℤ) * ι.sym ⟨"sigma" ++ toString i, .nonneg⟩ :=
      hι.symbols _ _ (.mandelstam i)
    have e2 : ((t : ℂ) ^ (2 : ℤ)) = ((t ^ 2 : ℝ) : ℂ) := by push_cast; rfl
    rw [e2] at e
    simp only [e, Complex.re_ofReal_mul]

theorem intensity_scaled {d : Decay} {r : ℤ} {A A' : ℤ → (Fin 4 → ℚ) → ℂ} {n : ℤ} (ht : 0 < t)
    (hw : ι.wig = ι'.wig)
    (hz : ∀ k ∈ subsystems d, ∀ i : Fin 4, d.spin i ≠ 0 → ι'.sym (zetaSymbol i k r) = ι.sym (zetaSymbol i k r))
    (hA : ∀ k ∈ subsystems d, ∀ l ∈ helicities d, A' k l = (t : ℂ) ^ n * A k l) :
    Spec.intensity ι' d r A' = t ^ (2 * n) * Spec.intensity ι d r A := by
  unfold Spec.intensity
  rw [Finset.mul_sum]
  refine Finset.sum_congr rfl fun l _ => ?_
  have hrot : ∀ k ∈ subsystems d, ∀ (i : Fin 4) x y, rotation ι' d r k i x y = rotation ι d r k i x y := by
    intro k hk i x y
    unfold rotation
    split_ifs with h
    · rfl
    · rw [hz k hk i h, hw]
  have : aligned ι' d r A' l = (t : ℂ) ^ n * aligned ι d r A l := by
    unfold aligned
    rw [Finset.mul_sum]
    refine Finset.sum_congr rfl fun l' hl' => ?_
    rw [Finset.mul_sum]
    refine Finset.sum_congr rfl fun k hk => ?_
    have R := hrot k hk
    rw [hA k hk l' hl', R, R, R, R]
    ring
  have hn : ‖(t : ℂ) ^ n‖ = t ^ n := by
    rw [norm_zpow, Complex.norm_real, Real.norm_of_nonneg ht.le]
  have h2 : t ^ (2 * n) = (t ^ n) ^ 2 := by rw [mul_comm, zpow_mul]; rfl
  rw [this, norm_mul, hn, mul_pow, h2]

/-- C83: if all lineshapes have the same dimension `n`, a change of the unit of mass multiplies the intensity by
one overall factor, `t ^ (2 * n)`, for all kinematic points and all values of the parameters. -/
theorem C83_homogeneous (hd : Standard b.decay) (hdyn : Lineshapes b dyn) (hr : RefOk reference)
    (h : b.formulate reference cl uc = .ok m)
    (hfree : ∀ c ∈ b.decay.chains, HelicityFree (dyn c).expression)
    (hres : b.useProdHel = false → ∀ c ∈ b.decay.chains, c.resonance ≠ .state c.spectator)
    (ht : 0 < t) (hι : Rescaled t ι ι') (hcov : Covariant ι t)
    (ha : ∀ x ∈ m.angleDefs, Computes ι x) (ha' : ∀ x ∈ m.angleDefs, Computes ι' x) {n : ℤ}
    (hdim : ∀ c ∈ b.decay.chains, HasDim SymbolDim (dyn c).expression n) (η : Sym → ℚ) :
    m.fullExpression.eval ι' η = (t : ℂ) ^ (2 * n) * m.fullExpression.eval ι η := by
  obtain ⟨r, hu, e⟩ := full_value hd hdyn hr h hfree hres η
  rw [e, e]
  have hk3 : ∀ {k}, k ∈ subsystems b.decay → k ∈ ([1, 2, 3] : List ℤ) := fun hk =>
    Standard.subsystem hd ((mem_subsystems _ _).1 hk)
  obtain ⟨r', P, hu', hr3, -, rfl, -⟩ := formulate_inv hd hdyn hr h
  obtain rfl := usedRef_unique hu hu'
  have hr3 : r ∈ ([1, 2, 3] : List ℤ) := by simpa using hr3
  have hprov := rescaled_provided hι
  have hline : ∀ c ∈ b.decay.chains, (dyn c).expression.eval ι' η = (t : ℂ) ^ n * (dyn c).expression.eval ι η :=
    fun c hc => C41_dimension_sound (hdim c hc) ι ι' η t ht hcov
      ⟨hι.functions.ff.symm, hι.functions.edw.symm, hι.functions.bmom.symm⟩ hι.symbols
  rw [← Complex.ofReal_zpow, ← Complex.ofReal_mul]
  refine congrArg _ (intensity_scaled ht hι.functions.wig ?_ ?_)
  · intro k hk i hi
    have hi4 : (i : ℤ) ∈ ([0, 1, 2, 3] : List ℤ) := by fin_cases i <;> decide
    have hmem := PyDict.mem_of_get? (angle_get?_zeta (dyn := dyn) (cl := cl) (uc := uc) (P := P) hd
      hr3 hi4 ((mem_subsystems _ _).1 hk) (by rw [spins_eq _ hi4]; exact hi))
    obtain ⟨v, g1, g2⟩ := ha _ hmem
    obtain ⟨v', g1', g2'⟩ := ha' _ hmem
    have := eval_dimensionless (ρ := fun s => (ι.sym s).re) (ρ' := fun s => (ι'.sym s).re) ht
      (zeta_dim hi4 (hk3 hk) hr3) (zeta_symbols hi4 (hk3 hk) hr3) hprov
    rw [g1, g1'] at this
    injection this with this
    exact g2'.trans ((congrArg _ this).trans g2.symm)
  · intro k hk l hl
    have hmem := PyDict.mem_of_get? (angle_get?_theta (dyn := dyn) (ref := r) (cl := cl) (uc := uc)
        (P := P) hd (subsystemIds_subset hd ((mem_subsystems _ _).1 hk)) (helicities_tuple hd hl))
    have hθ : ι'.sym (thetaSym (prodIds k).1 (prodIds k).2) = ι.sym (thetaSym (prodIds k).1 (prodIds k).2) := by
      obtain ⟨v, g1, g2⟩ := ha _ hmem
      obtain ⟨v', g1', g2'⟩ := ha' _ hmem
      have := eval_dimensionless (ρ := fun s => (ι.sym s).re) (ρ' := fun s => (ι'.sym s).re) ht
        (theta_dim (hk3 hk)) (theta_symbols (hk3 hk)) hprov
      rw [g1, g1'] at this
      injection this with this
      exact g2'.trans ((congrArg _ this).trans g2.symm)
    unfold subsystemValue
    rw [← List.sum_map_mul_left]
    refine congrArg List.sum (List.map_congr_left fun c hc => ?_)
    have hc := (List.mem_filter.1 hc).1
    have f1 : ∀ x y z w, couplings ι' b c uc x y z w = couplings ι b c uc x y z w := by
      intro x y z w
      unfold couplings
      rw [hι.couplings]
    have f2 : decayFactor ι' b c (byId l) = decayFactor ι b c (byId l) := by
      unfold decayFactor lsFactor
      rw [hι.functions.cg]
    have f3 : ∀ x y, productionFactor ι' b c x y = productionFactor ι b c x y := by
      intro x y
      unfold productionFactor lsFactor
      rw [hι.functions.cg]
    have hθ' : ι'.sym ⟨"theta_" ++ toString (prodIds k).1 ++ toString (prodIds k).2, .real⟩ =
      ι.sym ⟨"theta_" ++ toString (prodIds k).1 ++ toString (prodIds k).2, .real⟩ := hθ
    unfold chainValue
    dsimp only
    rw [f1, f2, f3, hθ', ← hι.functions.wig, hline c hc]
    split <;> ring

theorem plain_resonance {c : Chain} {R : Particle} {first : Bool} (hp : PlainChain c R first)
    (hc : Chain.new c.decay = .ok c) : c.resonance = .particle R := by
  have hs : c.decay = .isobar (.state c.parent) (.isobar (.particle R) (.leaf (.state c.product1))
        (.leaf (.state c.product2)) c.outgoingLs) (.leaf (.state c.spectator)) c.incomingLs ∨
      c.decay = .isobar (.state c.parent) (.leaf (.state c.spectator)) (.isobar (.particle R)
        (.leaf (.state c.product1)) (.leaf (.state c.product2)) c.outgoingLs) c.incomingLs := by
    cases first
    · exact .inr hp
    · exact .inl hp
  have := (chainNew_shape _ _ _ _ _ _ _ _ hs).symm.trans hc
  simp only [Node.toParticle] at this
  split_ifs at this
  exact (congrArg Chain.resonance (Except.ok.inj this)).symm

/-- C83 (partial: only without the form factor of the decay vertex, which `C83_default_fails` excludes): with
Breit-Wigner lineshapes from one builder, the intensity does not depend on the unit of mass if widths depend on
the energy, and it has dimension `-4` if they do not. -/
theorem C83_breit_wigner_partial {bw : BreitWignerBuilder} (hbw : bw.decayFormFactor = false)
    (hd : Standard b.decay) (hdyn : Lineshapes b dyn) (hr : RefOk reference)
    (h : b.formulate reference cl uc = .ok m)
    (hlines : ∀ c ∈ b.decay.chains, bw.call c = .ok (dyn c) ∧
      (∃ R first, PlainChain c R first) ∧ NumberedFinalState c)
    (ht : 0 < t) (hι : Rescaled t ι ι') (hcov : Covariant ι t)
    (ha : ∀ x ∈ m.angleDefs, Computes ι x) (ha' : ∀ x ∈ m.angleDefs, Computes ι' x) (η : Sym → ℚ) :
    (bw.energyDependentWidth = true → m.fullExpression.eval ι' η = m.fullExpression.eval ι η) ∧
    (bw.energyDependentWidth = false → (t : ℂ) ^ 4 * m.fullExpression.eval ι' η = m.fullExpression.eval ι η) := by
  have t0 : (t : ℂ) ≠ 0 := by exact_mod_cast ht.ne'
  have key := C83_homogeneous (n := if bw.energyDependentWidth then 0 else -2) hd hdyn hr h ?_ ?_ ht hι hcov ha ha' ?_ η
  · constructor
    · intro hw
      rw [hw] at key
      simpa using key
    · intro hw
      rw [hw] at key
      rw [key, ← mul_assoc, show (2 * if false = true then (0 : ℤ) else -2) = -4 from rfl,
        ← zpow_natCast, ← zpow_add₀ t0]
      simp
  · intro c hc ι η η'
    obtain ⟨he, ⟨R, f, hp⟩, hn⟩ := hlines c hc
    rw [C42_value hp hn he, C42_value hp hn he]
  · intro _ c hc e
    obtain ⟨-, ⟨R, f, hp⟩, -⟩ := hlines c hc
    obtain hR := plain_resonance hp (hd.valid.2 c hc)
    rw [hR] at e
    cases e
  · intro c hc
    obtain ⟨he, ⟨R, f, hp⟩, hn⟩ := hlines c hc
    exact (C41_production_partial hp hn he hbw).2

/-! An example: `D → π π K` with one scalar resonance, described by a Breit-Wigner lineshape. -/

def unR : Particle := ⟨"R", "R", 0, some 1, 1, 1⟩

def unNode : Node :=
  .isobar (.state (exState "D" 0 2 0))
    (.isobar (.particle unR) (.leaf (.state (exState "pi" 0 (1/7) 2))) (.leaf (.state (exState "K" 0 (1/2) 3)))
      (some ⟨0, 0⟩))
    (.leaf (.state (exState "pi" 0 (1/7) 1))) (some ⟨0, 0⟩)

def unChain : Chain :=
  ⟨unNode, exState "D" 0 2 0, .particle unR, exState "pi" 0 (1/7) 2, exState "K" 0 (1/2) 3,
    exState "pi" 0 (1/7) 1, some ⟨0, 0⟩, some ⟨0, 0⟩⟩

def unDecay : Decay := ⟨bsStates, [unChain]⟩

def unBuilder (bw : BreitWignerBuilder) : Builder :=
  ⟨unDecay, ((Configurator.init unDecay).registerBuilder (.name "R") bw.call).2, true, true, false⟩

theorem unDecay_standard : Standard unDecay := by
  refine ⟨⟨?_, ?_⟩, by show (PyDict.keys bsStates).Perm [0, 1, 2, 3]; decide, ?_, ?_, ?_⟩
  · have hf : (finalStateDict bsStates).map Prod.snd =
        [exState "pi" 0 (1/7) 1, exState "pi" 0 (1/7) 2, exState "K" 0 (1/2) 3] := rfl
    have : checkChains (exState "D" 0 2 0) ((finalStateDict bsStates).map Prod.snd) unDecay.chains = .ok () := by
      rw [checkChains_ok, hf]
      intro c hc
      obtain rfl := List.mem_singleton.1 hc
      refine ⟨rfl, fun s => ?_⟩
      simp only [unChain, List.mem_cons, List.not_mem_nil, or_false]
    have h0 : initialState unDecay.states = .ok (exState "D" 0 2 0) := rfl
    unfold Decay.new
    rw [h0]
    simp only [bind, Except.bind]
    rw [show unDecay.states = bsStates from rfl, this]; rfl
  · intro c hc
    obtain rfl := List.mem_singleton.1 hc
    exact (chainNew_shape _ _ _ _ _ _ _ unNode (.inl rfl)).trans rfl
  · intro x hx
    simp only [unDecay, bsStates, List.mem_cons, List.not_mem_nil, or_false] at hx
    rcases hx with rfl | rfl | rfl | rfl <;> rfl
  · intro x hx
    simp only [unDecay, bsStates, List.mem_cons, List.not_mem_nil, or_false] at hx
    rcases hx with rfl | rfl | rfl | rfl <;> exact ⟨0, by norm_num [exState]⟩
  · intro c hc
    obtain rfl := List.mem_singleton.1 hc
    exact ⟨0, by norm_num [unChain, Obj.toP, unR]⟩

theorem un_plain : PlainChain unChain unR true := rfl

theorem un_numbered : NumberedFinalState unChain := by
  show [(2 : ℤ), 3, 1].Perm [1, 2, 3]
  decide

theorem un_lineshape (bw : BreitWignerBuilder) : ∃ e, bw.call unChain = .ok e := by
  refine (C42_missing_ls bw un_plain un_numbered).2 ?_
  rw [ne_eq, (C42_missing_ls bw un_plain un_numbered).1]
  simp [unChain]

theorem un_lineshapes {bw : BreitWignerBuilder} {e : DefExpr} (he : bw.call unChain = .ok e) :
    Lineshapes (unBuilder bw) fun _ => e := by
  intro c hc
  obtain rfl := List.mem_singleton.1 hc
  refine ⟨bw.call, ?_, he⟩
  change Except.ok ((PyDict.get? [(unChain, bw.call)] unChain).getD unitDynamics) = _
  rw [PyDict.get?_cons, if_pos rfl]; rfl

theorem un_formulate {bw : BreitWignerBuilder} {e : DefExpr} (he : bw.call unChain = .ok e) :
    ∃ m, (unBuilder bw).formulate none true false = .ok m := by
  have := C36_missing_ls (b := unBuilder bw) (reference := none) unDecay_standard
    (un_lineshapes he) (by rintro x ⟨⟩) (fun _ => by simp [unBuilder, unDecay]) true false
  apply this.2
  rw [Ne, this.1]
  rintro ⟨-, c, -, h⟩
  exact h ⟨fun h => absurd h (by simp [unBuilder]), fun h => absurd h (by simp [unBuilder])⟩

/-- Masses `4`, `1`, `1`, `1` at the point `(σ1, σ2, σ3) = (7, 5, 7)`, all other symbols `1`, in units that are
smaller by the factor `t`. The form factor is `1 + s R²`, the energy-dependent width is constant. -/
noncomputable def unInterp (t : ℝ) : Interp where
  sym s := (match s.name.toList.head? with
      | some 's' => (t : ℂ) ^ 2
      | some 'R' => (t : ℂ)⁻¹
      | _ => t) * (if s.name = "m0" then 4 else if s.name = "sigma1" then 7
      else if s.name = "sigma2" then 5 else if s.name = "sigma3" then 7 else 1)
  idx _ _ _ := 1
  wig _ _ _ _ := 1
  cg _ _ _ _ _ _ := 1
  ff s _ _ _ R := 1 + s * R ^ 2
  edw _ _ _ g _ _ _ _ := g
  bmom _ m1 _ := m1

theorem unInterp_covariant (t : ℝ) {u : ℝ} (hu : 0 < u) : Covariant (unInterp t) u := by
  have t0 : (u : ℂ) ≠ 0 := by exact_mod_cast hu.ne'
  refine ⟨fun s m1 m2 L R => ?_, fun _ _ _ _ _ _ _ _ => rfl, fun _ _ _ => rfl⟩
  simp only [unInterp]
  push_cast
  field_simp

theorem unInterp_scaled (t : ℝ) {s : Sym} {d : ℤ} (h : SymbolDim s d) :
    (unInterp t).sym s = (t : ℂ) ^ d * (unInterp 1).sym s := by
  cases h with
  | mandelstam k => simp [unInterp, head_mandelstam]
  | stateMass i => simp [unInterp, head_state]
  | resonanceMass p => simp [unInterp, head_res]
  | resonanceWidth p => simp [unInterp, head_width]
  | resonanceRadius => simp [unInterp, head_radius]
  | parentRadius p => simp [unInterp, head_parent]

theorem unInterp_interior {t : ℝ} (ht : t = 1 ∨ t = 2) : DalitzInterior fun s => ((unInterp t).sym s).re := by
  rcases ht with rfl | rfl <;> constructor <;> simp [unInterp, SumRule, BetweenThresholds, lam] <;> norm_num

/-- The example at one kinematic point, in two units. -/
theorem un_points {bw : BreitWignerBuilder} {e : DefExpr} (he : bw.call unChain = .ok e)
    (h : (unBuilder bw).formulate none true false = .ok m) :
    ∃ ι ι' : Interp, Rescaled 2 ι ι' ∧ (∀ u : ℝ, 0 < u → Covariant ι u) ∧
      (∀ d ∈ m.angleDefs, Computes ι d) ∧ (∀ d ∈ m.angleDefs, Computes ι' d) ∧
      SameFunctions (unInterp 1) ι ∧ (∀ n a l, ι.idx n a l = 1) ∧
      ∀ s d, SymbolDim s d → ι.sym s = (unInterp 1).sym s := by
  have hkey : ∀ s : Sym, s.asm = .nonneg → s ∉ PyDict.keys m.angleDefs := by
    intro s hs hmem
    obtain ⟨y, hy, rfl⟩ := List.mem_map.1 hmem
    obtain ⟨ref, P, -, hr', -, rfl, -⟩ := formulate_inv (b := unBuilder bw) unDecay_standard (un_lineshapes he)
      (by rintro x ⟨⟩) h
    rcases angleDefs_mem (b := unBuilder bw) unDecay_standard hr' hy with ⟨k, -, rfl⟩ | ⟨i, -, k, -, rfl⟩
    · simp [thetaSym] at hs
    · simp [ThreeBody.zetaSym] at hs
  have hdim : ∀ {s d}, SymbolDim s d → s.asm = .nonneg := by
    intro s d h
    cases h <;> rfl
  obtain ⟨ι, f1, i1, s1, a1⟩ := C72_evaluable (b := unBuilder bw) unDecay_standard (un_lineshapes he)
    (by rintro x ⟨⟩) h (unInterp_interior (.inl rfl)).region
  obtain ⟨ι', f2, i2, s2, a2⟩ := C72_evaluable (b := unBuilder bw) unDecay_standard (un_lineshapes he)
    (by rintro x ⟨⟩) h (unInterp_interior (.inr rfl)).region
  refine ⟨ι, ι', ⟨⟨f1.wig.symm.trans f2.wig, f1.cg.symm.trans f2.cg, f1.ff.symm.trans f2.ff,
      f1.edw.symm.trans f2.edw, f1.bmom.symm.trans f2.bmom⟩, i2.trans i1.symm, ?_⟩, ?_, a1, a2, f1, ?_, ?_⟩
  · intro s d h
    rw [s1 _ (hkey _ (hdim h)), s2 _ (hkey _ (hdim h)), unInterp_scaled 2 h]
  · intro u hu
    obtain ⟨c1, c2, c3⟩ := unInterp_covariant 1 hu
    rw [f1.ff] at c1
    rw [f1.edw] at c2
    rw [f1.bmom] at c3
    exact ⟨c1, c2, c3⟩
  · intro n a l
    rw [i1]
    rfl
  · exact fun s d h => s1 _ (hkey _ (hdim h))

/-- The value of the example: the square of the lineshape. -/
theorem un_value {bw : BreitWignerBuilder} {e : DefExpr} (he : bw.call unChain = .ok e)
    (h : (unBuilder bw).formulate none true false = .ok m) {ι : Interp} (hi : ∀ n a l, ι.idx n a l = 1)
    (hw : ι.wig = (unInterp 1).wig) (η : Sym → ℚ) :
    m.fullExpression.eval ι η = (‖e.expression.eval ι η‖ ^ 2 : ℝ) := by
  have := C78_spinless (b := unBuilder bw) unDecay_standard (un_lineshapes he) (by rintro x ⟨⟩) h
    (fun c _ ι η η' => by rw [C42_value un_plain un_numbered he, C42_value un_plain un_numbered he])
    (fun h => absurd h (by simp [unBuilder])) (fun i hi => by
      simp only [List.mem_cons, List.not_mem_nil, or_false] at hi
      rcases hi with rfl | rfl | rfl | rfl <;> rfl) ι η
  rw [this]
  have hf : ∀ p : Chain → Bool, p unChain = true → (unBuilder bw).decay.chains.filter p = [unChain] := by
    intro p hp
    refine List.filter_eq_self.2 fun c hc => ?_
    obtain rfl := List.mem_singleton.1 hc
    exact hp
  have hspin : 0 ≤ unChain.resonance.toP.spin ∧ IsInteger unChain.resonance.toP.spin :=
    ⟨by norm_num [unChain, Obj.toP, unR], ⟨0, by norm_num [unChain, Obj.toP, unR]⟩⟩
  rw [hf _ (by simpa using hspin)]
  simp only [List.map_cons, List.map_nil, List.sum_cons, List.sum_nil, add_zero]
  rw [hw]
  have c1 : couplings ι (unBuilder bw) unChain false 0 0 0 0 = 1 := by
    unfold couplings
    simp [hi, unBuilder]
  have c2 : decayFactor ι (unBuilder bw) unChain (fun _ => 0) = 1 := rfl
  have c3 : productionFactor ι (unBuilder bw) unChain 0 0 = 1 := rfl
  rw [c1, c2, c3]
  simp [unInterp]

/-- C83: the property fails for the default settings of the Breit-Wigner builder, even though the external
functions are covariant: the form factor of the decay vertex spoils it. The intensity is not multiplied by any
power of the ratio of the units. -/
theorem C83_default_fails : ∃ (b : Builder) (dyn : Chain → DefExpr) (m : AmplitudeModel) (ι ι' : Interp),
    Standard b.decay ∧ Lineshapes b dyn ∧ (∀ c ∈ b.decay.chains, ({} : BreitWignerBuilder).call c = .ok (dyn c)) ∧
    b.formulate none true false = .ok m ∧ Rescaled 2 ι ι' ∧ (∀ u : ℝ, 0 < u → Covariant ι u) ∧
    (∀ d ∈ m.angleDefs, Computes ι d) ∧ (∀ d ∈ m.angleDefs, Computes ι' d) ∧
    ∀ (n : ℤ) (η : Sym → ℚ), m.fullExpression.eval ι' η ≠ 2 ^ n * m.fullExpression.eval ι η := by
  obtain ⟨e, he⟩ := un_lineshape {}
  obtain ⟨m, h⟩ := un_formulate he
  obtain ⟨ι, ι', hι, hcov, ha, ha', hf, hi, hs⟩ := un_points he h
  refine ⟨unBuilder {}, fun _ => e, m, ι, ι', unDecay_standard, un_lineshapes he, ?_, h, hι, hcov, ha, ha', ?_⟩
  · intro c hc
    obtain rfl := List.mem_singleton.1 hc
    exact he
  · intro n η
    rw [un_value he h hi hf.wig.symm, un_value he h (fun n a l => by rw [hι.couplings]; exact hi n a l)
      (hι.functions.wig.symm.trans hf.wig.symm)]
    have x0 := hs _ _ (.stateMass 0)
    have xs := hs _ _ (.mandelstam 1)
    have xR := hs _ _ (.resonanceMass unR)
    have xG := hs _ _ (.resonanceWidth unR)
    have xr := hs _ _ .resonanceRadius
    have xp := hs _ _ (.parentRadius unChain.parent)
    have t0 : (massOfState 0).name = "m0" := by decide +kernel
    have us : (mandelstam 1).name = "sigma1" := by decide +kernel
    rw [show (unInterp 1).sym (massOfState 0) = 4 by simp [unInterp, t0]] at x0
    rw [show (unInterp 1).sym (mandelstam 1) = 7 by simp [unInterp, us]] at xs
    rw [show (unInterp 1).sym (massOfResonance unR) = 1 by simp [unInterp, massOfResonance, unR]] at xR
    rw [show (unInterp 1).sym (widthOfResonance unR) = 1 by simp [unInterp, widthOfResonance, unR]] at xG
    rw [show (unInterp 1).sym resonanceRadius = 1 by simp [unInterp, resonanceRadius]] at xr
    rw [show (unInterp 1).sym (parentRadius unChain.parent) = 1 by
      simp [unInterp, parentRadius, unChain, exState]] at xp
    have y0 := hι.symbols _ _ (.stateMass 0)
    have ys := hι.symbols _ _ (.mandelstam 1)
    have yR := hι.symbols _ _ (.resonanceMass unR)
    have yG := hι.symbols _ _ (.resonanceWidth unR)
    have yr := hι.symbols _ _ .resonanceRadius
    have yp := hι.symbols _ _ (.parentRadius unChain.parent)
    rw [x0] at y0
    rw [xs] at ys
    rw [xR] at yR
    rw [xG] at yG
    rw [xr] at yr
    rw [xp] at yp
    have v : e.expression.eval ι η = 850 * (1 / (-6 - Complex.I)) := by
      rw [C42_value un_plain un_numbered he]
      unfold lineshapeValue
      rw [show unChain.spectator.index = 1 from rfl]
      simp only [x0, xs, xR, xG, xr, xp, ← hf.ff, ← hf.edw, if_true]
      simp only [unInterp, breitWignerValue]
      rw [show (1 : ℂ) ^ 2 - 7 - Complex.I * 1 * 1 = -6 - Complex.I by ring]
      ring
    have v' : e.expression.eval ι' η = 3349 * (1 / (-6 - Complex.I)) := by
      rw [C42_value un_plain un_numbered he]
      unfold lineshapeValue
      rw [show unChain.spectator.index = 1 from rfl]
      simp only [y0, ys, yR, yG, yr, yp, ← hι.functions.ff, ← hι.functions.edw, ← hf.ff, ← hf.edw, if_true]
      simp only [unInterp, breitWignerValue]
      norm_num
      rw [show (-24 : ℂ) - Complex.I * 2 * 2 = 4 * (-6 - Complex.I) by ring, mul_inv]
      ring
    have hne : (-6 - Complex.I) ≠ 0 := by
      intro h
      have := congrArg Complex.im h
      norm_num at this
    have hpos : 0 < ‖1 / (-6 - Complex.I)‖ := norm_pos_iff.2 (div_ne_zero one_ne_zero hne)
    rw [v, v', norm_mul, norm_mul]
    generalize ‖1 / (-6 - Complex.I)‖ = x at hpos
    intro hx
    have hx : ((‖(3349 : ℂ)‖ * x) ^ 2 : ℝ) = 2 ^ n * (‖(850 : ℂ)‖ * x) ^ 2 := by
      have e2 : ((2 : ℂ) ^ n) = ((2 ^ n : ℝ) : ℂ) := by push_cast; rfl
      rw [e2, ← Complex.ofReal_mul] at hx
      exact Complex.ofReal_injective hx
    have n1 : ‖(3349 : ℂ)‖ = 3349 := by norm_num
    have n2 : ‖(850 : ℂ)‖ = 850 := by norm_num
    rw [n1, n2, mul_pow, mul_pow, ← mul_assoc] at hx
    have hx := mul_right_cancel₀ (pow_pos hpos 2).ne' hx
    have l1 : (2 : ℝ) ^ (3 : ℤ) < 2 ^ n := by norm_num; nlinarith
    have l2 : (2 : ℝ) ^ n < 2 ^ (4 : ℤ) := by norm_num; nlinarith
    rw [zpow_lt_zpow_iff_right₀ (by norm_num)] at l1 l2
    omega

/-- The hypotheses of `C83_breit_wigner_partial` are met by the same example without the form factor of the
decay vertex. -/
example : ∃ (m : AmplitudeModel) (ι ι' : Interp),
    (unBuilder { decayFormFactor := false }).formulate none true false = .ok m ∧ Rescaled 2 ι ι' ∧
    ι'.sym (mandelstam 1) ≠ ι.sym (mandelstam 1) ∧
    ∀ η, m.fullExpression.eval ι' η = m.fullExpression.eval ι η := by
  obtain ⟨e, he⟩ := un_lineshape { decayFormFactor := false }
  obtain ⟨m, h⟩ := un_formulate he
  obtain ⟨ι, ι', hι, hcov, ha, ha', hf, hi, hs⟩ := un_points he h
  refine ⟨m, ι, ι', h, hι, ?_, fun η => ?_⟩
  · have us : (mandelstam 1).name = "sigma1" := by decide +kernel
    rw [hι.symbols _ _ (.mandelstam 1), hs _ _ (.mandelstam 1),
      show (unInterp 1).sym (mandelstam 1) = 7 by simp [unInterp, us]]
    norm_num
  · refine (C83_breit_wigner_partial (b := unBuilder { decayFormFactor := false }) (bw := { decayFormFactor := false })
      rfl unDecay_standard (un_lineshapes he) (by rintro x ⟨⟩) h ?_ (by norm_num) hι (hcov 2 (by norm_num)) ha ha' η).1 rfl
    intro c hc
    obtain rfl := List.mem_singleton.1 hc
    exact ⟨he, ⟨_, _, un_plain⟩, un_numbered⟩

end Verif.ThreeBody
