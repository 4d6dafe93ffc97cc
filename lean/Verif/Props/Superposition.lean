import Verif.Proofs.Superposition
import Verif.Spec.Closure

/-! Properties C76-C78: how the intensity depends on the couplings, and what it is for spinless
particles. -/
namespace Verif.ThreeBody
open Verif Verif.Spec Verif.Spin Verif.Angles

variable {b b' : Builder} {dyn : Chain → DefExpr} {reference : Option ℤ} {cl cl' uc : Bool}
  {m m' : AmplitudeModel} {ι ι' : Interp}

/-! ### C76 -/

/-- C76: switching off couplings removes chains. A builder for the chains that `keep` selects, with the
same states, lineshapes, couplings and reference subsystem, gives a model with the same value as the
full model has when all couplings of the other chains are zero. -/
theorem C76_switch_off (keep : Chain → Bool) (hd : Standard b.decay)
    (hs : b'.decay.states = b.decay.states) (hc : b'.decay.chains = b.decay.chains.filter keep)
    (hp : b'.useProdHel = b.useProdHel) (hq : b'.useDecHel = b.useDecHel)
    (hdyn : Lineshapes b dyn) (hdyn' : Lineshapes b' dyn)
    (hfree : ∀ c ∈ b.decay.chains, HelicityFree (dyn c).expression)
    (hres : b.useProdHel = false → ∀ c ∈ b.decay.chains, c.resonance ≠ .state c.spectator)
    {r : ℤ} (hr : r = 1 ∨ r = 2 ∨ r = 3)
    (h : b.formulate (some r) cl uc = .ok m) (h' : b'.formulate (some r) cl' uc = .ok m')
    (ι : Interp) (hoff : ∀ c ∈ b.decay.chains, keep c = false → ∀ lR lk li lj : ℚ,
      couplings ι b c uc lR lk li lj = 0) (η : Sym → ℚ) :
    m.fullExpression.eval ι η = m'.fullExpression.eval ι η := by
  have hd' : Standard b'.decay := standard_filter hd hs hc
  have hrr : RefOk (some r) := by rintro x ⟨⟩; exact hr
  have hsub : ∀ c ∈ b'.decay.chains, c ∈ b.decay.chains := by
    intro c h; rw [hc] at h; exact (List.mem_filter.1 h).1
  obtain ⟨x, hx, hv⟩ := full_value hd hdyn hrr h hfree hres η
  obtain ⟨y, hy, hv'⟩ := full_value hd' hdyn' hrr h' (fun c h => hfree c (hsub c h))
    (fun g c h => hres (hp.symm.trans g) c (hsub c h)) η
  have hx : r = x := hx
  have hy : r = y := hy
  subst hx hy
  rw [hv, hv']
  refine congrArg _ (intensity_states hs ?_ (fun k l _ => subsystemValue_filter keep hs hc hp hq hoff k l)
    fun k l => subsystemValue_zero l)
  intro k hk
  unfold subsystems at hk ⊢
  rw [List.mem_toFinset] at hk ⊢
  obtain ⟨c, hc', rfl⟩ := List.mem_map.1 hk
  exact List.mem_map.2 ⟨c, hsub c hc', rfl⟩

/-- The example decay without its `Λ*`, which is switched off. -/
def exWithoutL (p q a : Bool) : Builder :=
  ⟨⟨exStates, [exChainK]⟩, Configurator.init ⟨exStates, [exChainK]⟩, p, q, a⟩

/-- Values with `H^production[L^*, ...] = 0` and all other couplings 2. -/
def exOff : Interp :=
  ⟨fun _ => 1, fun _ R _ => if R = some "L^*" then 0 else 2, fun _ _ _ _ => 1, fun _ _ _ _ _ _ => 1,
    fun _ _ _ _ _ => 1, fun _ _ _ _ _ _ _ _ => 1, fun _ _ _ => 1⟩

theorem exFree : HelicityFree (({} : DefExpr)).expression := fun _ _ _ => rfl

theorem exRes : ∀ c ∈ exDecay.chains, c.resonance ≠ .state c.spectator := by
  intro c hc
  simp only [exDecay, List.mem_cons, List.not_mem_nil, or_false] at hc
  rcases hc with rfl | rfl <;> simp [exChainK, exChainL]

/-- The hypotheses are met by the example decay in the LS basis; the model without the `Λ*` has the
same value as the model with its couplings set to zero. -/
example : ∃ m m', (exBuilder false false false).formulate (some 1) true false = .ok m ∧
    (exWithoutL false false false).formulate (some 1) true false = .ok m' ∧
    m.fullExpression.eval exOff (fun _ => 0) = m'.fullExpression.eval exOff (fun _ => 0) := by
  obtain ⟨m, hm⟩ := exBuilder_ok false false false true false
  have hk : ([exChainK] : List Chain) = exDecay.chains.filter fun c => c.spectator.index = 1 := rfl
  have hl : Lineshapes (exWithoutL false false false) (fun _ => {}) := by
    intro c hc
    simp only [exWithoutL, List.mem_cons, List.not_mem_nil, or_false] at hc
    subst hc
    exact ⟨unitDynamics, rfl, rfl⟩
  have hd' : Standard (exWithoutL false false false).decay := standard_filter exDecay_standard rfl hk
  obtain ⟨m', hm'⟩ : ∃ m', (exWithoutL false false false).formulate (some 1) true false = .ok m' := by
    apply (C36_missing_ls hd' hl (reference := some 1) (by rintro x ⟨⟩; simp) (by simp) true false).2
    rw [Ne, (C36_missing_ls hd' hl (reference := some 1) (by rintro x ⟨⟩; simp) (by simp) true false).1]
    rintro ⟨-, c, hc, h⟩
    simp only [exWithoutL, List.mem_cons, List.not_mem_nil, or_false] at hc
    subst hc
    exact h ⟨fun _ => by simp [exChainK], fun _ => by simp [exChainK]⟩
  refine ⟨m, m', hm, hm', C76_switch_off (b := exBuilder false false false)
    (b' := exWithoutL false false false) _ exDecay_standard rfl hk rfl rfl
    (exBuilder_lineshapes _ _ _) hl (fun _ _ => exFree) (fun _ => exRes) (.inl rfl) hm hm' _ ?_ _⟩
  intro c hc hk lR lk li lj
  simp only [exBuilder, exDecay, List.mem_cons, List.not_mem_nil, or_false] at hc
  rcases hc with rfl | rfl
  · simp [exChainK, exState] at hk
  · simp [couplings, exOff, exChainL, Obj.toP]

/-! ### C77 -/

/-- C77: multiplying all couplings by a complex number multiplies the intensity by its squared
modulus; a common phase is not observable. -/
theorem C77_scale (hd : Standard b.decay) (hdyn : Lineshapes b dyn) (hr : RefOk reference)
    (h : b.formulate reference cl uc = .ok m)
    (hfree : ∀ c ∈ b.decay.chains, HelicityFree (dyn c).expression)
    (hres : b.useProdHel = false → ∀ c ∈ b.decay.chains, c.resonance ≠ .state c.spectator)
    {η : Sym → ℚ} (hf : SameFunctions ι ι') (hsym : ι.sym = ι'.sym)
    (hline : ∀ c ∈ b.decay.chains, (dyn c).expression.eval ι η = (dyn c).expression.eval ι' η) (z : ℂ)
    (hz : ∀ c ∈ b.decay.chains, ∀ lR lk li lj : ℚ,
      couplings ι' b c uc lR lk li lj = z * couplings ι b c uc lR lk li lj) :
    m.fullExpression.eval ι' η = (‖z‖ ^ 2 : ℝ) * m.fullExpression.eval ι η := by
  obtain ⟨ref, -, hv⟩ := full_value hd hdyn hr h hfree hres η
  rw [hv, hv, ← Complex.ofReal_mul, subsystemValue_lineshape hline]
  congr 1
  unfold Spec.intensity
  rw [Finset.mul_sum]
  apply Finset.sum_congr rfl
  intro l _
  rw [aligned_linear (A := subsystemValue ι b uc fun c => (dyn c).expression.eval ι' η)
    (A' := fun _ _ => 0) (z := z) (z' := 0) (fun k l => by
      rw [subsystemValue_linear (ι := ι) (ι' := ι) (z := z) (z' := 0) rfl rfl rfl hf.wig.symm hf.cg.symm
        hsym.symm (fun c hc lR lk li lj => by rw [hz c hc]; ring)]
      ring), aligned_interp hsym.symm hf.wig.symm, zero_mul, add_zero, norm_mul, mul_pow]

/-- C77: the intensity is a quadratic form in the couplings: for values of the couplings that are the
sums and the differences of two sets of values, the intensities add up to twice the sum of the
intensities of the two sets. -/
theorem C77_parallelogram (hd : Standard b.decay) (hdyn : Lineshapes b dyn) (hr : RefOk reference)
    (h : b.formulate reference cl uc = .ok m)
    (hfree : ∀ c ∈ b.decay.chains, HelicityFree (dyn c).expression)
    (hres : b.useProdHel = false → ∀ c ∈ b.decay.chains, c.resonance ≠ .state c.spectator)
    {η : Sym → ℚ} {ιp ιm : Interp}
    (hf : ∀ x ∈ [ι', ιp, ιm], SameFunctions ι x ∧ ι.sym = x.sym ∧
      ∀ c ∈ b.decay.chains, (dyn c).expression.eval ι η = (dyn c).expression.eval x η)
    (hp : ∀ c ∈ b.decay.chains, ∀ lR lk li lj : ℚ, couplings ιp b c uc lR lk li lj =
      couplings ι b c uc lR lk li lj + couplings ι' b c uc lR lk li lj)
    (hm : ∀ c ∈ b.decay.chains, ∀ lR lk li lj : ℚ, couplings ιm b c uc lR lk li lj =
      couplings ι b c uc lR lk li lj - couplings ι' b c uc lR lk li lj) :
    m.fullExpression.eval ιp η + m.fullExpression.eval ιm η =
      2 * (m.fullExpression.eval ι η + m.fullExpression.eval ι' η) := by
  obtain ⟨ref, -, hv⟩ := full_value hd hdyn hr h hfree hres η
  obtain ⟨⟨f1, s1, e1⟩, ⟨f2, s2, e2⟩, ⟨f3, s3, e3⟩⟩ : _ ∧ _ ∧ _ :=
    ⟨hf ι' (by simp), hf ιp (by simp), hf ιm (by simp)⟩
  rw [hv, hv, hv, hv, ← subsystemValue_lineshape e1, ← subsystemValue_lineshape e2,
    ← subsystemValue_lineshape e3]
  set L : Chain → ℂ := fun c => (dyn c).expression.eval ι η
  have h2 : ((2 : ℝ) : ℂ) = 2 := by norm_num
  rw [← Complex.ofReal_add, ← Complex.ofReal_add, ← h2, ← Complex.ofReal_mul]
  congr 1
  unfold Spec.intensity
  rw [← Finset.sum_add_distrib, ← Finset.sum_add_distrib, Finset.mul_sum]
  apply Finset.sum_congr rfl
  intro l _
  rw [aligned_interp s1.symm f1.wig.symm, aligned_interp s2.symm f2.wig.symm,
    aligned_interp s3.symm f3.wig.symm,
    aligned_linear (A₀ := subsystemValue ιp b uc L) (A := subsystemValue ι b uc L)
      (A' := subsystemValue ι' b uc L) (z := 1) (z' := 1)
      (subsystemValue_linear f1.wig.symm f1.cg.symm s1.symm f2.wig.symm f2.cg.symm s2.symm
        (fun c hc lR lk li lj => by rw [hp c hc]; ring)),
    aligned_linear (A₀ := subsystemValue ιm b uc L) (A := subsystemValue ι b uc L)
      (A' := subsystemValue ι' b uc L) (z := 1) (z' := -1)
      (subsystemValue_linear f1.wig.symm f1.cg.symm s1.symm f3.wig.symm f3.cg.symm s3.symm
        (fun c hc lR lk li lj => by rw [hm c hc]; ring))]
  have := parallelogram_law_with_norm ℝ (aligned ι b.decay ref (subsystemValue ι b uc L) l)
    (aligned ι b.decay ref (subsystemValue ι' b uc L) l)
  rw [one_mul, one_mul, neg_one_mul, ← sub_eq_add_neg]
  nlinarith [this]

/-- Values of the couplings `u^{n+1}` for a coefficient with `n` indices. -/
def exCouplings (u : ℂ) : Interp :=
  ⟨fun _ => 1, fun _ _ l => u * (l.length + 1), fun _ _ _ _ => 1, fun _ _ _ _ _ _ => 1,
    fun _ _ _ _ _ => 1, fun _ _ _ _ _ _ _ _ => 1, fun _ _ _ => 1⟩

/-- The hypotheses are met by the example decay with coefficients. -/
example (u z : ℂ) : ∃ m, (exBuilder true false false).formulate none true true = .ok m ∧
    m.fullExpression.eval (exCouplings (z * u)) (fun _ => 0) =
      (‖z‖ ^ 2 : ℝ) * m.fullExpression.eval (exCouplings u) (fun _ => 0) := by
  obtain ⟨m, hm⟩ : ∃ m, (exBuilder true false false).formulate none true true = .ok m := by
    have := C36_missing_ls (b := exBuilder true false false) (reference := none) exDecay_standard
      (exBuilder_lineshapes _ _ _) (by rintro x ⟨⟩) (fun _ => by simp [exBuilder, exDecay]) true true
    apply this.2
    rw [Ne, this.1]
    rintro ⟨-, c, hc, h⟩
    exact h (exBuilder_ls true false false hc)
  refine ⟨m, hm, C77_scale (b := exBuilder true false false)
    (ι := exCouplings u) (ι' := exCouplings (z * u)) exDecay_standard (exBuilder_lineshapes _ _ _)
    (by rintro x ⟨⟩) hm (fun _ _ => exFree) (by simp [exBuilder]) ⟨rfl, rfl, rfl, rfl, rfl⟩ rfl
    (fun _ _ => rfl) z ?_⟩
  intro c _ lR lk li lj
  simp only [couplings, exCouplings, if_true]
  ring

example (u v : ℂ) : ∃ m, (exBuilder true true false).formulate (some 1) true true = .ok m ∧
    m.fullExpression.eval (exCouplings (u + v)) (fun _ => 0) +
      m.fullExpression.eval (exCouplings (u - v)) (fun _ => 0) =
      2 * (m.fullExpression.eval (exCouplings u) (fun _ => 0) +
        m.fullExpression.eval (exCouplings v) (fun _ => 0)) := by
  obtain ⟨m, hm⟩ := exBuilder_ok true true false true true
  refine ⟨m, hm, C77_parallelogram (b := exBuilder true true false)
    (ι := exCouplings u) (ι' := exCouplings v) exDecay_standard
    (exBuilder_lineshapes _ _ _) (by rintro x ⟨⟩; simp) hm (fun _ _ => exFree) (by simp [exBuilder]) ?_ ?_ ?_⟩
  · intro x hx
    simp only [List.mem_cons, List.not_mem_nil, or_false] at hx
    rcases hx with rfl | rfl | rfl <;> exact ⟨⟨rfl, rfl, rfl, rfl, rfl⟩, rfl, fun _ _ => rfl⟩
  · intro c _ lR lk li lj
    simp only [couplings, exCouplings, if_true]
    ring
  · intro c _ lR lk li lj
    simp only [couplings, exCouplings, if_true]
    ring

/-! ### C78 -/

/-- The helicity angle in subsystem `k`: `theta_23`, `theta_31` or `theta_12`. -/
def helicityAngle (k : ℤ) : Sym :=
  if k = 1 then ⟨"theta_23", .real⟩ else if k = 2 then ⟨"theta_31", .real⟩ else ⟨"theta_12", .real⟩

theorem minusOnePow_zero : minusOnePow 0 = 1 := by simp [minusOnePow]

theorem projections_spin_zero {d : Decay} (h0 : ∀ i ∈ ([0, 1, 2, 3] : List ℤ), d.spin i = 0) :
    helicities d = {0} := by
  unfold helicities
  ext l
  rw [Fintype.mem_piFinset, Finset.mem_singleton]
  have : ∀ i : Fin 4, projections (d.spin i) = {0} := by
    intro i
    rw [h0 i (by fin_cases i <;> simp), projections_zero]
  simp only [this, Finset.mem_singleton]
  exact ⟨fun h => funext h, fun h i => by rw [h]; rfl⟩

open Classical in
/-- C78: for spinless particles the model is the squared modulus of a sum over the chains whose
resonance has integer spin `J ≥ 0`: lineshape, coupling, `d^J_{00}` of the helicity angle of the subsystem and,
for LS couplings, the Clebsch-Gordan factors of the two vertices at helicity zero. There is no alignment
and no summation, the choice of the reference subsystem does not matter. -/
theorem C78_spinless (hd : Standard b.decay) (hdyn : Lineshapes b dyn) (hr : RefOk reference)
    (h : b.formulate reference cl uc = .ok m)
    (hfree : ∀ c ∈ b.decay.chains, HelicityFree (dyn c).expression)
    (hres : b.useProdHel = false → ∀ c ∈ b.decay.chains, c.resonance ≠ .state c.spectator)
    (h0 : ∀ i ∈ ([0, 1, 2, 3] : List ℤ), b.decay.spin i = 0) (ι : Interp) (η : Sym → ℚ) :
    m.fullExpression.eval ι η = (‖((b.decay.chains.filter fun c =>
        0 ≤ c.resonance.toP.spin ∧ IsInteger c.resonance.toP.spin).map
      fun c => (dyn c).expression.eval ι η *
        ι.wig c.resonance.toP.spin 0 0 (ι.sym (helicityAngle c.spectator.index)) *
        couplings ι b c uc 0 0 0 0 * decayFactor ι b c (fun _ => 0) *
        productionFactor ι b c 0 0).sum‖ ^ 2 : ℝ) := by
  obtain ⟨ref, -, hv⟩ := full_value hd hdyn hr h hfree hres η
  rw [hv]
  unfold Spec.intensity
  rw [projections_spin_zero h0, Finset.sum_singleton]
  unfold aligned
  rw [projections_spin_zero h0, Finset.sum_singleton]
  have hrot : ∀ k (i : Fin 4) x y, rotation ι b.decay ref k i x y = 1 := by
    intro k i x y
    unfold rotation
    rw [if_pos (h0 i (by fin_cases i <;> simp))]
  simp only [hrot, mul_one]
  refine congrArg _ (congrArg (‖·‖ ^ 2) ?_)
  have hk : ∀ c ∈ b.decay.chains, c.spectator.index ∈ ([1, 2, 3] : List ℤ) := by
    intro c hc
    refine Standard.subsystem hd ((mem_subsystems _ _).1 ?_)
    unfold subsystems
    rw [List.mem_toFinset]
    exact List.mem_map.2 ⟨c, hc, rfl⟩
  have hval : ∀ c ∈ b.decay.chains, ∀ k, c.spectator.index = k →
      chainValue ι b uc (fun c => (dyn c).expression.eval ι η) (prodIds k).1 (prodIds k).2 k (byId 0) c =
      if 0 ≤ c.resonance.toP.spin ∧ IsInteger c.resonance.toP.spin then (dyn c).expression.eval ι η *
        ι.wig c.resonance.toP.spin 0 0 (ι.sym (helicityAngle c.spectator.index)) *
        couplings ι b c uc 0 0 0 0 * decayFactor ι b c (fun _ => 0) * productionFactor ι b c 0 0 else 0 := by
    rintro c hc k rfl
    have hb : byId 0 = fun _ => (0 : ℚ) := by
      funext x
      unfold byId
      split_ifs <;> rfl
    have h3 := hk c hc
    have hj : (prodIds c.spectator.index).2 ∈ ([0, 1, 2, 3] : List ℤ) := by
      simp only [List.mem_cons, List.not_mem_nil, or_false] at h3
      rcases h3 with h3 | h3 | h3 <;> rw [h3] <;> decide
    have hang : (⟨"theta_" ++ toString (prodIds c.spectator.index).1 ++
        toString (prodIds c.spectator.index).2, .real⟩ : Sym) = helicityAngle c.spectator.index := by
      simp only [List.mem_cons, List.not_mem_nil, or_false] at h3
      rcases h3 with h3 | h3 | h3 <;> rw [h3] <;> decide +kernel
    have hpr : Projection c.resonance.toP.spin 0 ↔
        0 ≤ c.resonance.toP.spin ∧ IsInteger c.resonance.toP.spin := by
      unfold Projection
      rw [sub_zero]
      exact ⟨fun h => ⟨h.2.1, h.2.2⟩, fun h => ⟨by linarith [h.1], h.1, h.2⟩⟩
    unfold chainValue
    rw [hb, hang, h0 _ (Angles.mem0 h3), h0 _ hj]
    simp only [add_zero, sub_zero, minusOnePow_zero, one_mul, hpr]
  rw [sum_filter, ← sum_by_key (fun c => c.spectator.index) (subsystems b.decay)]
  · apply Finset.sum_congr rfl
    intro k _
    unfold subsystemValue
    congr 1
    apply List.map_congr_left
    intro c hc
    exact hval c (List.mem_filter.1 hc).1 k (of_decide_eq_true (List.mem_filter.1 hc).2)
  · intro c hc
    unfold subsystems
    rw [List.mem_toFinset]
    exact List.mem_map.2 ⟨c, hc, rfl⟩

/-! A decay of spinless particles: `D → π π K` with a `ρ` and a `K*`. -/

def spStates : PyDict ℤ State :=
  [(0, exState "D" 0 2 0), (1, exState "pi" 0 (1/7) 1), (2, exState "pi" 0 (1/7) 2),
   (3, exState "K" 0 (1/2) 3)]

def spRho : Node :=
  .isobar (.state (exState "D" 0 2 0))
    (.isobar (.particle ⟨"rho", "\\rho", 1, some (-1), 3/4, 3/20⟩)
      (.leaf (.state (exState "pi" 0 (1/7) 1))) (.leaf (.state (exState "pi" 0 (1/7) 2))) (some ⟨1, 0⟩))
    (.leaf (.state (exState "K" 0 (1/2) 3))) (some ⟨1, 1⟩)

def spKstar : Node :=
  .isobar (.state (exState "D" 0 2 0))
    (.isobar (.particle ⟨"K*", "K^*", 1, some (-1), 9/10, 1/20⟩)
      (.leaf (.state (exState "pi" 0 (1/7) 2))) (.leaf (.state (exState "K" 0 (1/2) 3))) (some ⟨1, 0⟩))
    (.leaf (.state (exState "pi" 0 (1/7) 1))) (some ⟨1, 1⟩)

def spChainRho : Chain :=
  ⟨spRho, exState "D" 0 2 0, .particle ⟨"rho", "\\rho", 1, some (-1), 3/4, 3/20⟩,
    exState "pi" 0 (1/7) 1, exState "pi" 0 (1/7) 2, exState "K" 0 (1/2) 3, some ⟨1, 1⟩, some ⟨1, 0⟩⟩

def spChainK : Chain :=
  ⟨spKstar, exState "D" 0 2 0, .particle ⟨"K*", "K^*", 1, some (-1), 9/10, 1/20⟩,
    exState "pi" 0 (1/7) 2, exState "K" 0 (1/2) 3, exState "pi" 0 (1/7) 1, some ⟨1, 1⟩, some ⟨1, 0⟩⟩

def spDecay : Decay := ⟨spStates, [spChainRho, spChainK]⟩

theorem spDecay_standard : Standard spDecay := by
  refine ⟨⟨?_, ?_⟩, by decide, ?_, ?_, ?_⟩
  · have hf : (finalStateDict spStates).map Prod.snd =
        [exState "pi" 0 (1/7) 1, exState "pi" 0 (1/7) 2, exState "K" 0 (1/2) 3] := rfl
    have : checkChains (exState "D" 0 2 0) ((finalStateDict spStates).map Prod.snd)
        spDecay.chains = .ok () := by
      rw [checkChains_ok, hf]
      intro c hc
      simp only [spDecay, List.mem_cons, List.not_mem_nil, or_false] at hc
      rcases hc with rfl | rfl
      · refine ⟨rfl, fun s => ?_⟩
        simp only [spChainRho, List.mem_cons, List.not_mem_nil, or_false]
        tauto
      · refine ⟨rfl, fun s => ?_⟩
        simp only [spChainK, List.mem_cons, List.not_mem_nil, or_false]
    have h0 : initialState spDecay.states = .ok (exState "D" 0 2 0) := rfl
    unfold Decay.new
    rw [h0]
    simp only [bind, Except.bind]
    rw [show spDecay.states = spStates from rfl, this]; rfl
  · intro c hc
    simp only [spDecay, List.mem_cons, List.not_mem_nil, or_false] at hc
    rcases hc with rfl | rfl
    · exact (chainNew_shape _ _ _ _ _ _ _ spRho (.inl rfl)).trans rfl
    · exact (chainNew_shape _ _ _ _ _ _ _ spKstar (.inl rfl)).trans rfl
  · intro x hx
    simp only [spDecay, spStates, List.mem_cons, List.not_mem_nil, or_false] at hx
    rcases hx with rfl | rfl | rfl | rfl <;> rfl
  · intro x hx
    simp only [spDecay, spStates, List.mem_cons, List.not_mem_nil, or_false] at hx
    rcases hx with rfl | rfl | rfl | rfl <;> exact ⟨0, by norm_num [exState]⟩
  · intro c hc
    simp only [spDecay, List.mem_cons, List.not_mem_nil, or_false] at hc
    rcases hc with rfl | rfl <;> exact ⟨2, by norm_num [spChainRho, spChainK, Obj.toP]⟩

def spBuilder (p q a : Bool) : Builder := ⟨spDecay, Configurator.init spDecay, p, q, a⟩

theorem spBuilder_lineshapes (p q a : Bool) : Lineshapes (spBuilder p q a) (fun _ => {}) := by
  intro c hc
  simp only [spBuilder, spDecay, List.mem_cons, List.not_mem_nil, or_false] at hc
  rcases hc with rfl | rfl <;> exact ⟨unitDynamics, rfl, rfl⟩

theorem spBuilder_ok (p q a cl uc : Bool) : ∃ m, (spBuilder p q a).formulate none cl uc = .ok m := by
  have := C36_missing_ls (b := spBuilder p q a) (reference := none) spDecay_standard
    (spBuilder_lineshapes _ _ _) (by rintro x ⟨⟩) (fun _ => by simp [spBuilder, spDecay]) cl uc
  apply this.2
  rw [Ne, this.1]
  rintro ⟨-, c, hc, h⟩
  simp only [spBuilder, spDecay, List.mem_cons, List.not_mem_nil, or_false] at hc
  rcases hc with rfl | rfl <;>
    exact h ⟨fun _ => by simp [spChainRho, spChainK], fun _ => by simp [spChainRho, spChainK]⟩

theorem spDecay_spinless : ∀ i ∈ ([0, 1, 2, 3] : List ℤ), spDecay.spin i = 0 := by
  intro i hi
  simp only [List.mem_cons, List.not_mem_nil, or_false] at hi
  rcases hi with rfl | rfl | rfl | rfl <;> rfl

/-- The intensity of the example is `|H_ρ d^1_00(θ_12) + H_K d^1_00(θ_23)|²`. -/
example (ι : Interp) : ∃ m, (spBuilder true true false).formulate none true true = .ok m ∧
    m.fullExpression.eval ι (fun _ => 0) =
      (‖ι.wig 1 0 0 (ι.sym ⟨"theta_12", .real⟩) * ι.idx "\\mathcal{H}^\\mathrm{\\rho}" none [0, 0, 0, 0] +
        ι.wig 1 0 0 (ι.sym ⟨"theta_23", .real⟩) * ι.idx "\\mathcal{H}^\\mathrm{K^*}" none [0, 0, 0, 0]‖ ^ 2
          : ℝ) := by
  classical
  obtain ⟨m, hm⟩ := spBuilder_ok true true false true true
  refine ⟨m, hm, ?_⟩
  rw [C78_spinless (b := spBuilder true true false) spDecay_standard (spBuilder_lineshapes _ _ _)
    (by rintro x ⟨⟩) hm (fun _ _ => exFree) (by simp [spBuilder]) spDecay_spinless]
  refine (fun (x y : ℂ) (h : x = y) => (by rw [h] : ((‖x‖ ^ 2 : ℝ) : ℂ) = (‖y‖ ^ 2 : ℝ))) _ _ ?_
  have hi : IsInteger 1 := ⟨1, by norm_num⟩
  have h1 : "\\mathcal{H}^\\mathrm{" ++ "\\rho" ++ "}" = "\\mathcal{H}^\\mathrm{\\rho}" := by decide +kernel
  have h2 : "\\mathcal{H}^\\mathrm{" ++ "K^*" ++ "}" = "\\mathcal{H}^\\mathrm{K^*}" := by decide +kernel
  have hfilter : (spDecay.chains.filter fun c => 0 ≤ c.resonance.toP.spin ∧ IsInteger c.resonance.toP.spin) =
      [spChainRho, spChainK] := by
    have e1 : 0 ≤ spChainRho.resonance.toP.spin ∧ IsInteger spChainRho.resonance.toP.spin :=
      ⟨zero_le_one, hi⟩
    have e2 : 0 ≤ spChainK.resonance.toP.spin ∧ IsInteger spChainK.resonance.toP.spin := ⟨zero_le_one, hi⟩
    rw [spDecay, List.filter_cons_of_pos (by simpa using e1), List.filter_cons_of_pos (by simpa using e2),
      List.filter_nil]
  rw [show (spBuilder true true false).decay = spDecay from rfl, hfilter]
  have c1 : couplings ι (spBuilder true true false) spChainRho true 0 0 0 0 =
      ι.idx "\\mathcal{H}^\\mathrm{\\rho}" none [0, 0, 0, 0] := by rw [← h1]; rfl
  have c2 : couplings ι (spBuilder true true false) spChainK true 0 0 0 0 =
      ι.idx "\\mathcal{H}^\\mathrm{K^*}" none [0, 0, 0, 0] := by rw [← h2]; rfl
  have a1 : helicityAngle spChainRho.spectator.index = ⟨"theta_12", .real⟩ := rfl
  have a2 : helicityAngle spChainK.spectator.index = ⟨"theta_23", .real⟩ := rfl
  have o : (({} : DefExpr).expression).eval ι (fun _ => 0) = 1 := by
    show ((1 : ℚ) : ℂ) = 1
    norm_num
  have d1 : ∀ c l, decayFactor ι (spBuilder true true false) c l = 1 := fun _ _ => rfl
  have d2 : ∀ c x y, productionFactor ι (spBuilder true true false) c x y = 1 := fun _ _ _ => rfl
  rw [List.map_cons, List.map_cons, List.map_nil, List.sum_cons, List.sum_cons, List.sum_nil, c1, c2, a1, a2, o]
  simp only [d1, d2, mul_one, one_mul, add_zero]
  rfl

end Verif.ThreeBody
