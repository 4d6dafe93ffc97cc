import Verif.Proofs.Amplitude

/-!
Properties C29, C30, C32, C34: values of amplitudes and intensities of the formulated model, for all
values `ι` of couplings, angles and lineshape parameters, and all Wigner and Clebsch-Gordan
functions.
-/
namespace Verif.ThreeBody
open Verif Verif.Spec Verif.Spin

variable {b : Builder} {dyn : Chain → DefExpr} {reference : Option ℤ} {cl uc : Bool}
  {m : AmplitudeModel}

/-! ### C29 -/

/-- C29: the value of `A^k[λ0,λ1,λ2,λ3]` is the sum over the chains with spectator `k` of phases,
lineshape, Wigner d-function of the scattering angle, couplings and (in the LS basis) Clebsch-Gordan
factors, with resonance helicity `λ0 + λk`; chains whose resonance does not have this projection do
not contribute. -/
theorem C29_amplitude_value (hd : Standard b.decay) (hdyn : Lineshapes b dyn) (hr : RefOk reference)
    (h : b.formulate reference cl uc = .ok m)
    (hfree : ∀ c ∈ b.decay.chains, HelicityFree (dyn c).expression)
    (hres : b.useProdHel = false → ∀ c ∈ b.decay.chains, c.resonance ≠ .state c.spectator)
    {i j k : ℤ} (hijk : EvenPerm i j k) (hk : Selected b k)
    {l : ℤ → ℚ} (hl : ∀ i ∈ ([0, 1, 2, 3] : List ℤ), Projection (b.decay.spin i) (l i))
    (ι : Interp) (η : Sym → ℚ) :
    ∃ e, PyDict.get? m.amplitudes
        ⟨"A^" ++ toString k, none, [.num (l 0), .num (l 1), .num (l 2), .num (l 3)]⟩ = some e ∧
      e.eval ι η = ((b.decay.chains.filter fun c => c.spectator.index = k).map
        (chainValue ι b uc (fun c => (dyn c).expression.eval ι η) i j k l)).sum := by
  obtain ⟨ref, P, -, -, hM, rfl, -⟩ := formulate_inv hd hdyn hr h
  have hk' : k ∈ ([1, 2, 3] : List ℤ) := by
    rcases hijk with h | h | h <;> cases h <;> simp
  have hij : prodIds k = (i, j) := by
    rcases hijk with h | h | h <;> cases h <;> rfl
  have hlt : (l 0, l 1, l 2, l 3) ∈ helicityTuples (spins b.decay) := by
    rw [mem_helicityTuples hd]
    intro i hi
    simp only [List.mem_cons, List.not_mem_nil, or_false] at hi
    rcases hi with rfl | rfl | rfl | rfl
    · exact hl 0 (by simp)
    · exact hl 1 (by simp)
    · exact hl 2 (by simp)
    · exact hl 3 (by simp)
  have hks := (selected_iff hd k).2 hk
  refine ⟨_, amp_get? ref P hks hlt, ?_⟩
  unfold ampExpr
  rw [Expr.eval_addAll, List.map_map]
  congr 1
  apply List.map_congr_left
  intro c hc
  have hc' := (List.mem_filter.1 hc).1
  have hls : HasLS b c := by
    unfold Missing at hM
    push Not at hM
    exact hM ((l 0, l 1, l 2, l 3), k) ((mem_pairs _).2 ⟨hlt, hks⟩) c hc
  have hv := eval_ampTerm ι η hd hc' hls (fun hp => hres hp c hc') (hfree c hc') hk'
    (l 0, l 1, l 2, l 3) uc
  rw [hij] at hv
  refine hv.trans ?_
  have hlam : ∀ x ∈ ([0, 1, 2, 3] : List ℤ), lamOf (l 0, l 1, l 2, l 3) x = l x := by
    intro x hx
    simp only [List.mem_cons, List.not_mem_nil, or_false] at hx
    rcases hx with rfl | rfl | rfl | rfl <;> rfl
  have hi' : i ∈ ([1, 2, 3] : List ℤ) := by
    rcases hijk with h | h | h <;> cases h <;> simp
  have hj' : j ∈ ([1, 2, 3] : List ℤ) := by
    rcases hijk with h | h | h <;> cases h <;> simp
  have hp := (Standard.chain hd hc').2.1
  have hdf : decayFactor ι b c (lamOf (l 0, l 1, l 2, l 3)) = decayFactor ι b c l := by
    unfold decayFactor
    rw [hlam _ (Angles.mem0 (hp c.product1 (by simp)).1),
      hlam _ (Angles.mem0 (hp c.product2 (by simp)).1)]
  unfold chainValue
  rw [hdf, hlam 0 (by simp), hlam k (Angles.mem0 hk'), hlam i (Angles.mem0 hi'),
    hlam j (Angles.mem0 hj')]

/-- C29, phases: `(-1)^x` is the sign `(-1)^n` if `x` is an integer `n`. -/
theorem C29_phase_is_sign (n : ℤ) : minusOnePow n = (-1) ^ n := by
  unfold minusOnePow
  have : (Real.pi * Complex.I * (((n : ℤ) : ℚ) : ℂ)) = n * (Real.pi * Complex.I) := by
    push_cast; ring
  rw [this, Complex.exp_int_mul, Complex.exp_pi_mul_I]

/-- C29, helicity conservation: `A^k[λ]` vanishes for all parameter values if no resonance of the
subsystem has the projection `λ0 + λk`. -/
theorem C29_helicity_conservation (hd : Standard b.decay) (hdyn : Lineshapes b dyn)
    (hr : RefOk reference) (h : b.formulate reference cl uc = .ok m)
    (hfree : ∀ c ∈ b.decay.chains, HelicityFree (dyn c).expression)
    (hres : b.useProdHel = false → ∀ c ∈ b.decay.chains, c.resonance ≠ .state c.spectator)
    {k : ℤ} (hk : Selected b k)
    {l : ℤ → ℚ} (hl : ∀ i ∈ ([0, 1, 2, 3] : List ℤ), Projection (b.decay.spin i) (l i))
    (hno : ∀ c ∈ b.decay.chains, c.spectator.index = k →
      ¬ Projection c.resonance.toP.spin (l 0 + l k))
    (ι : Interp) (η : Sym → ℚ) :
    ∃ e, PyDict.get? m.amplitudes
        ⟨"A^" ++ toString k, none, [.num (l 0), .num (l 1), .num (l 2), .num (l 3)]⟩ = some e ∧
      e.eval ι η = 0 := by
  have hk3 : k ∈ ([1, 2, 3] : List ℤ) := Standard.subsystems hd ((selected_iff hd k).2 hk)
  obtain ⟨i, j, hijk⟩ : ∃ i j, EvenPerm i j k := by
    simp only [List.mem_cons, List.not_mem_nil, or_false] at hk3
    rcases hk3 with rfl | rfl | rfl
    · exact ⟨2, 3, by simp [EvenPerm]⟩
    · exact ⟨3, 1, by simp [EvenPerm]⟩
    · exact ⟨1, 2, by simp [EvenPerm]⟩
  obtain ⟨e, he, hv⟩ := C29_amplitude_value hd hdyn hr h hfree hres hijk hk hl ι η
  refine ⟨e, he, hv.trans ?_⟩
  apply List.sum_eq_zero
  intro x hx
  obtain ⟨c, hc, rfl⟩ := List.mem_map.1 hx
  obtain ⟨hc1, hc2⟩ := List.mem_filter.1 hc
  unfold chainValue
  rw [if_neg (hno c hc1 (by simpa using hc2))]

/-- In the example decay `Lc → K*(→ pi K) p` the combination `λ0 = λp = 1/2` needs `K*` helicity 1. -/
example : EvenPerm 2 3 1 ∧ Selected (exBuilder true true false) 1 ∧
    (∀ i ∈ ([0, 1, 2, 3] : List ℤ), Projection (exDecay.spin i)
      ((fun i => if i = 0 ∨ i = 1 then 1/2 else 0 : ℤ → ℚ) i)) ∧
    Projection exChainK.resonance.toP.spin (1/2 + 1/2) := by
  have h0 : exDecay.spin 0 = 1/2 := rfl
  have h1 : exDecay.spin 1 = 1/2 := rfl
  have h2 : exDecay.spin 2 = 0 := rfl
  have h3 : exDecay.spin 3 = 0 := rfl
  refine ⟨by simp [EvenPerm], ⟨exChainK, by simp [exBuilder, exDecay], rfl⟩, ?_, ?_⟩
  · intro i hi
    simp only [List.mem_cons, List.not_mem_nil, or_false] at hi
    rcases hi with rfl | rfl | rfl | rfl
    · rw [h0]; exact ⟨by norm_num, by norm_num, 0, by norm_num⟩
    · rw [h1]; exact ⟨by norm_num, by norm_num, 0, by norm_num⟩
    · rw [h2]; exact ⟨by norm_num, by norm_num, 0, by norm_num⟩
    · rw [h3]; exact ⟨by norm_num, by norm_num, 0, by norm_num⟩
  · have : exChainK.resonance.toP.spin = 1 := rfl
    rw [this]; exact ⟨by norm_num, by norm_num, 0, by norm_num⟩

example : (∀ c ∈ exDecay.chains, HelicityFree ((fun _ => {}) c : DefExpr).expression) ∧
    (∀ c ∈ exDecay.chains, c.resonance ≠ .state c.spectator) := by
  refine ⟨fun _ _ _ _ _ => rfl, fun c hc => ?_⟩
  simp only [exDecay, List.mem_cons, List.not_mem_nil, or_false] at hc
  rcases hc with rfl | rfl <;> simp [exChainK, exChainL]

/-! ### C30 -/

/-- C30: the intensity is the sum over the helicities of the squared modulus of the aligned
amplitude, whatever values the amplitude symbols have; `full_expression` is the same with the
amplitude symbols replaced by the values of their definitions. -/
theorem C30_intensity_value (hd : Standard b.decay) (hdyn : Lineshapes b dyn) (hr : RefOk reference)
    (h : b.formulate reference cl uc = .ok m) (ι : Interp) (η : Sym → ℚ) :
    ∃ ref, UsedRef b reference ref ∧
      m.intensity.eval ι η = (intensity ι b.decay ref (symbolValue ι) : ℂ) ∧
      m.fullExpression.eval ι η = (intensity ι b.decay ref (definedValue m ι η) : ℂ) := by
  obtain ⟨ref, P, hu, -, -, rfl, -⟩ := formulate_inv hd hdyn hr h
  exact ⟨ref, hu, eval_intensity ι η hd dyn ref cl uc P, eval_full ι η hd dyn ref cl uc P⟩

/-- C30: the intensity and the full expression are non-negative real numbers for all values of all
parameters and variables. -/
theorem C30_nonnegative (hd : Standard b.decay) (hdyn : Lineshapes b dyn) (hr : RefOk reference)
    (h : b.formulate reference cl uc = .ok m) (ι : Interp) (η : Sym → ℚ) :
    (∃ x : ℝ, 0 ≤ x ∧ m.intensity.eval ι η = x) ∧
    (∃ x : ℝ, 0 ≤ x ∧ m.fullExpression.eval ι η = x) := by
  obtain ⟨ref, -, h1, h2⟩ := C30_intensity_value hd hdyn hr h ι η
  exact ⟨⟨_, Finset.sum_nonneg fun _ _ => by positivity, h1⟩,
    ⟨_, Finset.sum_nonneg fun _ _ => by positivity, h2⟩⟩

example : ∃ m, (exBuilder false true true).formulate (some 1) true false = .ok m :=
  exBuilder_ok _ _ _ _ _

/-! ### C32 -/

/-- C32: if every coefficient has the value of the product of the corresponding couplings, the models
with and without `use_coefficients` define the same amplitudes, with the same values, and have the
same intensity. -/
theorem C32_coefficients (hd : Standard b.decay) (hdyn : Lineshapes b dyn) (hr : RefOk reference)
    {m₁ m₂ : AmplitudeModel} (h₁ : b.formulate reference cl false = .ok m₁)
    (h₂ : b.formulate reference cl true = .ok m₂)
    (hfree : ∀ c ∈ b.decay.chains, HelicityFree (dyn c).expression)
    (hres : b.useProdHel = false → ∀ c ∈ b.decay.chains, c.resonance ≠ .state c.spectator)
    (ι : Interp) (η : Sym → ℚ)
    (hc : ∀ c ∈ b.decay.chains, ∀ lR lk li lj : ℚ,
      let R := c.resonance.toP.latex
      let p := couplingIndices b.useProdHel c.incomingLs lR lk
      let q := couplingIndices b.useDecHel c.outgoingLs li lj
      ι.idx (coefficientName R b.useProdHel b.useDecHel) none (p ++ q) =
        ι.idx (couplingName b.useProdHel "production") (some R) p *
        ι.idx (couplingName b.useDecHel "decay") (some R) q) :
    (∀ x, x ∈ PyDict.keys m₁.amplitudes ↔ x ∈ PyDict.keys m₂.amplitudes) ∧
    (∀ x e₁ e₂, PyDict.get? m₁.amplitudes x = some e₁ → PyDict.get? m₂.amplitudes x = some e₂ →
      e₁.eval ι η = e₂.eval ι η) ∧
    m₁.fullExpression.eval ι η = m₂.fullExpression.eval ι η := by
  obtain ⟨-, k1⟩ := C25_amplitudes hd hdyn hr h₁
  obtain ⟨-, k2⟩ := C25_amplitudes hd hdyn hr h₂
  have hkeys : ∀ x, x ∈ PyDict.keys m₁.amplitudes ↔ x ∈ PyDict.keys m₂.amplitudes :=
    fun x => (k1 x).trans (k2 x).symm
  have hval : ∀ x e₁ e₂, PyDict.get? m₁.amplitudes x = some e₁ →
      PyDict.get? m₂.amplitudes x = some e₂ → e₁.eval ι η = e₂.eval ι η := by
    intro x e₁ e₂ g₁ g₂
    obtain ⟨k, l, hk, hl, rfl⟩ := (k1 x).1 (PyDict.mem_keys_iff.2 ⟨_, g₁⟩)
    have hk3 : k ∈ ([1, 2, 3] : List ℤ) := Standard.subsystems hd ((selected_iff hd k).2 hk)
    obtain ⟨i, j, hijk⟩ : ∃ i j, EvenPerm i j k := by
      simp only [List.mem_cons, List.not_mem_nil, or_false] at hk3
      rcases hk3 with rfl | rfl | rfl
      · exact ⟨2, 3, by simp [EvenPerm]⟩
      · exact ⟨3, 1, by simp [EvenPerm]⟩
      · exact ⟨1, 2, by simp [EvenPerm]⟩
    obtain ⟨a₁, b₁, v₁⟩ := C29_amplitude_value hd hdyn hr h₁ hfree hres hijk hk hl ι η
    obtain ⟨a₂, b₂, v₂⟩ := C29_amplitude_value hd hdyn hr h₂ hfree hres hijk hk hl ι η
    rw [g₁] at b₁; rw [g₂] at b₂
    cases b₁; cases b₂
    rw [v₁, v₂]
    congr 1
    apply List.map_congr_left
    intro c hc'
    unfold chainValue couplings
    simp only [Bool.false_eq_true, if_false, if_true]
    rw [hc c (List.mem_filter.1 hc').1]
  refine ⟨hkeys, hval, ?_⟩
  obtain ⟨r₁, u₁, -, f₁⟩ := C30_intensity_value hd hdyn hr h₁ ι η
  obtain ⟨r₂, u₂, -, f₂⟩ := C30_intensity_value hd hdyn hr h₂ ι η
  have hr12 : r₁ = r₂ := by
    cases reference with
    | none =>
      have := (show b.decay.bestReference = .ok r₁ from u₁).symm.trans u₂
      exact Except.ok.inj this
    | some r => exact (show r = r₁ from u₁).symm.trans u₂
  subst hr12
  rw [f₁, f₂]
  congr 1
  apply intensity_congr
  intro k _ l _
  unfold definedValue
  cases g₁ : PyDict.get? m₁.amplitudes (amplitudeSymbol k l) with
  | none =>
    cases g₂ : PyDict.get? m₂.amplitudes (amplitudeSymbol k l) with
    | none => rfl
    | some e =>
      rw [PyDict.get?_eq_none] at g₁
      exact absurd ((hkeys _).2 (PyDict.mem_keys_iff.2 ⟨_, g₂⟩)) g₁
  | some e =>
    cases g₂ : PyDict.get? m₂.amplitudes (amplitudeSymbol k l) with
    | none =>
      rw [PyDict.get?_eq_none] at g₂
      exact absurd ((hkeys _).1 (PyDict.mem_keys_iff.2 ⟨_, g₁⟩)) g₂
    | some e' => exact hval _ _ _ g₁ g₂

/-- Values in which coefficients are products of couplings: here couplings are 2 or 3 and coefficients
are 6, for every name. -/
example : ∃ ι : Interp, ∀ c ∈ exDecay.chains, ∀ lR lk li lj : ℚ,
    let R := c.resonance.toP.latex
    let p := couplingIndices true c.incomingLs lR lk
    let q := couplingIndices true c.outgoingLs li lj
    ι.idx (coefficientName R true true) none (p ++ q) =
      ι.idx (couplingName true "production") (some R) p *
      ι.idx (couplingName true "decay") (some R) q := by
  refine ⟨⟨fun _ => 0, fun s r _ => if r = none then 6 else
    if s = couplingName true "production" then 2 else 3, fun _ _ _ _ => 0, fun _ _ _ _ _ _ => 0,
    fun _ _ _ _ _ => 0, fun _ _ _ _ _ _ _ _ => 0, fun _ _ _ => 0⟩, ?_⟩
  intro c _ lR lk li lj
  have : couplingName true "decay" ≠ couplingName true "production" := by decide
  simp only [if_true, if_neg this, reduceCtorEq, if_false]
  norm_num

/-! ### C34 -/

/-- C34: `cleanup_summations` does not change the value of the intensity nor of the full expression,
and the sums over the outer helicities are not cleaned up: they run over all four helicities with
all projections in both cases. -/
theorem C34_cleanup (hd : Standard b.decay) (hdyn : Lineshapes b dyn) (hr : RefOk reference)
    {m₁ m₂ : AmplitudeModel} (h₁ : b.formulate reference true uc = .ok m₁)
    (h₂ : b.formulate reference false uc = .ok m₂) (ι : Interp) (η : Sym → ℚ) :
    m₁.intensity.eval ι η = m₂.intensity.eval ι η ∧
    m₁.amplitudes = m₂.amplitudes ∧
    m₁.fullExpression.eval ι η = m₂.fullExpression.eval ι η ∧
    ∃ e₁ e₂, m₁.intensity = .psum e₁ ([0, 1, 2, 3].map fun i => (⟨"lambda" ++ toString i, .rational⟩,
        createSpinRange (b.decay.spin i))) ∧
      m₂.intensity = .psum e₂ ([0, 1, 2, 3].map fun i => (⟨"lambda" ++ toString i, .rational⟩,
        createSpinRange (b.decay.spin i))) := by
  obtain ⟨r₁, P₁, u₁, -, -, rfl, -⟩ := formulate_inv hd hdyn hr h₁
  obtain ⟨r₂, P₂, u₂, -, -, rfl, -⟩ := formulate_inv hd hdyn hr h₂
  have hr12 : r₁ = r₂ := by
    cases reference with
    | none =>
      have := (show b.decay.bestReference = .ok r₁ from u₁).symm.trans u₂
      exact Except.ok.inj this
    | some r => exact (show r = r₁ from u₁).symm.trans u₂
  subst hr12
  refine ⟨?_, rfl, ?_, ?_⟩
  · rw [eval_intensity ι η hd, eval_intensity ι η hd]
  · rw [eval_full ι η hd, eval_full ι η hd]
    rfl
  · exact ⟨_, _, rfl, rfl⟩

/-- Both calls succeed on the example, where the spin-0 particles make the inner sums collapse. -/
example : ∃ m₁ m₂, (exBuilder true true false).formulate (some 1) true false = .ok m₁ ∧
    (exBuilder true true false).formulate (some 1) false false = .ok m₂ ∧
    m₁.intensity ≠ m₂.intensity := by
  have hM : ¬ Missing (exBuilder true true false) := by
    rw [missing_iff (b := exBuilder true true false) exDecay_standard]
    rintro ⟨-, c, hc, h⟩
    exact h (exBuilder_ls _ _ _ hc)
  obtain ⟨P, hP, -⟩ := formulate_ok (b := exBuilder true true false) (reference := some 1)
    exDecay_standard (exBuilder_lineshapes _ _ _) (ref := 1) rfl (by simp) true false hM
  obtain ⟨P', hP', -⟩ := formulate_ok (b := exBuilder true true false) (reference := some 1)
    exDecay_standard (exBuilder_lineshapes _ _ _) (ref := 1) rfl (by simp) false false hM
  refine ⟨_, _, hP, hP', ?_⟩
  rw [intensity_eq, intensity_eq]
  intro h
  simp only [if_true, Bool.false_eq_true, if_false, Expr.psum.injEq, Expr.pow.injEq,
    Expr.abs.injEq, and_true] at h
  unfold alignedExpr at h
  rw [cleanup_psum] at h
  split at h
  · revert h
    generalize (exBuilder true true false).decay.subsystemIds.map _ = L
    cases L <;> intro h <;> simp [Expr.addAll, Expr.substHel] at h
  · simp only [Expr.psum.injEq] at h
    have h2 : (lambdaPrime 2, createSpinRange (spins exDecay 2)) ∈
        manies ([0, 1, 2, 3].map fun i => (lambdaPrime i, createSpinRange (spins exDecay i))) := by
      have := h.2
      change manies ([0, 1, 2, 3].map fun i => (lambdaPrime i, createSpinRange (spins exDecay i))) =
        _ at this
      rw [this]; exact List.mem_map.2 ⟨2, by simp, rfl⟩
    have h3 := (List.mem_filter.1 h2).2
    have h4 : spins exDecay 2 = 0 := rfl
    rw [h4] at h3
    have h5 := (C01_spin_range 0 0 (by norm_num)).2.1
    simp [h5] at h3

/-! ### The formulas for the example -/

/-- C29: the value of `A^1` for helicities that all spins allow. -/
example : ∃ m, (exBuilder true true false).formulate (some 1) true false = .ok m ∧ ∀ ι η, ∃ e,
    PyDict.get? m.amplitudes ⟨"A^1", none, [.num (1/2), .num (1/2), .num 0, .num 0]⟩ = some e ∧
    e.eval ι η = e.eval ι fun _ => 0 := by
  obtain ⟨m, hm⟩ := exBuilder_ok true true false true false
  have hl : ∀ i ∈ ([0, 1, 2, 3] : List ℤ), Projection ((exBuilder true true false).decay.spin i)
      ((fun i => if i = 0 ∨ i = 1 then 1/2 else 0 : ℤ → ℚ) i) := by
    intro i hi
    have h0 : (exBuilder true true false).decay.spin 0 = 1/2 := rfl
    have h1 : (exBuilder true true false).decay.spin 1 = 1/2 := rfl
    have h2 : (exBuilder true true false).decay.spin 2 = 0 := rfl
    have h3 : (exBuilder true true false).decay.spin 3 = 0 := rfl
    simp only [List.mem_cons, List.not_mem_nil, or_false] at hi
    rcases hi with rfl | rfl | rfl | rfl
    · rw [h0]; exact ⟨by norm_num, by norm_num, 0, by norm_num⟩
    · rw [h1]; exact ⟨by norm_num, by norm_num, 0, by norm_num⟩
    · rw [h2]; exact ⟨by norm_num, by norm_num, 0, by norm_num⟩
    · rw [h3]; exact ⟨by norm_num, by norm_num, 0, by norm_num⟩
  refine ⟨m, hm, fun ι η => ?_⟩
  have key := C29_amplitude_value (b := exBuilder true true false) exDecay_standard
    (exBuilder_lineshapes _ _ _) (by simp [RefOk]) hm (fun _ _ _ _ _ => rfl) (fun h => by cases h)
    (i := 2) (j := 3) (k := 1) (by unfold EvenPerm; decide) ⟨exChainK, by simp [exBuilder, exDecay], rfl⟩ hl ι
  obtain ⟨e, h1, h2⟩ := key η
  obtain ⟨e', h1', h2'⟩ := key fun _ => 0
  have : e' = e := Option.some.inj (h1'.symm.trans h1)
  subst this
  exact ⟨e', h1, h2.trans h2'.symm⟩

/-- C30: the intensity of the example for reference subsystem 1. -/
example : ∃ m, (exBuilder true true false).formulate (some 1) true false = .ok m ∧ ∀ ι η,
    m.fullExpression.eval ι η = (intensity ι exDecay 1 (definedValue m ι η) : ℂ) := by
  obtain ⟨m, hm⟩ := exBuilder_ok true true false true false
  refine ⟨m, hm, fun ι η => ?_⟩
  obtain ⟨ref, h1, -, h2⟩ := C30_intensity_value (b := exBuilder true true false) exDecay_standard
    (exBuilder_lineshapes _ _ _) (by simp [RefOk]) hm ι η
  have : ref = 1 := (show (1 : ℤ) = ref from h1).symm
  rw [h2, this]
  rfl

end Verif.ThreeBody
