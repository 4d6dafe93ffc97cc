import Verif.Spec.Conjugation
import Verif.Proofs.Superposition
import Verif.Proofs.Projection
import Verif.Props.Bound
import Verif.Props.SerialBound

/-!
Property C118: the intensity does not change if all couplings and all lineshapes are replaced by their complex conjugates.
-/
namespace Verif.ThreeBody
open Verif Verif.Spec Verif.Spin Verif.Angles ComplexConjugate

variable {b : Builder} {dyn dyn' : Chain → DefExpr} {reference : Option ℤ} {cl cl' uc : Bool}
  {m m' : AmplitudeModel} {ι ι' : Interp} {d : Decay}

theorem wig_conj (hw : ActualWigner ι) {z : ℂ} (hz : ∃ x : ℝ, z = x) (j p q : ℚ) : conj (ι.wig j p q z) = ι.wig j p q z := by
  obtain ⟨x, rfl⟩ := hz
  rw [hw]
  split <;> simp

theorem rotation_conj (hw : ActualWigner ι) (ha : RealAngles ι) (hs : SameRotations ι ι') (ref k : ℤ) (i : Fin 4) (p q : ℚ) :
    rotation ι' d ref k i p q = conj (rotation ι d ref k i p q) := by
  unfold rotation
  split
  · simp
  · rw [hs.wigner, hs.alignment, wig_conj hw (ha.alignment _ _ _)]

/-- Conjugate amplitudes have the same intensity. -/
theorem intensityOver_conj (hw : ActualWigner ι) (ha : RealAngles ι) (hs : SameRotations ι ι') {S : Finset ℤ} {ref : ℤ}
    {A A' : ℤ → (Fin 4 → ℚ) → ℂ} (hA : ∀ k ∈ S, ∀ l ∈ helicities d, A' k l = conj (A k l)) :
    intensityOver ι' d S ref A' = intensityOver ι d S ref A := by
  unfold intensityOver
  refine Finset.sum_congr rfl fun l _ => ?_
  have : alignedOver ι' d S ref A' l = conj (alignedOver ι d S ref A l) := by
    unfold alignedOver
    rw [map_sum]
    refine Finset.sum_congr rfl fun l' hl' => ?_
    rw [map_sum]
    refine Finset.sum_congr rfl fun k hk => ?_
    simp only [map_mul]
    rw [hA k hk l' hl']
    simp only [rotation_conj hw ha hs]
  rw [this, Complex.norm_conj]

theorem minusOnePow_conj {x : ℚ} (h : ∃ n : ℤ, x = n) : conj (minusOnePow x) = minusOnePow x := by
  obtain ⟨n, rfl⟩ := h
  rw [C29_phase_is_sign]
  simp

theorem half_conj {x : ℚ} (hx : 0 ≤ x) : conj ((x : ℂ) ^ (1 / 2 : ℂ)) = (x : ℂ) ^ (1 / 2 : ℂ) := by
  have : ((x : ℂ) ^ (1 / 2 : ℂ)) = (((x : ℝ) ^ (1 / 2 : ℝ) : ℝ) : ℂ) := by
    rw [Complex.ofReal_cpow (by exact_mod_cast hx)]
    push_cast
    rfl
  rw [this, Complex.conj_ofReal]

theorem lsFactor_conj (hc : RealClebschGordan ι) (hs : SameRotations ι ι') {J s1 s2 : ℚ} (hJ : 0 ≤ J) {ls : LS} (hL : 0 ≤ ls.L)
    (h1 h2 : ℚ) : lsFactor ι' J s1 s2 ls h1 h2 = conj (lsFactor ι J s1 s2 ls h1 h2) := by
  unfold lsFactor
  have hcg : ∀ j1 m1 j2 m2 J M, conj (ι.cg j1 m1 j2 m2 J M) = ι.cg j1 m1 j2 m2 J M := by
    intro j1 m1 j2 m2 J M
    obtain ⟨x, hx⟩ := hc j1 m1 j2 m2 J M
    rw [hx, Complex.conj_ofReal]
  have hL' : (0 : ℚ) ≤ ls.L := by exact_mod_cast hL
  rw [map_mul, map_mul, half_conj (by positivity), hcg, hcg, hs.cg]

theorem chainValue_conj (hw : ActualWigner ι) (ha : RealAngles ι) (hcg : RealClebschGordan ι) (hs : SameRotations ι ι') {c : Chain}
    (hc : NonnegativeNumbers c) {line line' : Chain → ℂ} (hline : line' c = conj (line c))
    (hcoup : ∀ lR lk li lj : ℚ, couplings ι' b c uc lR lk li lj = conj (couplings ι b c uc lR lk li lj))
    {i j k : ℤ} {l : ℤ → ℚ} (hk : ∃ n : ℤ, b.decay.spin k - l k = n) (hj : ∃ n : ℤ, b.decay.spin j - l j = n) :
    chainValue ι' b uc line' i j k l c = conj (chainValue ι b uc line i j k l c) := by
  unfold chainValue
  split
  · simp only [map_mul]
    rw [minusOnePow_conj hk, minusOnePow_conj hj, hline, hcoup]
    have hθ : ι'.sym ⟨"theta_" ++ toString i ++ toString j, .real⟩ = ι.sym ⟨"theta_" ++ toString i ++ toString j, .real⟩ :=
      hs.decay i j
    have hreal : ∃ x : ℝ, ι.sym ⟨"theta_" ++ toString i ++ toString j, .real⟩ = x := ha.decay i j
    rw [hθ, hs.wigner, wig_conj hw hreal]
    have h1 : decayFactor ι' b c l = conj (decayFactor ι b c l) := by
      unfold decayFactor
      split
      · simp
      · simp
      · rename_i ls h
        exact lsFactor_conj hcg hs hc.resonance (hc.outgoing _ h) _ _
    have h2 : ∀ lR lk, productionFactor ι' b c lR lk = conj (productionFactor ι b c lR lk) := by
      intro lR lk
      unfold productionFactor
      split
      · simp
      · simp
      · rename_i ls h
        split
        · exact lsFactor_conj hcg hs hc.parent (hc.incoming _ h) _ _
        · exact lsFactor_conj hcg hs hc.parent (hc.incoming _ h) _ _
    rw [h1, h2]
  · simp

/-- C118: for real values of the angles, the intensity is the same if all couplings and all values of the lineshapes are
replaced by their complex conjugates, in both bases, with and without coefficients. -/
theorem C118_conjugate (hd : Standard b.decay) (hdyn : Lineshapes b dyn) (hr : RefOk reference)
    (h : b.formulate reference cl uc = .ok m)
    (hfree : ∀ c ∈ b.decay.chains, HelicityFree (dyn c).expression)
    (hres : b.useProdHel = false → ∀ c ∈ b.decay.chains, c.resonance ≠ .state c.spectator)
    (hnn : ∀ c ∈ b.decay.chains, NonnegativeNumbers c)
    (hw : ActualWigner ι) (ha : RealAngles ι) (hcg : RealClebschGordan ι) (hs : SameRotations ι ι') {η : Sym → ℚ}
    (hline : ∀ c ∈ b.decay.chains, (dyn c).expression.eval ι' η = conj ((dyn c).expression.eval ι η))
    (hcoup : ∀ c ∈ b.decay.chains, ∀ lR lk li lj : ℚ,
      couplings ι' b c uc lR lk li lj = conj (couplings ι b c uc lR lk li lj)) :
    m.fullExpression.eval ι' η = m.fullExpression.eval ι η := by
  obtain ⟨ref, -, hv⟩ := full_value hd hdyn hr h hfree hres η
  rw [hv, hv]
  refine congrArg _ (intensityOver_conj (S := subsystems b.decay) hw ha hs fun k hk l hl => ?_)
  unfold subsystemValue
  rw [map_list_sum, List.map_map]
  refine congrArg List.sum (List.map_congr_left fun c hc => ?_)
  have hc' := (List.mem_filter.1 hc).1
  have hk3 : k ∈ ([1, 2, 3] : List ℤ) := Standard.subsystems hd ((selected_iff hd k).2 (selected_of_chain hd hk))
  have hint : ∀ n ∈ ([1, 2, 3] : List ℤ), ∃ z : ℤ, b.decay.spin n - byId l n = z := by
    rw [mem_helicities hd] at hl
    intro n hn
    simp only [List.mem_cons, List.not_mem_nil, or_false] at hn
    rcases hn with rfl | rfl | rfl
    · exact (hl 1).2.2
    · exact (hl 2).2.2
    · exact (hl 3).2.2
  refine chainValue_conj hw ha hcg hs (hnn c hc') (hline c hc') (hcoup c hc') (hint k hk3) (hint _ ?_)
  simp only [List.mem_cons, List.not_mem_nil, or_false] at hk3
  rcases hk3 with rfl | rfl | rfl <;> simp [prodIds]

theorem couplings_conj (hx : ∀ name sup args, ι'.idx name sup args = conj (ι.idx name sup args)) (c : Chain) (lR lk li lj : ℚ) :
    couplings ι' b c uc lR lk li lj = conj (couplings ι b c uc lR lk li lj) := by
  unfold couplings
  split <;> simp [hx]

/-- C118: if all lineshapes have real values (for instance if no dynamics is set), conjugating all couplings does not change the
intensity: the sign of the relative phases cannot be observed. -/
theorem C118_real_lineshapes (hd : Standard b.decay) (hdyn : Lineshapes b dyn) (hr : RefOk reference)
    (h : b.formulate reference cl uc = .ok m)
    (hfree : ∀ c ∈ b.decay.chains, HelicityFree (dyn c).expression)
    (hres : b.useProdHel = false → ∀ c ∈ b.decay.chains, c.resonance ≠ .state c.spectator)
    (hnn : ∀ c ∈ b.decay.chains, NonnegativeNumbers c)
    (hw : ActualWigner ι) (ha : RealAngles ι) (hcg : RealClebschGordan ι) (hs : SameRotations ι ι') {η : Sym → ℚ}
    (hline : ∀ c ∈ b.decay.chains, (dyn c).expression.eval ι' η = (dyn c).expression.eval ι η ∧
      ∃ x : ℝ, (dyn c).expression.eval ι η = x)
    (hx : ∀ name sup args, ι'.idx name sup args = conj (ι.idx name sup args)) :
    m.fullExpression.eval ι' η = m.fullExpression.eval ι η := by
  refine C118_conjugate hd hdyn hr h hfree hres hnn hw ha hcg hs (fun c hc => ?_) fun c _ => couplings_conj hx c
  obtain ⟨h1, x, h2⟩ := hline c hc
  rw [h1, h2, Complex.conj_ofReal]

/-- C118: with Breit-Wigner lineshapes of constant width, conjugating all couplings is the same as changing the sign of all
widths. -/
theorem C118_breit_wigner (hd : Standard b.decay) (hdyn : Lineshapes b dyn) (hr : RefOk reference)
    (h : b.formulate reference cl uc = .ok m) {bw : BreitWignerBuilder} {R : Chain → Particle} {first : Chain → Bool}
    (hbw : bw.energyDependentWidth = false ∧ bw.decayFormFactor = false ∧ bw.productionFormFactor = false)
    (hl : ∀ c ∈ b.decay.chains, PlainChain c (R c) (first c) ∧ NumberedFinalState c ∧ bw.call c = .ok (dyn c))
    (hres : b.useProdHel = false → ∀ c ∈ b.decay.chains, c.resonance ≠ .state c.spectator)
    (hnn : ∀ c ∈ b.decay.chains, NonnegativeNumbers c)
    (hw : ActualWigner ι) (ha : RealAngles ι) (hcg : RealClebschGordan ι) (hs : SameRotations ι ι') (η : Sym → ℚ)
    {σ : ℤ → ℝ} {M Γ : Chain → ℝ} (hσ : ∀ k, ι.sym (mandelstam k) = σ k ∧ ι'.sym (mandelstam k) = σ k)
    (hM : ∀ c ∈ b.decay.chains, ι.sym (massOfResonance (R c)) = M c ∧ ι'.sym (massOfResonance (R c)) = M c)
    (hΓ : ∀ c ∈ b.decay.chains, ι.sym (widthOfResonance (R c)) = Γ c ∧ ι'.sym (widthOfResonance (R c)) = -Γ c)
    (hx : ∀ name sup args, ι'.idx name sup args = conj (ι.idx name sup args)) :
    m.fullExpression.eval ι' η = m.fullExpression.eval ι η := by
  have hval : ∀ c ∈ b.decay.chains, ∀ (ι : Interp) (η : Sym → ℚ), (dyn c).expression.eval ι η =
      breitWignerValue (ι.sym (mandelstam c.spectator.index)) (ι.sym (massOfResonance (R c))) (ι.sym (widthOfResonance (R c))) := by
    intro c hc ι η
    rw [C42_value (hl c hc).1 (hl c hc).2.1 (hl c hc).2.2]
    unfold lineshapeValue
    simp only [hbw.1, hbw.2.1, hbw.2.2]
    simp
  refine C118_conjugate hd hdyn hr h (fun c hc ι η η' => by rw [hval c hc, hval c hc]) hres hnn hw ha hcg hs (fun c hc => ?_)
    fun c _ => couplings_conj hx c
  rw [hval c hc, hval c hc, (hσ _).1, (hσ _).2, (hM c hc).1, (hM c hc).2, (hΓ c hc).1, (hΓ c hc).2]
  unfold breitWignerValue
  simp

/-- The couplings have the value `z`, all else as in `exOnes`. -/
noncomputable def exPhase (z : ℂ) : Interp := { exOnes with idx := fun _ _ args => if args.head? = some 0 then 1 else z }

/-- The example decay, in the LS basis and in the helicity basis: the couplings `1` and `i` give the same intensity as the
couplings `1` and `-i`. -/
example (p q : Bool) : ∃ m, (exBuilder p q false).formulate (some 1) true false = .ok m ∧
    m.fullExpression.eval (exPhase (-Complex.I)) (fun _ => 0) = m.fullExpression.eval (exPhase Complex.I) fun _ => 0 := by
  obtain ⟨m, hm⟩ := exBuilder_ok p q false true false
  refine ⟨m, hm, C118_real_lineshapes (b := exBuilder p q false) (ι := exPhase Complex.I) (ι' := exPhase (-Complex.I)) exDecay_standard (exBuilder_lineshapes _ _ _)
    (by rintro x ⟨⟩; simp) hm (fun _ _ => exFree) ?_ ?_ (fun j m m' x => exOnes_actual j m m' x)
    ⟨exOnes_angles.decay, exOnes_angles.alignment⟩ (fun _ _ _ _ _ _ => ⟨_, exOnes_cg _ _ _ _ _ _⟩)
    ⟨fun _ _ => rfl, fun _ _ _ => rfl, rfl, rfl⟩ ?_ ?_⟩
  · intro _ c hc
    simp only [exBuilder, exDecay, List.mem_cons, List.not_mem_nil, or_false] at hc
    rcases hc with rfl | rfl <;> simp [exChainK, exChainL]
  · intro c hc
    simp only [exBuilder, exDecay, List.mem_cons, List.not_mem_nil, or_false] at hc
    rcases hc with rfl | rfl <;> constructor <;> simp [exChainK, exChainL] <;> decide +kernel
  · intro c _
    have e : ∀ ι η, ({} : DefExpr).expression.eval ι η = 1 := by
      intro ι η; simp [Expr.eval]
    exact ⟨by rw [e, e], 1, by rw [e]; simp⟩
  · intro name sup args
    simp only [exPhase]
    split <;> simp

end Verif.ThreeBody

namespace Verif.Serialization
open Verif Verif.ThreeBody Verif.Spec Verif.Spin Verif.Angles ComplexConjugate

variable {m : ModelDefinition} {tl : String → String} {add : Option (PyDict String PropagatorBuilder)}
  {D : Distribution} {rd : ChainDefinition → Reading} {cl : Bool} {a : AmplitudeModel} {ref : ℤ} {ι ι' : Interp}
  {line line' : ChainDefinition → ℂ} {form form' : Vertex → ℂ}

theorem vertexValue_conj (v : Vertex) (lR : ℚ) (l : ℤ → ℚ) : conj (vertexValue v lR l) = vertexValue v lR l := by
  unfold vertexValue
  split
  · unfold recouplingValue
    generalize vertexParity v = f
    cases f <;> split_ifs <;> simp
  · simp

/-- C118, for serialized models: the same for the weights of the chains and the values of lineshapes and form factors. -/
theorem C118_serial (hm : ReadsModel m D rd) (h0 : NonnegativeSpins D) (href : IsSpectator D.referenceTopology ref)
    (href' : ref ∈ ([1, 2, 3] : List ℤ)) (h : formulate m cl tl add = .ok a)
    (hv : DynamicsValues m D.chains tl add ι line form) (hv' : DynamicsValues m D.chains tl add ι' line' form')
    (hw : ActualWigner ι) (ha : RealAngles ι) (hs : SameRotations ι ι') (η : Sym → ℚ)
    (hline : ∀ c ∈ D.chains, line' c * (c.vertices.map form').prod = conj (line c * (c.vertices.map form).prod))
    (hwt : ∀ c ∈ D.chains, ι'.sym (weightSymbol tl c (rd c)) = conj (ι.sym (weightSymbol tl c (rd c)))) :
    a.fullExpression.eval ι' η = a.fullExpression.eval ι η := by
  rw [(C70_intensity_value hm h0 href href' h ι η).2, (C70_intensity_value hm h0 href href' h ι' η).2]
  refine congrArg _ (intensityOver_conj hw ha hs fun k hk l hl => ?_)
  rw [C60_amplitude_value hm h hv η k hl, C60_amplitude_value hm h hv' η k hl, map_list_sum, List.map_map]
  refine congrArg List.sum (List.map_congr_left fun c hc => ?_)
  simp only [Function.comp]
  split
  · unfold serialValue
    rw [hline c hc, hwt c hc]
    have hθ : ι'.sym ⟨"theta_" ++ toString (rd c).i ++ toString (rd c).j, .real⟩ =
        ι.sym ⟨"theta_" ++ toString (rd c).i ++ toString (rd c).j, .real⟩ := hs.decay _ _
    have hreal : ∃ x : ℝ, ι.sym ⟨"theta_" ++ toString (rd c).i ++ toString (rd c).j, .real⟩ = x := ha.decay _ _
    have hprod : conj (c.vertices.map fun v => vertexValue v (rd c).lR (byId l)).prod =
        (c.vertices.map fun v => vertexValue v (rd c).lR (byId l)).prod := by
      rw [map_list_prod, List.map_map]
      simp only [Function.comp_def, vertexValue_conj]
    simp only [hθ, hs.wigner, map_mul (starRingEnd ℂ) (ι.sym _), map_mul (starRingEnd ℂ) (ι.sym _ * _),
      map_mul (starRingEnd ℂ) (ι.sym _ * _ * _), wig_conj hw hreal, hprod]
  · simp
/-- As `exTurn`, with the opposite sign for the widths. -/
noncomputable def exBack : Interp := { exTurn with edw := fun _ _ _ _ _ _ _ _ => -1 }

theorem exBack_line : lineValue exModel id none exBack exKstar = -Complex.I ∧ lineValue exModel id none exBack exLambda = -Complex.I := by
  have h : ∃ P, formulateDynamics exKstar exModel id none = .ok ⟨1 * breitWigner
      (.sym ⟨"sigma1", .nonneg⟩) (.sym (resonanceMass "K892")) (.sym (resonanceWidth "K892"))
      (.sym ⟨"m2", .nonneg⟩) (.sym ⟨"m3", .nonneg⟩) (pyInt 1) (.sym resRadius), P⟩ := ⟨_, rfl⟩
  have h' : ∃ P, formulateDynamics exLambda exModel id none = .ok ⟨1 * breitWigner
      (.sym ⟨"sigma2", .nonneg⟩) (.sym (resonanceMass "L1520")) (.sym (resonanceWidth "L1520"))
      (.sym ⟨"m3", .nonneg⟩) (.sym ⟨"m1", .nonneg⟩) (pyInt 2) (.sym resRadius), P⟩ := ⟨_, rfl⟩
  obtain ⟨P, h⟩ := h
  obtain ⟨P', h'⟩ := h'
  have key : ∀ (s m0 g0 m1 m2 d : Sym) (L : ℤ), L ≠ 0 → ∀ η,
      (1 * breitWigner (.sym s) (.sym m0) (.sym g0) (.sym m1) (.sym m2) L (.sym d)).eval exBack η = -Complex.I := by
    intro s m0 g0 m1 m2 d L hL η
    have hw : (breitWignerWidth (.sym s) (.sym m0) (.sym g0) (.sym m1) (.sym m2) L (.sym d)
        "PhaseSpaceFactor").eval exBack η = -1 := by
      unfold breitWignerWidth
      rw [if_neg (by simp [hL])]
      rfl
    change (1 : ℚ) * (((1 : ℚ) : ℂ) / ((1 : ℂ) ^ 2 - 1 - 1 * (breitWignerWidth (.sym s) (.sym m0) (.sym g0) (.sym m1)
      (.sym m2) L (.sym d) "PhaseSpaceFactor").eval exBack η * Complex.I)) = -Complex.I
    rw [hw]
    simp
  unfold lineValue
  rw [h, h']
  exact ⟨key _ _ _ _ _ _ _ (by decide +kernel) _, key _ _ _ _ _ _ _ (by decide +kernel) _⟩

/-- The example model with three chains: the lineshapes are `i` and `-i`. -/
example : ∃ a, formulate exModel true id none = .ok a ∧
    a.fullExpression.eval exBack (fun _ => 0) = a.fullExpression.eval exTurn fun _ => 0 := by
  obtain ⟨a, ha⟩ := exModel_ok id true
  refine ⟨a, ha, C118_serial (ι := exTurn) (ι' := exBack) exModel_reads exDistribution_nonneg exModel_reference (by simp) ha
    (dynamics_values (fun _ h => by cases h) _ _) (dynamics_values (fun _ h => by cases h) _ _) exTurn_actual exTurn_angles
    ⟨fun _ _ => rfl, fun _ _ _ => rfl, rfl, rfl⟩ _ (fun c hc => ?_) fun c hc => (map_one _).symm⟩
  have hf : ∀ ι, (c.vertices.map (formValue exModel ι)).prod = 1 := by
    intro ι
    refine List.prod_eq_one fun x hx => ?_
    obtain ⟨v, hv, rfl⟩ := List.mem_map.1 hx
    exact ex_form ι c hc v hv
  rw [hf, hf, mul_one, mul_one]
  have l1 : lineValue exModel id none exTurn exLambda = Complex.I := exLambda_line _
  have l2 : lineValue exModel id none exTurn exKstar = Complex.I := exKstar_line _
  simp only [exDistribution, List.mem_cons, List.not_mem_nil, or_false] at hc
  rcases hc with rfl | rfl | rfl
  · rw [l1, exBack_line.2, Complex.conj_I]
  · rw [l2, exBack_line.1, Complex.conj_I]
  · rw [l2, exBack_line.1, Complex.conj_I]

end Verif.Serialization
