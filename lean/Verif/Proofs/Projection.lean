import Verif.Proofs.WignerOrtho
import Verif.Proofs.Superposition
import Verif.Spec.Projection

/-! Helpers for C98: one subsystem, integrated over the decay angle. -/
namespace Verif.ThreeBody
open Verif Verif.Spec Verif.Spin Verif.Angles

variable {b b' : Builder} {dyn : Chain → DefExpr} {reference : Option ℤ} {cl cl' uc : Bool}
  {m m' : AmplitudeModel} {ι ι' : Interp}

theorem sum_group {α : Type} (f : α → ℚ) (g : α → ℂ) (D : ℚ → ℂ) (S : Finset ℚ) (cs : List α) (h : ∀ c ∈ cs, f c ∈ S) :
    (cs.map fun c => g c * D (f c)).sum = ∑ J ∈ S, ((cs.filter fun c => f c = J).map g).sum * D J := by
  induction cs with
  | nil => simp
  | cons c cs ih =>
    rw [List.map_cons, List.sum_cons, ih fun x hx => h x (List.mem_cons_of_mem _ hx)]
    have : ∀ J, (((c :: cs).filter fun c => f c = J).map g).sum * D J =
        (if f c = J then g c * D J else 0) + ((cs.filter fun c => f c = J).map g).sum * D J := by
      intro J
      rw [List.filter_cons]
      by_cases hJ : f c = J
      · simp [hJ, add_mul]
      · simp [hJ]
    simp only [this, Finset.sum_add_distrib]
    rw [Finset.sum_ite_eq S (f c) fun J => g c * D J, if_pos (h c (List.mem_cons_self ..))]

theorem norm_sq_sum (S : Finset ℚ) (G : ℚ → ℂ) (D : ℚ → ℝ) :
    ‖∑ J ∈ S, G J * (D J : ℂ)‖ ^ 2 = ∑ J ∈ S, ∑ J' ∈ S, (G J * (starRingEnd ℂ) (G J')).re * (D J * D J') := by
  rw [← Complex.normSq_eq_norm_sq]
  have h : ((Complex.normSq (∑ J ∈ S, G J * (D J : ℂ)) : ℝ) : ℂ) =
      ∑ J ∈ S, ∑ J' ∈ S, G J * (starRingEnd ℂ) (G J') * ((D J * D J' : ℝ) : ℂ) := by
    rw [Complex.normSq_eq_conj_mul_self, mul_comm, map_sum, Finset.sum_mul_sum]
    apply Finset.sum_congr rfl
    intro J _
    apply Finset.sum_congr rfl
    intro J' _
    rw [map_mul, Complex.conj_ofReal]
    push_cast
    ring
  have h2 := congrArg Complex.re h
  rw [Complex.ofReal_re, Complex.re_sum] at h2
  rw [h2]
  apply Finset.sum_congr rfl
  intro J _
  rw [Complex.re_sum]
  apply Finset.sum_congr rfl
  intro J' _
  rw [Complex.re_mul_ofReal]

theorem integral_norm_sq (S : Finset ℚ) (G : ℚ → ℂ) (D : ℚ → ℝ → ℝ) (N : ℚ → ℝ) (hc : ∀ J ∈ S, Continuous (D J))
    (hD : ∀ J ∈ S, ∀ J' ∈ S, ∫ x in (0 : ℝ)..Real.pi, D J x * D J' x * Real.sin x = if J = J' then N J else 0) :
    ∫ x in (0 : ℝ)..Real.pi, ‖∑ J ∈ S, G J * (D J x : ℂ)‖ ^ 2 * Real.sin x = ∑ J ∈ S, N J * ‖G J‖ ^ 2 := by
  have hi : ∀ J ∈ S, ∀ J' ∈ S, Continuous fun x => D J x * D J' x * Real.sin x := fun J h J' h' =>
    ((hc J h).mul (hc J' h')).mul Real.continuous_sin
  have e : ∀ x, ‖∑ J ∈ S, G J * (D J x : ℂ)‖ ^ 2 * Real.sin x = ∑ J ∈ S, ∑ J' ∈ S,
      (G J * (starRingEnd ℂ) (G J')).re * (D J x * D J' x * Real.sin x) := by
    intro x
    rw [norm_sq_sum, Finset.sum_mul]
    apply Finset.sum_congr rfl
    intro J _
    rw [Finset.sum_mul]
    apply Finset.sum_congr rfl
    intro J' _
    ring
  simp only [e]
  rw [intervalIntegral.integral_finsetSum]
  · apply Finset.sum_congr rfl
    intro J hJ
    rw [intervalIntegral.integral_finsetSum]
    · simp only [intervalIntegral.integral_const_mul]
      rw [Finset.sum_congr rfl fun J' hJ' => by rw [hD J hJ J' hJ']]
      simp only [mul_ite, mul_zero]
      rw [Finset.sum_ite_eq S J fun J' => (G J * (starRingEnd ℂ) (G J')).re * N J, if_pos hJ, Complex.mul_conj,
        Complex.ofReal_re, Complex.normSq_eq_norm_sq, mul_comm]
    · intro J' hJ'
      exact ((hi J hJ J' hJ').const_mul _).intervalIntegrable _ _
  · intro J hJ
    exact (continuous_finsetSum S fun J' hJ' => (hi J hJ J' hJ').const_mul _).intervalIntegrable _ _

/-- The alignment of a single subsystem is not observable. -/
theorem intensity_single {d : Decay} (hd : Standard d) {D : ℚ → ℚ → ℚ → ℝ → ℝ} (hD : IsWignerD D) (hι : UsesWignerD ι D)
    {k r : ℤ} (hk : ∀ k' ∈ subsystems d, k' = k) (z : Fin 4 → ℝ)
    (hz : ∀ i : Fin 4, d.spin i ≠ 0 → ι.sym (zetaSymbol i k r) = z i) (A : ℤ → (Fin 4 → ℚ) → ℂ)
    (h0 : k ∉ subsystems d → ∀ l, A k l = 0) :
    Spec.intensity ι d r A = ∑ l ∈ helicities d, ‖A k l‖ ^ 2 := by
  have hhalf := spins_half hd
  have hz0 : ∀ i : Fin 4, d.spin i = 0 → projections (d.spin i) = {0} := by
    intro i hi; rw [hi, projections_zero]
  by_cases hmem : k ∈ subsystems d
  swap
  · have hs : subsystems d = ∅ := by
      rw [Finset.eq_empty_iff_forall_notMem]
      intro x hx
      exact hmem (hk x hx ▸ hx)
    unfold Spec.intensity
    apply Finset.sum_congr rfl
    intro l _
    rw [aligned_eq, hs, h0 hmem]
    simp
  have hs : subsystems d = {k} := by
    ext x
    rw [Finset.mem_singleton]
    exact ⟨hk x, fun h => h ▸ hmem⟩
  let W : Fin 4 → ℚ → ℚ → ℝ := fun i a n => if d.spin i = 0 then 1 else
    if i = 0 then D (d.spin i) a n (z i) else D (d.spin i) n a (z i)
  have hW : ∀ i : Fin 4, ∀ n ∈ projections (d.spin i), ∀ n' ∈ projections (d.spin i),
      ∑ a ∈ projections (d.spin i), W i a n * W i a n' = if n = n' then 1 else 0 := by
    intro i n hn n' hn'
    simp only [W]
    by_cases hs : d.spin i = 0
    · rw [hz0 i hs] at hn hn' ⊢
      rw [Finset.mem_singleton] at hn hn'
      subst hn; subst hn'
      simp [hs]
    · simp only [if_neg hs]
      by_cases hi : i = 0
      · simp only [if_pos hi]; exact wigner_orth_left hD (hhalf i) hn hn' _
      · simp only [if_neg hi]; exact wigner_orth_right hD (hhalf i) hn hn' _
  have hV : ∀ n ∈ helicities d, ∀ n' ∈ helicities d,
      ∑ l ∈ helicities d, (∏ i, W i (l i) (n i)) * (∏ i, W i (l i) (n' i)) =
        if n = n' then 1 else 0 := by
    intro n hn n' hn'
    unfold helicities at hn hn' ⊢
    rw [Fintype.mem_piFinset] at hn hn'
    simp only [← Finset.prod_mul_distrib]
    rw [← Finset.prod_univ_sum (fun i : Fin 4 => projections (d.spin i)) (fun i a => W i a (n i) * W i a (n' i))]
    simp only [fun i => hW i (n i) (hn i) (n' i) (hn' i)]
    by_cases h : n = n'
    · subst h; simp
    · rw [if_neg h]
      obtain ⟨i, hi⟩ := Function.ne_iff.1 h
      exact Finset.prod_eq_zero (Finset.mem_univ i) (if_neg hi)
  unfold Spec.intensity
  rw [← sum_norm_sq_orthogonal (helicities d) (fun l n => ∏ i, W i (l i) (n i)) hV (A k)]
  apply Finset.sum_congr rfl
  intro l hl
  congr 2
  rw [aligned_eq, hs]
  apply Finset.sum_congr rfl
  intro l' _
  rw [Finset.sum_singleton, mul_comm]
  push_cast
  congr 1
  apply Finset.prod_congr rfl
  intro i _
  simp only [factor, rotation, W]
  by_cases hs : d.spin i = 0
  · simp [hs]
  · simp only [if_neg hs, hz i hs, hι _ _ _ _]
    split <;> rfl

theorem norm_minusOnePow (q : ℚ) : ‖minusOnePow q‖ = 1 := by
  unfold minusOnePow
  rw [show (Real.pi : ℂ) * Complex.I * (q : ℂ) = ((Real.pi * q : ℝ) : ℂ) * Complex.I by push_cast; ring,
    Complex.norm_exp_ofReal_mul_I]

open Classical in
/-- The Wigner function of the interpretation is the actual one; it vanishes if the second projection does not
exist. By `C121_wigner` this is Wigner's formula of Spec/WignerFormula.lean. -/
def ActualWigner (ι : Interp) : Prop :=
  ∀ j m m' (x : ℝ), ι.wig j m m' (x : ℂ) = if Projection j m' then (Wigner.wignerD j m m' x : ℂ) else 0

open Classical in
theorem actual_isWignerD : IsWignerD fun j m m' x => if Projection j m' then Wigner.wignerD j m m' x else 0 := by
  have h := Wigner.isWignerD
  constructor
  · intro j hj m hm m' hm'
    simp only [if_pos ((mem_projections hj m').1 hm')]
    exact h.zero hj m hm m' hm'
  · intro j hj m hm m' hm' x y
    simp only [if_pos ((mem_projections hj m').1 hm')]
    rw [h.add hj m hm m' hm']
    apply Finset.sum_congr rfl
    intro n hn
    rw [if_pos ((mem_projections hj n).1 hn)]
  · intro j hj m hm m' hm' x
    simp only [if_pos ((mem_projections hj m').1 hm'), if_pos ((mem_projections hj m).1 hm)]
    exact h.neg hj m hm m' hm' x
  · intro j hj m hm m' hm' x
    simp only [if_pos ((mem_projections hj m').1 hm')]
    exact h.turn hj m hm m' hm' x

open Classical in
theorem ActualWigner.uses (h : ActualWigner ι) :
    UsesWignerD ι fun j m m' x => if Projection j m' then Wigner.wignerD j m m' x else 0 := by
  intro j m m' x
  rw [h]
  split <;> rename_i h' <;> simp [h']

open Classical in
/-- The angular function of a resonance with spin `J`. -/
noncomputable def angular (J μ ν : ℚ) (x : ℝ) : ℝ :=
  if Projection J μ ∧ Projection J ν then Wigner.wignerD J μ ν x else 0

/-- Sum of the chains with spin `J`. -/
noncomputable def spinSum (ι : Interp) (b : Builder) (uc : Bool) (L : Chain → ℂ) (k : ℤ) (l : Fin 4 → ℚ) (J : ℚ) : ℂ :=
  ((b.decay.chains.filter fun c => c.resonance.toP.spin = J).map
    (strength ι b uc L (prodIds k).1 (prodIds k).2 k (helicityOf l))).sum

theorem subsystemValue_norm (hw : ActualWigner ι) {k : ℤ} (hk : ∀ c ∈ b.decay.chains, c.spectator.index = k)
    {x : ℝ} (hx : ι.sym (decayAngle (prodIds k).1 (prodIds k).2) = x) (L : Chain → ℂ) (l : Fin 4 → ℚ) :
    ‖subsystemValue ι b uc L k l‖ = ‖∑ J ∈ resonanceSpins b.decay, spinSum ι b uc L k l J *
      (angular J (helicityOf l 0 + helicityOf l k) (helicityOf l (prodIds k).1 - helicityOf l (prodIds k).2) x : ℂ)‖ := by
  unfold subsystemValue
  rw [List.filter_eq_self.2 fun c hc => by simpa using hk c hc]
  have hc : ∀ c, chainValue ι b uc L (prodIds k).1 (prodIds k).2 k (byId l) c =
      minusOnePow (b.decay.spin k - helicityOf l k) *
        minusOnePow (b.decay.spin (prodIds k).2 - helicityOf l (prodIds k).2) *
      (strength ι b uc L (prodIds k).1 (prodIds k).2 k (helicityOf l) c * (angular c.resonance.toP.spin
        (helicityOf l 0 + helicityOf l k) (helicityOf l (prodIds k).1 - helicityOf l (prodIds k).2) x : ℂ)) := by
    intro c
    unfold chainValue
    rw [show (⟨"theta_" ++ toString (prodIds k).1 ++ toString (prodIds k).2, .real⟩ : Sym) =
      decayAngle (prodIds k).1 (prodIds k).2 from rfl, hx, hw, show byId l = helicityOf l from rfl]
    unfold angular strength
    by_cases h1 : Projection c.resonance.toP.spin (helicityOf l 0 + helicityOf l k)
    · by_cases h2 : Projection c.resonance.toP.spin (helicityOf l (prodIds k).1 - helicityOf l (prodIds k).2)
      · rw [if_pos h1, if_pos h2, if_pos ⟨h1, h2⟩]; ring
      · rw [if_pos h1, if_neg h2, if_neg fun h => h2 h.2]; simp
    · rw [if_neg h1, if_neg fun h => h1 h.1]; simp
  rw [List.map_congr_left fun c _ => hc c, List.sum_map_mul_left, norm_mul, norm_mul, norm_minusOnePow, norm_minusOnePow, one_mul, one_mul]
  congr 1
  unfold spinSum
  exact sum_group (fun c : Chain => c.resonance.toP.spin) _ (fun J => (angular J _ _ x : ℂ)) _ _ fun c hc =>
    List.mem_toFinset.2 (List.mem_map.2 ⟨c, hc, rfl⟩)

/-- Value of a model with one subsystem. -/
theorem single_value (hd : Standard b.decay) (hdyn : Lineshapes b dyn) (hr : RefOk reference)
    (h : b.formulate reference cl uc = .ok m)
    (hfree : ∀ c ∈ b.decay.chains, HelicityFree (dyn c).expression)
    (hres : b.useProdHel = false → ∀ c ∈ b.decay.chains, c.resonance ≠ .state c.spectator)
    (η : Sym → ℚ) {k : ℤ} (hk : ∀ c ∈ b.decay.chains, c.spectator.index = k) : ∃ ref, UsedRef b reference ref ∧
    ∀ (ι : Interp), ActualWigner ι → ∀ (x : ℝ),
      ((helicities b.decay).Nonempty → ι.sym (decayAngle (prodIds k).1 (prodIds k).2) = x) → ∀ z : Fin 4 → ℝ,
      (∀ i : Fin 4, b.decay.spin i ≠ 0 → ι.sym (zetaSymbol i k ref) = z i) →
      m.fullExpression.eval ι η = ((∑ l ∈ helicities b.decay,
        ‖∑ J ∈ resonanceSpins b.decay, spinSum ι b uc (fun c => (dyn c).expression.eval ι η) k l J *
          (angular J (helicityOf l 0 + helicityOf l k) (helicityOf l (prodIds k).1 - helicityOf l (prodIds k).2) x : ℂ)‖ ^ 2 : ℝ) : ℂ) := by
  obtain ⟨ref, hu, hv⟩ := full_value hd hdyn hr h hfree hres η
  refine ⟨ref, hu, fun ι hw x hx z hz => ?_⟩
  rw [hv, intensity_single hd actual_isWignerD hw.uses (k := k) ?_ z hz _ fun hk l => subsystemValue_zero l hk]
  · congr 1
    apply Finset.sum_congr rfl
    intro l hl
    rw [subsystemValue_norm hw hk (hx ⟨l, hl⟩)]
  · intro k' hk'
    unfold subsystems at hk'
    rw [List.mem_toFinset] at hk'
    obtain ⟨c, hc, rfl⟩ := List.mem_map.1 hk'
    exact hk c hc

open Classical in
theorem integral_angular {J J' μ ν : ℚ} (hJ : IsHalfInteger J) (hJ' : IsHalfInteger J') :
    ∫ x in (0 : ℝ)..Real.pi, angular J μ ν x * angular J' μ ν x * Real.sin x =
      if J = J' then (if Projection J μ ∧ Projection J ν then 2 / (2 * (J : ℝ) + 1) else 0) else 0 := by
  unfold angular
  by_cases h1 : Projection J μ ∧ Projection J ν
  · by_cases h2 : Projection J' μ ∧ Projection J' ν
    · simp only [if_pos h1, if_pos h2]
      exact Wigner.wignerD_orthogonal hJ hJ' ((mem_projections hJ _).2 h1.1) ((mem_projections hJ _).2 h1.2)
        ((mem_projections hJ' _).2 h2.1) ((mem_projections hJ' _).2 h2.2)
    · have : J ≠ J' := by rintro rfl; exact h2 h1
      simp [h2, this]
  · simp [h1]

theorem continuous_angular {J : ℚ} (hJ : IsHalfInteger J) (μ ν : ℚ) : Continuous (angular J μ ν) := by
  unfold angular
  by_cases h1 : Projection J μ ∧ Projection J ν
  · simp only [if_pos h1]
    exact Wigner.continuous_wignerD hJ ((mem_projections hJ _).2 h1.1) _
  · simp only [if_neg h1]
    exact continuous_const

/-- The intensity as a function of the decay angle. -/
noncomputable def angleIntensity (S : Finset ℚ) (d : Decay) (k : ℤ) (G : (Fin 4 → ℚ) → ℚ → ℂ) (x : ℝ) : ℝ :=
  ∑ l ∈ helicities d, ‖∑ J ∈ S, G l J *
    (angular J (helicityOf l 0 + helicityOf l k) (helicityOf l (prodIds k).1 - helicityOf l (prodIds k).2) x : ℂ)‖ ^ 2

theorem continuous_angleIntensity {S : Finset ℚ} (hS : ∀ J ∈ S, IsHalfInteger J) (d : Decay) (k : ℤ)
    (G : (Fin 4 → ℚ) → ℚ → ℂ) : Continuous (angleIntensity S d k G) := by
  unfold angleIntensity
  refine continuous_finsetSum _ fun l _ => (continuous_norm.comp (continuous_finsetSum _ fun J hJ => ?_)).pow 2
  exact continuous_const.mul (Complex.continuous_ofReal.comp (continuous_angular (hS J hJ) _ _))

open Classical in
theorem integral_angleIntensity {S : Finset ℚ} (hS : ∀ J ∈ S, IsHalfInteger J) (d : Decay) (k : ℤ)
    (G : (Fin 4 → ℚ) → ℚ → ℂ) : ∫ x in (0 : ℝ)..Real.pi, angleIntensity S d k G x * Real.sin x =
      ∑ J ∈ S, 2 / (2 * (J : ℝ) + 1) * ∑ l ∈ helicities d, if Projection J (helicityOf l 0 + helicityOf l k) ∧
        Projection J (helicityOf l (prodIds k).1 - helicityOf l (prodIds k).2) then ‖G l J‖ ^ 2 else 0 := by
  unfold angleIntensity
  simp only [Finset.sum_mul]
  rw [intervalIntegral.integral_finsetSum]
  · simp only [Finset.mul_sum]
    rw [Finset.sum_comm]
    apply Finset.sum_congr rfl
    intro l _
    rw [integral_norm_sq S (G l) (fun J => angular J _ _) (fun J => if Projection J (helicityOf l 0 + helicityOf l k) ∧
        Projection J (helicityOf l (prodIds k).1 - helicityOf l (prodIds k).2) then 2 / (2 * (J : ℝ) + 1) else 0)
      (fun J hJ => continuous_angular (hS J hJ) _ _) fun J hJ J' hJ' => integral_angular (hS J hJ) (hS J' hJ')]
    apply Finset.sum_congr rfl
    intro J _
    split <;> simp
  · intro l _
    apply Continuous.intervalIntegrable
    refine Continuous.mul ((continuous_norm.comp (continuous_finsetSum _ fun J hJ => ?_)).pow 2) Real.continuous_sin
    exact continuous_const.mul (Complex.continuous_ofReal.comp (continuous_angular (hS J hJ) _ _))

theorem spinSum_congr {L L' : Chain → ℂ} (hi : ι.idx = ι'.idx) (hcg : ι.cg = ι'.cg)
    (hL : ∀ c ∈ b.decay.chains, L c = L' c) (k : ℤ) : spinSum ι b uc L k = spinSum ι' b uc L' k := by
  funext l J
  unfold spinSum
  congr 1
  apply List.map_congr_left
  intro c hc
  unfold strength couplings decayFactor productionFactor lsFactor
  rw [hL c (List.mem_filter.1 hc).1, hi, hcg]

open Classical in
theorem spinIntensity_eq {i j k : ℤ} (hp : prodIds k = (i, j)) (L : Chain → ℂ) (J : ℚ) :
    spinIntensity ι b uc L i j k J = 2 / (2 * (J : ℝ) + 1) * ∑ l ∈ helicities b.decay,
      if Projection J (helicityOf l 0 + helicityOf l k) ∧
        Projection J (helicityOf l (prodIds k).1 - helicityOf l (prodIds k).2) then ‖spinSum ι b uc L k l J‖ ^ 2 else 0 := by
  obtain rfl : (prodIds k).1 = i := by rw [hp]
  obtain rfl : (prodIds k).2 = j := by rw [hp]
  rfl

/-- A builder for the resonances with one spin. -/
theorem sub_spinIntensity {J : ℚ} (hs : b'.decay.states = b.decay.states)
    (hc : b'.decay.chains = b.decay.chains.filter fun c => c.resonance.toP.spin = J)
    (hp : b'.useProdHel = b.useProdHel) (hq : b'.useDecHel = b.useDecHel) (hJ : J ∈ resonanceSpins b.decay) (L : Chain → ℂ)
    (i j k : ℤ) :
    ∑ J' ∈ resonanceSpins b'.decay, spinIntensity ι b' uc L i j k J' = spinIntensity ι b uc L i j k J := by
  have hone : resonanceSpins b'.decay = {J} := by
    ext J'
    unfold resonanceSpins
    rw [hc, List.mem_toFinset, Finset.mem_singleton]
    constructor
    · intro h
      obtain ⟨c, hc, rfl⟩ := List.mem_map.1 h
      simpa using (List.mem_filter.1 hc).2
    · rintro rfl
      obtain ⟨c, hm, hJ⟩ := List.mem_map.1 (List.mem_toFinset.1 hJ)
      exact List.mem_map.2 ⟨c, List.mem_filter.2 ⟨hm, by simpa using hJ⟩, hJ⟩
  rw [hone, Finset.sum_singleton]
  unfold spinIntensity
  rw [hc, List.filter_filter]
  have hh : helicities b'.decay = helicities b.decay := by
    unfold helicities Decay.spin Decay.st
    rw [hs]
  rw [hh]
  congr 1
  apply Finset.sum_congr rfl
  intro l _
  congr 3
  simp only [Bool.and_self]
  congr 1
  apply List.map_congr_left
  intro c _
  unfold strength couplings decayFactor productionFactor
  rw [hp, hq]

end Verif.ThreeBody
