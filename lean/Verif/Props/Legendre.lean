import Verif.Props.Collinear
import Verif.Props.Region
import Verif.Proofs.WignerFormula
import Verif.Spec.Legendre

/-!
Property C121: the Wigner functions are given by Wigner's formula; for spinless particles, the intensity is a coherent sum of
Legendre polynomials of a function of masses and Mandelstam variables.
-/
namespace Verif.ThreeBody
open Verif Verif.Spec Verif.Spin Verif.Angles RExpr

variable {b : Builder} {dyn : Chain → DefExpr} {reference : Option ℤ} {cl uc : Bool} {m : AmplitudeModel} {ι : Interp}
  {ρ : Sym → ℝ}

/-- C121: what `ActualWigner` says about the d-functions between existing projections is Wigner's formula. -/
theorem C121_wigner (hw : ActualWigner ι) {j p q : ℚ} (hj : IsHalfInteger j) (hp : Projection j p) (hq : Projection j q) (x : ℝ) :
    ι.wig j p q (x : ℂ) = (wignerFormula j p q x : ℂ) := by
  classical
  rw [hw, if_pos hq, Wigner.wignerD_formula hp hq hj]

/-- C121: `d^J_00` is a Legendre polynomial of the cosine. -/
theorem C121_legendre (hw : ActualWigner ι) (J : ℕ) (x : ℝ) : ι.wig J 0 0 (x : ℂ) = ((legendre J).eval (Real.cos x) : ℝ) := by
  classical
  rw [hw, if_pos ⟨by simp, by simp, J, by simp⟩, Wigner.wignerD_legendre]

/-- The scattering angle as arc cosine of `decayCosine`. -/
theorem angle_cosine (hD : DalitzRegion ρ) {i j k : ℤ} (hp : IsPerm123 i j k) :
    ∃ s e v, formulateScatteringAngle i j = .ok (s, e) ∧ e.eval ρ = some v ∧ Real.cos v = decayCosine ρ i j k := by
  have g := region_gen hD hp
  obtain ⟨N, x, y, hE, e1, e2, e3⟩ := numer_eval ρ i j k
  have hx := lam_upper_pos g.pk g.tk.2.1 g.tk.2.2
  have hy := lam_lower_pos g.pi g.pj g.tk.1
  obtain ⟨v, hv, -⟩ := scattering_within hD hp
  have hn : numer (vm ρ 0) (vm ρ i) (vm ρ j) (vm ρ k) (vs ρ k) (vs ρ j) ^ 2 ≤
      kallenR (vm ρ 0 ^ 2) (vm ρ k ^ 2) (vs ρ k) * kallenR (vs ρ k) (vm ρ i ^ 2) (vm ρ j ^ 2) := by
    by_contra hn
    rw [hE, eval_acosRatio_none e1 e2 e3 hx hy (not_le.1 hn)] at hv
    cases hv
  rw [hE, eval_acosRatio ρ e1 e2 e3 hx hy hn] at hv
  cases hv
  refine ⟨_, _, _, scat_forms hp, by rw [hE]; exact eval_acosRatio ρ e1 e2 e3 hx hy hn, ?_⟩
  have hq : 0 < √(kallenR (vm ρ 0 ^ 2) (vm ρ k ^ 2) (vs ρ k)) * √(kallenR (vs ρ k) (vm ρ i ^ 2) (vm ρ j ^ 2)) :=
    mul_pos (Real.sqrt_pos.2 hx) (Real.sqrt_pos.2 hy)
  have habs : |numer (vm ρ 0) (vm ρ i) (vm ρ j) (vm ρ k) (vs ρ k) (vs ρ j) /
      (√(kallenR (vm ρ 0 ^ 2) (vm ρ k ^ 2) (vs ρ k)) * √(kallenR (vs ρ k) (vm ρ i ^ 2) (vm ρ j ^ 2)))| ≤ 1 := by
    rw [abs_div, abs_of_pos hq, div_le_one hq]
    refine abs_le_of_sq_le_sq ?_ hq.le
    rw [mul_pow, Real.sq_sqrt hx.le, Real.sq_sqrt hy.le]
    exact hn
  rw [Real.cos_arccos (abs_le.1 habs).1 (abs_le.1 habs).2]
  have hl : ∀ x y z, kallenR x y z = lam x y z := fun x y z => by unfold kallenR lam; ring
  unfold decayCosine numer
  simp only [hl]
  rfl

/-- On the Dalitz plot, the decay angle of a subsystem of the model. -/
theorem region_angle (hd : Standard b.decay) (hdyn : Lineshapes b dyn) (hr : RefOk reference)
    (h : b.formulate reference cl uc = .ok m) (hang : AnglesAt ι ρ m) (hD : DalitzRegion ρ)
    {i j k : ℤ} (hp : EvenPerm i j k) (hk : k ∈ subsystems b.decay) (hne : (helicities b.decay).Nonempty) :
    ∃ θ : ℝ, ι.sym (decayAngle i j) = θ ∧ Real.cos θ = decayCosine ρ i j k := by
  obtain ⟨s, e, v, he, hv, hv'⟩ := angle_cosine hD (evenPerm_perm hp)
  obtain ⟨ref', P, -, -, -, rfl, -⟩ := formulate_inv hd hdyn hr h
  have hk3 := Standard.subsystem hd ((mem_subsystems _ _).1 hk)
  obtain ⟨l, hl⟩ := hne
  have e1 : prodIds k = (i, j) := (evenPerm_ids hp).symm ▸ rfl
  have hg := angle_get?_theta (b := b) (dyn := dyn) (cl := cl) (uc := uc) (ref := ref') (P := P) hd
    ((selected_iff hd k).2 (selected_of_chain hd hk)) (helicities_tuple hd hl)
  have ht := theta_eq hk3
  rw [e1] at hg ht
  rw [he] at ht
  injection ht with ht
  injection ht with h1 h2
  subst h1 h2
  exact ⟨v, hang _ _ _ hg hv, hv'⟩

open Classical in
/-- C121: for spinless particles, the intensity is the squared modulus of the sum over the chains of lineshape, couplings and the
Legendre polynomial `P_J(z)`, where `J` is the spin of the resonance and `z` the cosine of its decay angle as function of
masses and Mandelstam variables. Only resonances with natural spin contribute. -/
theorem C121_spinless (hd : Standard b.decay) (hdyn : Lineshapes b dyn) (hr : RefOk reference)
    (h : b.formulate reference cl uc = .ok m)
    (hfree : ∀ c ∈ b.decay.chains, HelicityFree (dyn c).expression)
    (hres : b.useProdHel = false → ∀ c ∈ b.decay.chains, c.resonance ≠ .state c.spectator)
    (h0 : ∀ i ∈ ([0, 1, 2, 3] : List ℤ), b.decay.spin i = 0)
    (hw : ActualWigner ι) (hang : AnglesAt ι ρ m) (hD : DalitzRegion ρ) (η : Sym → ℚ) :
    m.fullExpression.eval ι η = (‖((b.decay.chains.filter fun c =>
        0 ≤ c.resonance.toP.spin ∧ IsInteger c.resonance.toP.spin).map fun c =>
      (dyn c).expression.eval ι η * couplings ι b c uc 0 0 0 0 * decayFactor ι b c (fun _ => 0) * productionFactor ι b c 0 0 *
        ((legendre ⌊c.resonance.toP.spin⌋.toNat).eval
          (subsystemCosine ρ c.spectator.index) : ℝ)).sum‖ ^ 2 : ℝ) := by
  classical
  have hne : (helicities b.decay).Nonempty :=
    ⟨0, (mem_helicities hd _).2 fun i => by
      rw [h0 i (by fin_cases i <;> simp)]
      exact ⟨by simp, by simp, 0, by simp⟩⟩
  rw [C78_spinless hd hdyn hr h hfree hres h0]
  refine congrArg _ (congrArg (‖·‖ ^ 2) (congrArg List.sum (List.map_congr_left fun c hc => ?_)))
  obtain ⟨hc, hs⟩ := List.mem_filter.1 hc
  simp only [decide_eq_true_eq] at hs
  have hk : c.spectator.index ∈ subsystems b.decay := List.mem_toFinset.2 (List.mem_map.2 ⟨c, hc, rfl⟩)
  have h3 := Standard.subsystem hd ((mem_subsystems _ _).1 hk)
  obtain ⟨hs0, n, hn⟩ := hs
  have hn0 : (0 : ℚ) ≤ n := by rw [← hn]; exact hs0
  have hn0 : 0 ≤ n := by exact_mod_cast hn0
  have hJ : c.resonance.toP.spin = ((⌊c.resonance.toP.spin⌋.toNat : ℕ) : ℚ) := by
    rw [hn, Int.floor_intCast]
    have : ((n.toNat : ℤ) : ℚ) = n := by rw [Int.toNat_of_nonneg hn0]
    exact_mod_cast this.symm
  obtain ⟨θ, h1, h2⟩ : ∃ θ : ℝ, ι.sym (helicityAngle c.spectator.index) = θ ∧
      Real.cos θ = subsystemCosine ρ c.spectator.index := by
    obtain ⟨θ, h1, h2⟩ := region_angle hd hdyn hr h hang hD (evenPerm_prodIds h3) hk hne
    refine ⟨θ, ?_, ?_⟩
    · rw [← h1]
      simp only [List.mem_cons, List.not_mem_nil, or_false] at h3
      rcases h3 with e | e | e <;> rw [e] <;> rfl
    · rw [h2]
      simp only [List.mem_cons, List.not_mem_nil, or_false] at h3
      rcases h3 with e | e | e <;> rw [e] <;> rfl
  rw [h1, ← h2]
  generalize ⌊c.resonance.toP.spin⌋.toNat = J at *
  rw [hJ, C121_legendre hw]
  ring

/-- The first Legendre polynomials. -/
theorem legendre_small (z : ℝ) : (legendre 0).eval z = 1 ∧ (legendre 1).eval z = z ∧ (legendre 2).eval z = (3 * z ^ 2 - 1) / 2 := by
  refine ⟨?_, ?_, ?_⟩
  · simp [legendre]
  · simp [legendre, Polynomial.derivative_pow]
  · simp [legendre, Polynomial.derivative_pow]
    ring

/-- Wigner's formula for spin 1/2. -/
example (x : ℝ) : wignerFormula (1 / 2) (1 / 2) (-1 / 2) x = -Real.sin (x / 2) := by
  have h : (Finset.range (⌊(2 * (1 / 2) : ℚ)⌋.toNat + 1)).filter (fun s : ℕ => (0 : ℚ) ≤ 1 / 2 + 1 / 2 - s ∧
      (0 : ℚ) ≤ -1 / 2 - 1 / 2 + s ∧ (0 : ℚ) ≤ 1 / 2 - -1 / 2 - s) = {1} := by decide +kernel
  unfold wignerFormula
  rw [h]
  norm_num [factorial, power]

/-- The hypotheses of `C121_spinless` hold for a decay of spinless particles with one scalar resonance, at each point of a line
through the Dalitz plot. -/
example {t : ℝ} (h1 : 27 / 4 ≤ t) (h2 : t ≤ 49 / 4) :
    ∃ m, (⟨exKappaDecay, Configurator.init exKappaDecay, true, true, false⟩ : Builder).formulate (some 1) true false =
      .ok m ∧ ∃ z : ℂ, m.fullExpression.eval (exActual (closedLine t)) (fun _ => 0) = (‖z‖ ^ 2 : ℝ) := by
  have hl := unit_lineshapes exKappaDecay true true false
  obtain ⟨m, hm, hang⟩ := ex_formulate (b := ⟨exKappaDecay, Configurator.init exKappaDecay, true, true, false⟩)
    exKappaDecay_standard hl rfl rfl 1 (by simp)
  exact ⟨m, hm, _, C121_spinless (ι := exActual (closedLine t)) exKappaDecay_standard hl
    (by rintro x ⟨⟩; simp) hm (fun _ _ => exFree) (by rintro ⟨⟩) spDecay_spinless
    (fun j m m' x => by simp [exActual]) (hang _ _ rfl) (closedLine_region h1 h2).1 (fun _ => 0)⟩

end Verif.ThreeBody

namespace Verif.Serialization
open Verif Verif.Spec Verif.ThreeBody Verif.Angles

variable {m : ModelDefinition} {D : Distribution} {rd : ChainDefinition → Reading} {ref : ℤ} {cl : Bool}
  {tl : String → String} {add : Option (PyDict String PropagatorBuilder)} {a : AmplitudeModel} {ι : Interp} {ρ : Sym → ℝ}
  {line : ChainDefinition → ℂ} {form : Vertex → ℂ}

theorem sum_map_filter {α : Type} (p : α → Bool) (f : α → ℂ) (l : List α) :
    ((l.filter p).map f).sum = (l.map fun c => if p c then f c else 0).sum := by
  induction l with
  | nil => rfl
  | cons a l ih =>
    rw [List.filter_cons]
    split <;> simp_all

open Classical in
/-- C121 for serialized models of decays of spinless particles whose vertices have helicities 0. -/
theorem C121_serial_spinless (hm : ReadsModel m D rd) (h0 : Spinless D)
    (href : IsSpectator D.referenceTopology ref) (href' : ref ∈ ([1, 2, 3] : List ℤ))
    (hz : ∀ c ∈ D.chains, ∀ v ∈ c.vertices, v.helicities = some [some 0, some 0])
    (h : formulate m cl tl add = .ok a) (hv : DynamicsValues m D.chains tl add ι line form)
    (hw : ActualWigner ι) (hang : AnglesAt ι ρ a) (hD : DalitzRegion ρ) (η : Sym → ℚ) :
    a.fullExpression.eval ι η = (‖((D.chains.filter fun c => 0 ≤ chainSpin c ∧ IsInteger (chainSpin c)).map fun c =>
      ι.sym (weightSymbol tl c (rd c)) * (c.vertices.map scalarFactor).prod * (line c * (c.vertices.map form).prod) *
        ((legendre ⌊chainSpin c⌋.toNat).eval (decayCosine ρ (rd c).i (rd c).j (rd c).k) : ℝ)).sum‖ ^ 2 : ℝ) := by
  rw [C103_coherent hm h0 href href' hz h hv η]
  refine congrArg _ (congrArg (‖·‖ ^ 2) ?_)
  rw [sum_map_filter]
  refine congrArg List.sum (List.map_congr_left fun c hc => ?_)
  unfold spinlessValue
  obtain ⟨e, he, hg⟩ := (C71_angles_defined hm (spinless_nonneg h0) href href' h).1 c hc
  obtain ⟨s, e', v, he', hv, hv'⟩ := angle_cosine hD (hm.reads c hc).2
  rw [he] at he'
  cases he'
  rw [hang _ _ _ hg hv, ← hv']
  split
  · rename_i hs
    simp only [decide_eq_true_eq] at hs
    obtain ⟨hs0, n, hn⟩ := hs
    have hn0 : (0 : ℚ) ≤ n := by rw [← hn]; exact hs0
    have hn0 : 0 ≤ n := by exact_mod_cast hn0
    have hJ : chainSpin c = ((⌊chainSpin c⌋.toNat : ℕ) : ℚ) := by
      rw [hn, Int.floor_intCast]
      have : ((n.toNat : ℤ) : ℚ) = n := by rw [Int.toNat_of_nonneg hn0]
      exact_mod_cast this.symm
    generalize ⌊chainSpin c⌋.toNat = J at *
    rw [hJ, C121_legendre hw]
    ring
  · rename_i hs
    simp only [decide_eq_true_eq] at hs
    rw [hw, if_neg, mul_zero, zero_mul]
    rintro ⟨h1, h2, n, hn⟩
    exact hs ⟨h2, n, by linarith⟩

/-- Angles at the point `t` of the line `closedLine`; the weights are 1. -/
noncomputable def exLegendre (a : AmplitudeModel) (t : ℝ) : Interp :=
  { exActual 0 with sym := fun s => ((((PyDict.get? a.angleDefs s).bind fun e => e.eval (closedLine t)).getD 1 : ℝ) : ℂ) }

/-- All hypotheses of `C121_serial_spinless` hold for `mcModel`, along a line through the Dalitz plot. -/
example {t : ℝ} (h1 : 27 / 4 ≤ t) (h2 : t ≤ 49 / 4) : ∃ a, formulate mcModel true id none = .ok a ∧ ∃ z : ℂ,
    a.fullExpression.eval (exLegendre a t) (fun _ => 0) = (‖z‖ ^ 2 : ℝ) := by
  obtain ⟨a, ha⟩ := mcModel_ok id true
  obtain ⟨line, form, hv⟩ := C60_dynamics_values mcModel [mcF0, mcA0] id (exLegendre a t)
  refine ⟨a, ha, _, C121_serial_spinless mcModel_reads mcSpinless (ref := 1) ⟨by simp [mcDistribution], by simp [mcDistribution]⟩
    (by simp) ?_ ha hv (fun _ _ _ _ => by simp [exLegendre, exActual]) ?_ (closedLine_region h1 h2).1 (fun _ => 0)⟩
  · intro c hc v hv
    simp only [mcDistribution, List.mem_cons, List.not_mem_nil, or_false] at hc
    rcases hc with rfl | rfl
    · simp only [mcF0, List.mem_cons, List.not_mem_nil, or_false] at hv
      rcases hv with rfl | rfl <;> rfl
    · simp only [mcA0, List.mem_cons, List.not_mem_nil, or_false] at hv
      rcases hv with rfl | rfl <;> rfl
  · intro s e v g hv
    simp [exLegendre, g, hv]

end Verif.Serialization
