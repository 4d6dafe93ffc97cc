import Verif.Proofs.Smooth
import Verif.Props.Projection
import Mathlib.Analysis.InnerProductSpace.Calculus

/-! Property C107: angles and intensity are smooth functions inside the Dalitz plot. -/
namespace Verif.Angles
open Verif Verif.Spec RExpr
open scoped ContDiff Topology

variable {X : Type*} [NormedAddCommGroup X] [NormedSpace ℝ X] {n : WithTop ℕ∞} {ρ : X → Sym → ℝ} {x₀ : X}

/-- C107: all angles are as smooth as the masses and Mandelstam variables of which they are functions, at all points
inside the Dalitz plot. -/
theorem C107_angles (h : SmoothPoint n ρ x₀) (hd : DalitzInterior (ρ x₀)) :
    (∀ i ∈ ([1, 2, 3] : List ℤ), ∀ j ∈ ([1, 2, 3] : List ℤ), i ≠ j →
      ∃ s e, formulateScatteringAngle i j = .ok (s, e) ∧ SmoothValue n ρ x₀ e) ∧
    (∀ i ∈ ([1, 2, 3] : List ℤ), ∀ j ∈ ([1, 2, 3] : List ℤ),
      ∃ s e, formulateThetaHatAngle i j = .ok (s, e) ∧ SmoothValue n ρ x₀ e) ∧
    (∀ i ∈ ([0, 1, 2, 3] : List ℤ), ∀ j ∈ ([1, 2, 3] : List ℤ), ∀ k ∈ ([1, 2, 3] : List ℤ),
      ∃ s e, formulateZetaAngle i j k = .ok (s, e) ∧ SmoothValue n ρ x₀ e) := by
  have h0 : SmoothValue n ρ x₀ (0 : RExpr) := SmoothValue.num 0
  have hhat : ∀ q, ∀ i ∈ ([1, 2, 3] : List ℤ), ∀ j ∈ ([1, 2, 3] : List ℤ),
      ∃ e, formulateThetaHatAngleF (q + 2) i j = .ok (hatSym i j, e) ∧ SmoothValue n ρ x₀ e := by
    intro q i hi j hj
    rcases pair_cases hi hj with rfl | ⟨k, hk⟩ | ⟨k, hk⟩
    · exact ⟨_, hat_self (q + 1) hi, h0⟩
    · exact ⟨_, (hat_forms q hk).1, hat_smooth h hd (cyclic_perm hk)⟩
    · exact ⟨_, (hat_forms q hk).2, (hat_smooth h hd (cyclic_perm hk)).neg⟩
  refine ⟨?_, ?_, ?_⟩
  · intro i hi j hj hij
    have : ∃ k, IsPerm123 i j k := by
      rcases pair_cases hi hj with rfl | ⟨k, hk⟩ | ⟨k, hk⟩
      · exact absurd rfl hij
      · exact ⟨k, cyclic_perm hk⟩
      · exact ⟨k, perm_swap (cyclic_perm hk)⟩
    obtain ⟨k, hp⟩ := this
    exact ⟨_, _, scat_forms hp, scat_smooth h hd hp⟩
  · intro i hi j hj
    obtain ⟨e, he⟩ := hhat 998 i hi j hj
    exact ⟨_, e, he⟩
  · intro i hi j hj k hk
    rcases List.mem_cons.1 hi with rfl | hi
    · obtain ⟨e, he, hv⟩ := hhat 997 j hj k hk
      refine ⟨zetaSym 0 j k, e, ?_, hv⟩
      show formulateZetaAngleF (999 + 1) 0 j k = _
      rw [zeta_rot0, he]; rfl
    · by_cases hjk : j = k
      · subst hjk
        obtain ⟨s, hs⟩ := C13_zeta_symmetry.1 i (mem0 hi) j hj
        exact ⟨_, _, hs, h0⟩
      obtain ⟨a, b, hc, hj', hk'⟩ := zeta_triples hi hj hk
      obtain ⟨f1, f2, f3, f4, f5, f6⟩ := zeta_forms 998 hc
      have hp := cyclic_perm hc
      have hp' : IsPerm123 i b a := perm_swap (perm_rot (perm_rot hp))
      have z1 := zetaA_smooth h hd hp
      have z2 := zetaA_smooth h hd hp'
      have z3 := zetaB_smooth h hd hp
      rcases hj' with rfl | rfl | rfl <;> rcases hk' with rfl | rfl | rfl
      · exact absurd rfl hjk
      · exact ⟨_, _, f5, z2.neg⟩
      · exact ⟨_, _, f1, z1⟩
      · exact ⟨_, _, f2, z2⟩
      · exact absurd rfl hjk
      · exact ⟨_, _, f3, z3⟩
      · exact ⟨_, _, f4, z1.neg⟩
      · exact ⟨_, _, f6, z3.neg⟩
      · exact absurd rfl hjk

end Verif.Angles

namespace Verif.ThreeBody
open Verif Verif.Spec Verif.Spin Verif.Angles
open scoped ContDiff Topology

variable {b : Builder} {dyn : Chain → DefExpr} {reference : Option ℤ} {cl uc : Bool} {m : AmplitudeModel}
variable {X : Type*} [NormedAddCommGroup X] [NormedSpace ℝ X] {n : WithTop ℕ∞} {ρ : X → Sym → ℝ} {x₀ : X}
  {ι : X → Interp}

/-- Couplings are smooth functions of `x`, Clebsch-Gordan coefficients do not change, the Wigner functions are the actual
ones, and the angles follow from their definitions at the kinematic point `ρ x`. -/
structure SmoothInterp (n : WithTop ℕ∞) (ι : X → Interp) (ρ : X → Sym → ℝ) (m : AmplitudeModel) (x₀ : X) : Prop where
  wigner : ∀ x, ActualWigner (ι x)
  clebsch : ∀ x, (ι x).cg = (ι x₀).cg
  couplings : ∀ base R l, ContDiffAt ℝ n (fun x => (ι x).idx base R l) x₀
  angles : ∀ x, AnglesAt (ι x) (ρ x) m

theorem smooth_wig (hw : ∀ x, ActualWigner (ι x)) {f : X → ℝ} {s : Sym} (hf : ContDiffAt ℝ n f x₀)
    (h : ∀ᶠ x in 𝓝 x₀, (ι x).sym s = (f x : ℂ)) (j μ ν : ℚ) :
    ContDiffAt ℝ n (fun x => (ι x).wig j μ ν ((ι x).sym s)) x₀ := by
  classical
  have key : ContDiffAt ℝ n (fun x => if Projection j ν then (Wigner.wignerD j μ ν (f x) : ℂ) else 0) x₀ := by
    by_cases hp : Projection j ν
    · simp only [if_pos hp]
      exact Complex.ofRealCLM.contDiff.contDiffAt.comp x₀ ((Wigner.contDiff_wignerD j μ ν).contDiffAt.comp x₀ hf)
    · simp only [if_neg hp]
      exact contDiffAt_const
  refine key.congr_of_eventuallyEq (h.mono fun x hx => ?_)
  simp only
  rw [hx, hw x]

theorem smooth_sum {α : Type} {l : List α} {f : α → X → ℂ} (h : ∀ a ∈ l, ContDiffAt ℝ n (f a) x₀) :
    ContDiffAt ℝ n (fun x => (l.map fun a => f a x).sum) x₀ := by
  induction l with
  | nil => exact contDiffAt_const
  | cons a l ih =>
    simp only [List.map_cons, List.sum_cons]
    exact (h a List.mem_cons_self).add (ih fun a ha => h a (List.mem_cons_of_mem _ ha))

/-- C107: the intensity of a model is as smooth as its couplings, its lineshapes and the masses and Mandelstam variables,
at all points inside the Dalitz plot. In particular it is continuous, and its gradient with respect to parameters and
kinematic variables exists. -/
theorem C107_intensity (hd : Standard b.decay) (hdyn : Lineshapes b dyn) (hr : RefOk reference)
    (h : b.formulate reference cl uc = .ok m)
    (hfree : ∀ c ∈ b.decay.chains, HelicityFree (dyn c).expression)
    (hres : b.useProdHel = false → ∀ c ∈ b.decay.chains, c.resonance ≠ .state c.spectator) (η : Sym → ℚ)
    (hρ : SmoothPoint n ρ x₀) (hin : DalitzInterior (ρ x₀)) (hι : SmoothInterp n ι ρ m x₀)
    (hline : ∀ c ∈ b.decay.chains, ContDiffAt ℝ n (fun x => (dyn c).expression.eval (ι x) η) x₀) :
    ContDiffAt ℝ n (fun x => m.fullExpression.eval (ι x) η) x₀ := by
  obtain ⟨ref, hu, hv⟩ := full_value hd hdyn hr h hfree hres η
  obtain ⟨ref', P, hu', hr3, -, rfl, -⟩ := formulate_inv hd hdyn hr h
  obtain rfl := usedRef_unique hu hu'
  obtain ⟨a1, -, a3⟩ := C107_angles hρ hin
  simp only [hv]
  suffices hs : ContDiffAt ℝ n (fun x => intensity (ι x) b.decay ref
      (subsystemValue (ι x) b uc fun c => (dyn c).expression.eval (ι x) η)) x₀ from
    Complex.ofRealCLM.contDiff.contDiffAt.comp x₀ hs
  unfold Spec.intensity
  refine ContDiffAt.sum fun l hl => ContDiffAt.norm_sq ℝ ?_
  unfold Spec.aligned
  have hrot : ∀ k ∈ subsystems b.decay, ∀ (i : Fin 4) μ ν,
      ContDiffAt ℝ n (fun x => rotation (ι x) b.decay ref k i μ ν) x₀ := by
    intro k hk i μ ν
    unfold rotation
    by_cases hs : b.decay.spin i = 0
    · simp only [if_pos hs]
      exact contDiffAt_const
    · simp only [if_neg hs]
      have hi := fin4_mem i
      have hk' := (mem_subsystems _ _).1 hk
      have hk3 := Standard.subsystem hd hk'
      obtain ⟨s, e, he, f, hf, hf'⟩ := a3 i hi k hk3 ref hr3
      rw [zeta_eq hi hk3 hr3] at he
      injection he with he
      injection he with h1 h2
      subst h1 h2
      exact smooth_wig hι.wigner hf (hf'.mono fun x hx => hι.angles x _ _ _
        (angle_get?_zeta hd hr3 hi hk' (by rw [spins_eq _ hi]; exact hs)) hx) _ _ _
  refine ContDiffAt.sum fun l' hl' => ContDiffAt.sum fun k hk => ?_
  refine ((((?_ : ContDiffAt ℝ n _ x₀).mul (hrot k hk 0 _ _)).mul (hrot k hk 1 _ _)).mul (hrot k hk 2 _ _)).mul
    (hrot k hk 3 _ _)
  have hk' := (mem_subsystems _ _).1 hk
  have hk3 := Standard.subsystem hd hk'
  have hp := evenPerm_perm (evenPerm_prodIds hk3)
  obtain ⟨hi3, hj3, -⟩ := perm_mem hp
  have hij : (prodIds k).1 ≠ (prodIds k).2 := by
    intro he
    have := hp.nodup_iff.2 (by decide)
    simp [he] at this
  obtain ⟨s, e, he, f, hf, hf'⟩ := a1 _ hi3 _ hj3 hij
  rw [theta_eq hk3] at he
  injection he with he
  injection he with h1 h2
  subst h1 h2
  have hwig := fun j μ ν => smooth_wig hι.wigner hf (hf'.mono fun x hx => hι.angles x _ _ _
    (angle_get?_theta hd ((selected_iff hd k).2 (selected_of_chain hd hk)) (helicities_tuple hd hl')) hx) j μ ν
  unfold subsystemValue
  refine smooth_sum fun c hc => ?_
  have hc' := (List.mem_filter.1 hc).1
  unfold chainValue
  split
  · have hcoup : ContDiffAt ℝ n (fun x => couplings (ι x) b c uc (byId l' 0 + byId l' k) (byId l' k)
        (byId l' (prodIds k).1) (byId l' (prodIds k).2)) x₀ := by
      unfold couplings
      simp only
      split
      · exact hι.couplings _ _ _
      · exact (hι.couplings _ _ _).mul (hι.couplings _ _ _)
    have hdec : ∀ x, decayFactor (ι x) b c (byId l') = decayFactor (ι x₀) b c (byId l') := by
      intro x
      unfold decayFactor lsFactor
      rw [hι.clebsch x]
    have hprod : ∀ x, productionFactor (ι x) b c (byId l' 0 + byId l' k) (byId l' k) =
        productionFactor (ι x₀) b c (byId l' 0 + byId l' k) (byId l' k) := by
      intro x
      unfold productionFactor lsFactor
      rw [hι.clebsch x]
    simp only [hdec, hprod]
    exact ((((contDiffAt_const.mul (hline c hc')).mul (hwig _ _ _)).mul hcoup).mul contDiffAt_const).mul contDiffAt_const
  · exact contDiffAt_const

/-- All hypotheses of `C107_intensity` hold for `exTwo` with reference subsystem 2, for the values along the line
`σ_1 = 28/3` with couplings that change along that line. -/
example : ∃ m : AmplitudeModel, exTwo.formulate (some 2) true false = .ok m ∧ Standard exTwo.decay ∧
    Lineshapes exTwo (fun _ => {}) ∧ RefOk (some 2) ∧ SmoothPoint ω exSlice (28 / 3) ∧ DalitzInterior (exSlice (28 / 3)) ∧
    SmoothInterp ω (fun t => { exActual (exSlice t) with idx := fun _ _ _ => (t : ℂ) }) exSlice m (28 / 3) ∧
    ContDiffAt ℝ ω (fun t : ℝ => m.fullExpression.eval
      { exActual (exSlice t) with idx := fun _ _ _ => (t : ℂ) } fun _ => 0) (28 / 3) := by
  obtain ⟨m, hm, am⟩ := ex_formulate exTwo_standard (unit_lineshapes _ _ _ _) rfl rfl 2 (by simp)
  have h1 : SmoothPoint ω exSlice (28 / 3) := by
    have : ∀ s, ContDiffAt ℝ ω (fun t => exSlice t s) (28 / 3) := by
      intro s
      unfold exSlice
      split_ifs <;> fun_prop
    exact ⟨fun _ _ => this _, fun _ _ => this _⟩
  have h2 : DalitzInterior (exSlice (28 / 3)) := by
    constructor <;> simp [SumRule, BetweenThresholds, lam, exSlice] <;> norm_num
  have h3 : SmoothInterp ω (fun t : ℝ => { exActual (exSlice t) with idx := fun _ _ _ => (t : ℂ) }) exSlice m (28 / 3) :=
    ⟨fun _ j m m' x => by simp [exActual], fun _ => rfl, fun _ _ _ => Complex.ofRealCLM.contDiff.contDiffAt,
      fun t => am _ _ rfl⟩
  have hr : RefOk (some 2) := by simp [RefOk]
  exact ⟨m, hm, exTwo_standard, unit_lineshapes _ _ _ _, hr, h1, h2, h3,
    C107_intensity exTwo_standard (unit_lineshapes _ _ _ _) hr hm (fun _ _ _ _ _ => rfl) (fun h => by cases h) _ h1 h2 h3
      fun _ _ => contDiffAt_const⟩

/-- C107: the lineshape of a Breit-Wigner with constant width is smooth in the Mandelstam variable, the mass and the width,
wherever the mass and the width are not zero. Then the hypothesis `hline` of `C107_intensity` holds. -/
theorem C107_breit_wigner {c : Chain} {R : Particle} {first : Bool} {e : DefExpr} {ph : String}
    (hc : PlainChain c R first) (hid : NumberedFinalState c)
    (he : BreitWignerBuilder.call ⟨false, false, false, ph⟩ c = .ok e) {s M Γ : X → ℝ}
    (hs : ContDiffAt ℝ n s x₀) (hM : ContDiffAt ℝ n M x₀) (hΓ : ContDiffAt ℝ n Γ x₀)
    (hs' : ∀ x, (ι x).sym (mandelstam c.spectator.index) = s x) (hM' : ∀ x, (ι x).sym (massOfResonance R) = M x)
    (hΓ' : ∀ x, (ι x).sym (widthOfResonance R) = Γ x) (h0 : M x₀ * Γ x₀ ≠ 0) (η : Sym → ℚ) :
    ContDiffAt ℝ n (fun x => e.expression.eval (ι x) η) x₀ := by
  have hv : ∀ x, e.expression.eval (ι x) η = breitWignerValue (s x) (M x) (Γ x) := by
    intro x
    rw [C42_value hc hid he]
    simp [lineshapeValue, hs', hM', hΓ']
  simp only [hv, breitWignerValue, one_div]
  have cast : ∀ {f : X → ℝ}, ContDiffAt ℝ n f x₀ → ContDiffAt ℝ n (fun x => (f x : ℂ)) x₀ := fun hf =>
    Complex.ofRealCLM.contDiff.contDiffAt.comp x₀ hf
  have h1 := (C37_bounded (s x₀) (M x₀) (Γ x₀) h0).1
  refine ContDiffAt.inv (f := fun x => (M x : ℂ) ^ 2 - s x - Complex.I * M x * Γ x) ?_ h1
  exact (((cast hM).pow 2).sub (cast hs)).sub ((contDiffAt_const.mul (cast hM)).mul (cast hΓ))

/-- The hypotheses of `C107_breit_wigner` hold for the chain `exChainK`, as function of the Mandelstam variable. -/
example : ∃ e, PlainChain exChainK ⟨"K*", "K^*", 1, some (-1), 9/10, 1/20⟩ true ∧ NumberedFinalState exChainK ∧
    BreitWignerBuilder.call ⟨false, false, false, "PhaseSpaceFactor"⟩ exChainK = .ok e ∧
    ∃ ι : ℝ → Interp, (∀ t, (ι t).sym (mandelstam exChainK.spectator.index) = (t : ℝ)) ∧
      (∀ t, (ι t).sym (massOfResonance ⟨"K*", "K^*", 1, some (-1), 9/10, 1/20⟩) = (1 : ℝ)) ∧
      ∀ t, (ι t).sym (widthOfResonance ⟨"K*", "K^*", 1, some (-1), 9/10, 1/20⟩) = (1 : ℝ) := by
  have h1 : PlainChain exChainK ⟨"K*", "K^*", 1, some (-1), 9/10, 1/20⟩ true := rfl
  have h2 : NumberedFinalState exChainK := by show [(2 : ℤ), 3, 1].Perm [1, 2, 3]; decide
  obtain ⟨e, he⟩ := (C42_missing_ls ⟨false, false, false, "PhaseSpaceFactor"⟩ h1 h2).2 (by
    rw [ne_eq, (C42_missing_ls _ h1 h2).1]; simp)
  refine ⟨e, h1, h2, he, fun t => { exActual 0 with sym := fun s => if s = mandelstam 1 then (t : ℂ) else 1 }, ?_, ?_, ?_⟩
  · intro t; simp [exChainK, exState]
  · intro t; simp [massOfResonance, mandelstam, show toString (1 : ℤ) = "1" from rfl]
  · intro t; simp [widthOfResonance, mandelstam, show toString (1 : ℤ) = "1" from rfl]

end Verif.ThreeBody
