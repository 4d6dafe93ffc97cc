import Verif.Props.DalitzCoordinate
import Verif.Props.Bound
import Verif.Props.SerialBound
import Verif.Props.SerialSpinless
import Verif.Props.SerialSmooth
import Verif.Proofs.WignerMirror
import Verif.Spec.Conjugation

/-!
Property C119: on the boundary of the Dalitz plot, where all momenta are on one line, the projection of the angular momentum on
that line is conserved.
-/
namespace Verif.ThreeBody
open Verif Verif.Spec Verif.Spin Verif.Angles

variable {b : Builder} {dyn : Chain → DefExpr} {reference : Option ℤ} {cl uc : Bool} {m : AmplitudeModel} {ι : Interp}
  {ρ : Sym → ℝ}

/-- Wigner functions at 0 and π. -/
theorem wignerD_collinear {j p q : ℚ} (hj : IsHalfInteger j) (hp : Projection j p) (hq : Projection j q) {x : ℝ}
    (hx : x = 0 ∨ x = Real.pi) (hne : (p : ℝ) ≠ Real.cos x * (q : ℝ)) : Wigner.wignerD j p q x = 0 := by
  have hp' : p ∈ projections j := (mem_projections hj _).2 hp
  have hq' : q ∈ projections j := (mem_projections hj _).2 hq
  rcases hx with rfl | rfl
  · rw [Wigner.isWignerD.zero hj p hp' q hq', if_neg]
    rintro rfl
    simp at hne
  · obtain ⟨z, hz⟩ : ∃ z : ℤ, j + p = z := by
      obtain ⟨n, hn⟩ := hp.2.2
      obtain ⟨k, hk⟩ := hj
      refine ⟨k - n, ?_⟩
      push_cast
      linarith
    have hq2 : -q ∈ projections j := (mem_projections hj _).2 ⟨by linarith [hq.2.1], by linarith [hq.1], ?_⟩
    · have h := Wigner.wignerD_supplement hj hp' hq2 hz 0
      rw [neg_neg, sub_zero] at h
      rw [h, Wigner.isWignerD.zero hj p hp' _ hq2, if_neg, mul_zero]
      rintro rfl
      simp at hne
    · obtain ⟨n, hn⟩ := hq.2.2
      obtain ⟨k, hk⟩ := hj
      refine ⟨k - n, ?_⟩
      push_cast
      linarith
theorem boundary_value {i j k : ℤ} (hp : IsPerm123 i j k) (hpos : MassesPositive ρ) (hs : SumRule ρ)
    (hk : AllowedMass ρ i j k) (hb : kibbleFunction ρ = 0) :
    ∃ s e v, formulateScatteringAngle i j = .ok (s, e) ∧ e.eval ρ = some v ∧ (v = 0 ∨ v = Real.pi) := by
  obtain ⟨s, e, he, -, hv, h⟩ := C106_phase_space hp hpos hs hk
  obtain ⟨v, hv⟩ := hv.2 hb.le
  exact ⟨s, e, v, he, hv, (h v hv).2.2 hb⟩

/-- On the boundary, the decay angle of a subsystem of the model is 0 or π. -/
theorem boundary_angle (hd : Standard b.decay) (hdyn : Lineshapes b dyn) (hr : RefOk reference)
    (h : b.formulate reference cl uc = .ok m) (hang : AnglesAt ι ρ m) (hpos : MassesPositive ρ) (hs : SumRule ρ)
    {i j k : ℤ} (hp : EvenPerm i j k) (hk : k ∈ subsystems b.decay) (hne : (helicities b.decay).Nonempty)
    (hmass : AllowedMass ρ i j k) (hb : kibbleFunction ρ = 0) :
    ∃ θ : ℝ, ι.sym (decayAngle i j) = θ ∧ (θ = 0 ∨ θ = Real.pi) := by
  obtain ⟨s, e, v, he, hv, hv'⟩ := boundary_value (evenPerm_perm hp) hpos hs hmass hb
  obtain ⟨ref', P, -, -, -, rfl, -⟩ := formulate_inv hd hdyn hr h
  have hk3 := Standard.subsystem hd ((mem_subsystems _ _).1 hk)
  obtain ⟨l, hl⟩ := hne
  have e1 : prodIds k = (i, j) := (evenPerm_ids hp).symm ▸ rfl
  have hg := angle_get?_theta (b := b) (dyn := dyn) (cl := cl) (uc := uc) (ref := ref') (P := P) hd
    ((selected_iff hd k).2 (selected_of_chain hd hk)) (helicities_tuple hd hl)
  have ht := theta_eq hk3
  rw [e1] at hg ht
  rw [he] at ht
  injection ht with ht
  injection ht with h1 h2
  subst h1 h2
  exact ⟨v, hang _ _ _ hg hv, hv'⟩

/-- C119: on the boundary of the Dalitz plot, the decay angle `θ` of subsystem `k` is 0 or π, and the amplitude of the subsystem
for helicities with `λ0 + λk ≠ cos θ (λi - λj)` is zero, whatever the couplings and lineshapes. -/
theorem C119_selection (hd : Standard b.decay) (hdyn : Lineshapes b dyn) (hr : RefOk reference)
    (h : b.formulate reference cl uc = .ok m)
    (hfree : ∀ c ∈ b.decay.chains, HelicityFree (dyn c).expression)
    (hres : b.useProdHel = false → ∀ c ∈ b.decay.chains, c.resonance ≠ .state c.spectator)
    (hw : ActualWigner ι) (hang : AnglesAt ι ρ m) (hpos : MassesPositive ρ) (hs : SumRule ρ)
    {i j k : ℤ} (hp : EvenPerm i j k) (hk : k ∈ subsystems b.decay) (hne : (helicities b.decay).Nonempty)
    (hmass : AllowedMass ρ i j k) (hb : kibbleFunction ρ = 0) (η : Sym → ℚ) :
    ∃ θ : ℝ, ι.sym (decayAngle i j) = θ ∧ (θ = 0 ∨ θ = Real.pi) ∧
      ∀ l ∈ helicities b.decay,
        ((helicityOf l 0 + helicityOf l k : ℚ) : ℝ) ≠ Real.cos θ * ((helicityOf l i - helicityOf l j : ℚ) : ℝ) →
        definedValue m ι η k l = 0 := by
  classical
  obtain ⟨θ, h1, h2⟩ := boundary_angle hd hdyn hr h hang hpos hs hp hk hne hmass hb
  refine ⟨θ, h1, h2, fun l hl hne => ?_⟩
  rw [definedValue_eq hd hdyn hr h hfree hres ι η hk hl]
  unfold subsystemValue
  refine List.sum_eq_zero fun x hx => ?_
  obtain ⟨c, hc, rfl⟩ := List.mem_map.1 hx
  have hc' := (List.mem_filter.1 hc).1
  have hJ : IsHalfInteger c.resonance.toP.spin := hd.resonances c hc'
  have e1 : prodIds k = (i, j) := (evenPerm_ids hp).symm ▸ rfl
  have hby : ∀ n, byId l n = helicityOf l n := fun n => rfl
  unfold chainValue
  simp only [e1, hby]
  split
  · rename_i hpr
    have hz : ι.wig c.resonance.toP.spin (helicityOf l 0 + helicityOf l k) (helicityOf l i - helicityOf l j)
        (ι.sym ⟨"theta_" ++ toString i ++ toString j, .real⟩) = 0 := by
      change ι.wig _ _ _ (ι.sym (decayAngle i j)) = 0
      rw [h1, hw]
      split
      · rename_i hq
        rw [wignerD_collinear hJ hpr hq h2 hne, Complex.ofReal_zero]
      · rfl
    rw [hz]
    ring
  · rfl


theorem wignerD_spinless (J : ℕ) {x : ℝ} (hx : x = 0 ∨ x = Real.pi) : Wigner.wignerD J 0 0 x = Real.cos x ^ J := by
  have hj : IsHalfInteger (J : ℚ) := ⟨2 * J, by push_cast; ring⟩
  have h0 : (0 : ℚ) ∈ projections (J : ℚ) := (mem_projections hj _).2 ⟨by simp, by simp, J, by simp⟩
  rcases hx with rfl | rfl
  · rw [Wigner.isWignerD.zero hj 0 h0 0 h0]
    simp
  · have h := Wigner.wignerD_supplement hj h0 h0 (z := J) (by simp) 0
    rw [neg_zero, sub_zero] at h
    rw [h, Wigner.isWignerD.zero hj 0 h0 0 h0]
    simp

/-- C119: spinless particles on the boundary of the Dalitz plot. The intensity is the squared modulus of the sum of the chains,
each with the sign `(cos θ)^J`, where the decay angle `θ` of its subsystem is 0 or π. -/
theorem C119_spinless (hd : Standard b.decay) (hdyn : Lineshapes b dyn) (hr : RefOk reference)
    (h : b.formulate reference cl uc = .ok m)
    (hfree : ∀ c ∈ b.decay.chains, HelicityFree (dyn c).expression)
    (hres : b.useProdHel = false → ∀ c ∈ b.decay.chains, c.resonance ≠ .state c.spectator)
    (h0 : ∀ i ∈ ([0, 1, 2, 3] : List ℤ), b.decay.spin i = 0) {J : Chain → ℕ}
    (hJ : ∀ c ∈ b.decay.chains, c.resonance.toP.spin = J c)
    (hw : ActualWigner ι) (hang : AnglesAt ι ρ m) (hpos : MassesPositive ρ) (hs : SumRule ρ)
    (hmass : ∀ i j, ∀ k ∈ subsystems b.decay, EvenPerm i j k → AllowedMass ρ i j k) (hb : kibbleFunction ρ = 0) (η : Sym → ℚ) :
    ∃ θ : ℤ → ℝ, (∀ k ∈ subsystems b.decay, θ k = 0 ∨ θ k = Real.pi) ∧
      m.fullExpression.eval ι η = (‖(b.decay.chains.map fun c => (dyn c).expression.eval ι η *
        (Real.cos (θ c.spectator.index) ^ J c : ℝ) * couplings ι b c uc 0 0 0 0 * decayFactor ι b c (fun _ => 0) *
        productionFactor ι b c 0 0).sum‖ ^ 2 : ℝ) := by
  classical
  have hne : (helicities b.decay).Nonempty :=
    ⟨0, (mem_helicities hd _).2 fun i => by
      rw [h0 i (by fin_cases i <;> simp)]
      exact ⟨by simp, by simp, 0, by simp⟩⟩
  have key : ∀ k, ∃ θ : ℝ, k ∈ subsystems b.decay → ι.sym (helicityAngle k) = θ ∧ (θ = 0 ∨ θ = Real.pi) := by
    intro k
    by_cases hk : k ∈ subsystems b.decay
    · have h3 := Standard.subsystem hd ((mem_subsystems _ _).1 hk)
      have hp := evenPerm_prodIds h3
      obtain ⟨θ, h1, h2⟩ := boundary_angle hd hdyn hr h hang hpos hs hp hk hne (hmass _ _ k hk hp) hb
      refine ⟨θ, fun _ => ⟨?_, h2⟩⟩
      rw [← h1]
      simp only [List.mem_cons, List.not_mem_nil, or_false] at h3
      rcases h3 with rfl | rfl | rfl <;> rfl
    · exact ⟨0, fun h => absurd h hk⟩
  choose θ hθ using key
  refine ⟨θ, fun k hk => (hθ k hk).2, ?_⟩
  rw [C78_spinless hd hdyn hr h hfree hres h0, List.filter_eq_self.2]
  · refine congrArg _ (congrArg (‖·‖ ^ 2) (congrArg List.sum (List.map_congr_left fun c hc => ?_)))
    have hk : c.spectator.index ∈ subsystems b.decay := List.mem_toFinset.2 (List.mem_map.2 ⟨c, hc, rfl⟩)
    obtain ⟨h1, h2⟩ := hθ _ hk
    rw [h1, hw, hJ c hc, if_pos ⟨by simp, by simp, J c, by simp⟩, wignerD_spinless _ h2]
  · intro c hc
    rw [hJ c hc]
    simp only [decide_eq_true_eq]
    exact ⟨by simp, J c, by simp⟩

theorem line_nine : MassesPositive (coordinateLine 9) ∧ SumRule (coordinateLine 9) ∧ AllowedMass (coordinateLine 9) 2 3 1 ∧
    kibbleFunction (coordinateLine 9) = 0 := by
  have t0 : toString (0 : ℤ) = "0" := rfl
  have t1 : toString (1 : ℤ) = "1" := rfl
  have t2 : toString (2 : ℤ) = "2" := rfl
  have t3 : toString (3 : ℤ) = "3" := rfl
  refine ⟨?_, ?_, ?_, ?_⟩
  · intro n hn
    simp only [List.mem_cons, List.not_mem_nil, or_false] at hn
    rcases hn with rfl | rfl | rfl | rfl <;> simp [coordinateLine, t0, t1, t2, t3]
  · simp [coordinateLine, SumRule]; norm_num
  · simp [coordinateLine, AllowedMass, BetweenThresholds, t1, t2, t3]; norm_num
  · simp [coordinateLine, kibbleFunction, lam]; norm_num

/-- At the point of the boundary with `σ1 = σ3 = 5`, the amplitude of the subsystem with the `K^*` (spin 1) is zero for
`λ0 = λ1 = 1/2`. -/
example : ∃ m, (exWithoutL true true false).formulate (some 3) true false = .ok m ∧
    definedValue m (exActual (coordinateLine 9)) (fun _ => 0) 1 ![1 / 2, 1 / 2, 0, 0] = 0 := by
  have hd : Standard (exWithoutL true true false).decay :=
    standard_filter (keep := fun c => c.spectator.index = 1) exDecay_standard rfl rfl
  obtain ⟨m, hm, hang⟩ := ex_formulate hd (unit_lineshapes _ _ _ _) rfl rfl 3 (by simp)
  have hl : ![1 / 2, 1 / 2, 0, 0] ∈ helicities (exWithoutL true true false).decay := by
    decide +kernel
  obtain ⟨h1, h2, h3, h4⟩ := line_nine
  obtain ⟨θ, -, hθ, h⟩ := C119_selection (ι := exActual (coordinateLine 9)) hd (unit_lineshapes _ _ _ _)
    (by rintro x ⟨⟩; simp) hm (fun _ _ => exFree) (by rintro ⟨⟩) (fun j m m' x => by simp [exActual]) (hang _ _ rfl) h1 h2
    (i := 2) (j := 3) (k := 1) (by simp [EvenPerm]) (by decide +kernel) ⟨_, hl⟩ h3 h4 fun _ => 0
  refine ⟨m, hm, h _ hl ?_⟩
  simp [helicityOf]

/-- The hypotheses of `C119_spinless` hold for a decay of spinless particles with one scalar resonance. -/
example : ∃ m, (⟨exKappaDecay, Configurator.init exKappaDecay, true, true, false⟩ : Builder).formulate (some 1) true false =
      .ok m ∧ ∃ z : ℂ, m.fullExpression.eval (exActual (coordinateLine 9)) (fun _ => 0) = (‖z‖ ^ 2 : ℝ) := by
  have hl := unit_lineshapes exKappaDecay true true false
  obtain ⟨m, hm, hang⟩ := ex_formulate (b := ⟨exKappaDecay, Configurator.init exKappaDecay, true, true, false⟩)
    exKappaDecay_standard hl rfl rfl 1 (by simp)
  obtain ⟨h1, h2, h3, h4⟩ := line_nine
  obtain ⟨θ, -, h⟩ := C119_spinless (ι := exActual (coordinateLine 9)) (J := fun _ => 0) exKappaDecay_standard hl
    (by rintro x ⟨⟩; simp) hm (fun _ _ => exFree) (by rintro ⟨⟩) spDecay_spinless
    (by simp [exKappaDecay, exChainKappa, Obj.toP]) (fun j m m' x => by simp [exActual]) (hang _ _ rfl) h1 h2
    (by
      intro i j k hk hp
      simp [subsystems, exKappaDecay, exChainKappa, exState] at hk
      subst hk
      simp [EvenPerm] at hp
      obtain ⟨rfl, rfl⟩ := hp
      exact h3) h4 (fun _ => 0)
  exact ⟨m, hm, _, h⟩

end Verif.ThreeBody

namespace Verif.Serialization
open Verif Verif.ThreeBody Verif.Spec Verif.Spin Verif.Angles

variable {m : ModelDefinition} {tl : String → String} {add : Option (PyDict String PropagatorBuilder)}
  {D : Distribution} {rd : ChainDefinition → Reading} {cl : Bool} {a : AmplitudeModel} {ref : ℤ} {ι ι' : Interp} {ρ : Sym → ℝ}
  {line : ChainDefinition → ℂ} {form : Vertex → ℂ}

theorem serialValue_collinear {c : ChainDefinition} {r : Reading} (hp : PossibleHelicities c r) (hw : ActualWigner ι) {θ : ℝ}
    (h1 : ι.sym (decayAngle r.i r.j) = θ) (h2 : θ = 0 ∨ θ = Real.pi)
    (hne : (r.lR : ℝ) ≠ Real.cos θ * ((r.li - r.lj : ℚ) : ℝ)) (l : ℤ → ℚ) : serialValue ι tl line form l c r = 0 := by
  have hz : ι.wig (chainSpin c) r.lR (r.li - r.lj) (ι.sym ⟨"theta_" ++ toString r.i ++ toString r.j, .real⟩) = 0 := by
    change ι.wig _ _ _ (ι.sym (decayAngle r.i r.j)) = 0
    rw [h1, hw]
    split
    · rename_i hq
      rw [wignerD_collinear hp.spin hp.resonance hq h2 hne, Complex.ofReal_zero]
    · rfl
  unfold serialValue
  rw [hz]
  ring

/-- C119, for serialized models: on the boundary of the Dalitz plot, the decay angle `θ` of each chain is 0 or π, and the intensity
does not depend on the weights of chains with `λR ≠ cos θ (λi - λj)`. -/
theorem C119_serial (hm : ReadsModel m D rd) (h0 : NonnegativeSpins D) (href : IsSpectator D.referenceTopology ref)
    (href' : ref ∈ ([1, 2, 3] : List ℤ)) (h : formulate m cl tl add = .ok a)
    (hv : DynamicsValues m D.chains tl add ι line form) (hv' : DynamicsValues m D.chains tl add ι' line form)
    (hpos' : ∀ c ∈ D.chains, PossibleHelicities c (rd c))
    (hw : ActualWigner ι) (hsame : SameRotations ι ι') (hang : AnglesAt ι ρ a) (hpos : MassesPositive ρ) (hs : SumRule ρ)
    (hmass : ∀ c ∈ D.chains, AllowedMass ρ (rd c).i (rd c).j (rd c).k) (hb : kibbleFunction ρ = 0) (η : Sym → ℚ) :
    ∃ θ : ChainDefinition → ℝ,
      (∀ c ∈ D.chains, ι.sym (decayAngle (rd c).i (rd c).j) = θ c ∧ (θ c = 0 ∨ θ c = Real.pi)) ∧
      ((∀ c ∈ D.chains, ((rd c).lR : ℝ) = Real.cos (θ c) * (((rd c).li - (rd c).lj : ℚ) : ℝ) →
          ι'.sym (weightSymbol tl c (rd c)) = ι.sym (weightSymbol tl c (rd c))) →
        a.fullExpression.eval ι' η = a.fullExpression.eval ι η) := by
  have key : ∀ c, ∃ θ : ℝ, c ∈ D.chains → ι.sym (decayAngle (rd c).i (rd c).j) = θ ∧ (θ = 0 ∨ θ = Real.pi) := by
    intro c
    by_cases hc : c ∈ D.chains
    · obtain ⟨s, e, v, he, hv, hv'⟩ := boundary_value (hm.reads c hc).2 hpos hs (hmass c hc) hb
      obtain ⟨e', he', hg⟩ := (C71_angles_defined hm h0 href href' h).1 c hc
      rw [he] at he'
      injection he' with he'
      injection he' with e1 e2
      subst e2
      exact ⟨v, fun _ => ⟨hang _ _ _ hg hv, hv'⟩⟩
    · exact ⟨0, fun h => absurd h hc⟩
  choose θ hθ using key
  refine ⟨θ, fun c hc => hθ c hc, fun hwt => ?_⟩
  have hw' : ActualWigner ι' := fun j p q x => by rw [hsame.wigner]; exact hw j p q x
  have hrot : ∀ r k (i : Fin 4) p q, rotation ι' a.decay r k i p q = rotation ι a.decay r k i p q := by
    intro r k i p q
    unfold rotation
    rw [hsame.wigner, hsame.alignment]
  rw [(C70_intensity_value hm h0 href href' h ι η).2, (C70_intensity_value hm h0 href href' h ι' η).2]
  have hA : ∀ k, ∀ l ∈ helicities a.decay, definedValue a ι' η k l = definedValue a ι η k l := by
    intro k l hl
    rw [C60_amplitude_value hm h hv η k hl, C60_amplitude_value hm h hv' η k hl]
    refine congrArg List.sum (List.map_congr_left fun c hc => ?_)
    split
    · obtain ⟨h1, h2⟩ := hθ c hc
      by_cases hne : ((rd c).lR : ℝ) = Real.cos (θ c) * (((rd c).li - (rd c).lj : ℚ) : ℝ)
      · unfold serialValue
        have hd : ι'.sym ⟨"theta_" ++ toString (rd c).i ++ toString (rd c).j, .real⟩ =
          ι.sym ⟨"theta_" ++ toString (rd c).i ++ toString (rd c).j, .real⟩ := hsame.decay _ _
        rw [hwt c hc hne, hd, hsame.wigner]
      · rw [serialValue_collinear (hpos' c hc) hw h1 h2 hne,
          serialValue_collinear (hpos' c hc) hw' ((hsame.decay _ _).trans h1) h2 hne]
    · rfl
  unfold intensityOver alignedOver
  simp only [hrot]
  refine congrArg _ (Finset.sum_congr rfl fun l _ => ?_)
  refine congrArg (‖·‖ ^ 2) (Finset.sum_congr rfl fun l' hl' => Finset.sum_congr rfl fun k _ => ?_)
  rw [hA k l' hl']

/-- `Lc → (K^* → K pi) p` with `λR = 1`, without parity vertices. -/
def exTransverse : ChainDefinition :=
  { exKstar with
    vertices := [
      { type := "helicity", node := [.seq [.id 2, .id 3], .id 1], helicities := some [some 1, some (1 / 2)] },
      { type := "helicity", node := [.id 2, .id 3], helicities := some [some 0, some 0] }] }

def exTransverseDistribution : Distribution := ⟨exKinematics, [.id 1, .seq [.id 2, .id 3]], [exTransverse]⟩

def exTransverseModel : ModelDefinition := { distributions := [exTransverseDistribution], functions := exFunctions }

def exTransverseReading : Reading := ⟨2, 3, 1, 1, 1 / 2, 0, 0⟩

theorem exTransverse_reads : ReadsModel exTransverseModel exTransverseDistribution fun _ => exTransverseReading := by
  refine ⟨⟨[], rfl⟩, exKinematics_wf, fun c hc => ?_⟩
  rw [List.mem_singleton.1 hc]
  exact ⟨⟨_, _, .inl rfl, ⟨_, _, .inl ⟨rfl, rfl⟩⟩, rfl, rfl⟩, show [(2 : ℤ), 3, 1].Perm [1, 2, 3] by decide⟩

theorem exTransverse_ok : ∃ a, formulate exTransverseModel true id none = .ok a := by
  refine C60_returns exTransverse_reads (ref := 1)
    ⟨by simp [exTransverseDistribution], by simp [exTransverseDistribution]⟩ (by simp) (fun c hc => ?_) true
  rw [List.mem_singleton.1 hc]
  refine ⟨fun v hv => ?_, rfl, ⟨1, ⟨_, _, rfl, rfl⟩, 2, by norm_num⟩,
    ⟨1, by simp, by simp [exTransverse, exKstar], by simp [exTransverse, exKstar]⟩, ⟨_, rfl⟩, fun v hv => ?_⟩
  · simp only [exTransverse, List.mem_cons, List.not_mem_nil, or_false] at hv
    rcases hv with rfl | rfl <;> exact .inl rfl
  · simp only [exTransverse, List.mem_cons, List.not_mem_nil, or_false] at hv
    rcases hv with rfl | rfl <;> exact ⟨_, rfl⟩

/-- Values of the angles of a model at a point of the boundary, with weights `w`. -/
noncomputable def exOnBoundary (a : AmplitudeModel) (w : ℂ) : Interp :=
  { exActual 0 with sym := fun s => if s.asm = .real
      then ((((PyDict.get? a.angleDefs s).bind fun e => e.eval (coordinateLine 9)).getD 0 : ℝ) : ℂ)
      else if s.asm = .none then w else 1 }

/-- At a point of the boundary, the intensity of the example with `λR = 1` and `λi = λj = 0` does not depend on the weight. -/
example : ∃ a, formulate exTransverseModel true id none = .ok a ∧ ∀ w w' η,
    a.fullExpression.eval (exOnBoundary a w') η = a.fullExpression.eval (exOnBoundary a w) η := by
  obtain ⟨a, ha⟩ := exTransverse_ok
  refine ⟨a, ha, fun w w' η => ?_⟩
  obtain ⟨h1, h2, h3, h4⟩ := line_nine
  have href : IsSpectator exTransverseDistribution.referenceTopology 1 :=
    ⟨by simp [exTransverseDistribution], by simp [exTransverseDistribution]⟩
  have hang : AnglesAt (exOnBoundary a w) (coordinateLine 9) a := by
    intro s e v g hv
    have hs : s.asm = .real := by
      rcases serial_angleDefs exTransverse_reads href (by simp) ha (PyDict.mem_of_get? g) with
        ⟨c, hc, h6, h7⟩ | ⟨i, hi, k, hk, h7⟩
      · have h7 : s = _ := h7
        rw [h7]; rfl
      · injection h7 with h7
        rw [h7]; rfl
    simp [exOnBoundary, hs, g, hv]
  have hv := dynamics_values (m := exTransverseModel) (tl := id) (add := none) (fun _ h => by cases h)
    exTransverseDistribution.chains (exOnBoundary a w)
  have hv' : DynamicsValues exTransverseModel exTransverseDistribution.chains id none (exOnBoundary a w')
      (lineValue exTransverseModel id none (exOnBoundary a w)) (formValue exTransverseModel (exOnBoundary a w)) := by
    have hf : SameFunctions (exOnBoundary a w') (exOnBoundary a w) := ⟨rfl, rfl, rfl, rfl, rfl⟩
    have hn : ∀ s : Sym, s.asm = .nonneg → (exOnBoundary a w').sym s = (exOnBoundary a w).sym s := by
      intro s hs
      simp [exOnBoundary, hs]
    constructor
    · intro c hc d hd η
      rw [← hv.line c hc d hd η]
      exact closed_nonneg (closed_dynamics (fun _ h => by cases h) hd) (nonneg_dynamics (fun _ h => by cases h) hd) hf hn η
    · intro c hc v hvm d hd η
      rw [← hv.form c hc v hvm d hd η]
      exact closed_nonneg (closed_formFactor (fun i hi => vertex_ids (exTransverse_reads.reads c hc).1
        (exTransverse_reads.reads c hc).2 hvm hi) hd) (nonneg_formFactor hd) hf hn η
  have hp : ∀ c ∈ exTransverseDistribution.chains, PossibleHelicities c exTransverseReading := by
    intro c hc
    rw [List.mem_singleton.1 hc]
    have hJ : chainSpin exTransverse = 1 := rfl
    exact ⟨⟨2, by norm_num [hJ]⟩, ⟨by norm_num [hJ, exTransverseReading], by norm_num [hJ, exTransverseReading],
      0, by norm_num [hJ, exTransverseReading]⟩, ⟨by norm_num [hJ, exTransverseReading],
      by norm_num [hJ, exTransverseReading], 1, by norm_num [hJ, exTransverseReading]⟩⟩
  obtain ⟨θ, hθ, h⟩ := C119_serial (ι := exOnBoundary a w) (ι' := exOnBoundary a w') exTransverse_reads exDistribution_nonneg
    href (by simp) ha hv hv' hp (fun j m m' x => by simp [exOnBoundary, exActual])
    ⟨fun _ _ => rfl, fun _ _ _ => rfl, rfl, rfl⟩ hang h1 h2 (fun c _ => h3) h4 η
  refine h fun c hc e => ?_
  norm_num [exTransverseReading] at e

end Verif.Serialization
