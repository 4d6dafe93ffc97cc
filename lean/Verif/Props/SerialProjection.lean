import Verif.Proofs.Exchange
import Verif.Spec.SerialProjection
import Verif.Props.SerialBound
import Verif.Props.Projection
import Verif.Props.SerialInterference

/-!
Property C116: resonances with different spins in the same subsystem of a serialized model, after integration over the decay
angle.
-/
namespace Verif.Serialization
open Verif Verif.ThreeBody Verif.Spec Verif.Spin Verif.Angles

variable {m m' : ModelDefinition} {tl : String → String} {add : Option (PyDict String PropagatorBuilder)}
  {D D' : Distribution} {rd : ChainDefinition → Reading} {cl cl' : Bool} {a a' : AmplitudeModel} {ref : ℤ} {ι : Interp}
  {line : ChainDefinition → ℂ} {form : Vertex → ℂ} {i j k : ℤ}

theorem subsystem_single (hin : InSubsystem D rd i j k) (hk : k ∈ ([1, 2, 3] : List ℤ)) (hne : D.chains ≠ []) :
    topologySubsystems D.chains = {k} := by
  classical
  ext x
  unfold topologySubsystems
  rw [Finset.mem_filter, Finset.mem_singleton]
  constructor
  · rintro ⟨-, c, hc, hx⟩
    exact (hin c hc).1.2 _ hx.1
  · rintro rfl
    obtain ⟨c, hc⟩ := List.exists_mem_of_ne_nil _ hne
    exact ⟨by simpa using hk, c, hc, (hin c hc).1⟩

/-- The intensity of one subsystem. -/
theorem single_subsystem (hm : ReadsModel m D rd) (h0 : NonnegativeSpins D)
    (href : IsSpectator D.referenceTopology ref) (href' : ref ∈ ([1, 2, 3] : List ℤ))
    (h : formulate m cl tl add = .ok a) (hv : DynamicsValues m D.chains tl add ι line form)
    (hin : InSubsystem D rd i j k) (hk : k ∈ ([1, 2, 3] : List ℤ)) (hne : D.chains ≠ []) (hw : ActualWigner ι)
    (hζ : ∀ n : Fin 4, ∃ z : ℝ, ι.sym (zetaSymbol n k ref) = z) (η : Sym → ℚ) :
    a.fullExpression.eval ι η = ((∑ l ∈ helicities a.decay,
      ‖(D.chains.map fun c => serialValue ι tl line form (byId l) c (rd c)).sum‖ ^ 2 : ℝ) : ℂ) := by
  choose z hz using hζ
  rw [(C70_intensity_value hm h0 href href' h ι η).2, subsystem_single hin hk hne,
    intensityOver_single (decay_standard hm h) actual_isWignerD hw.uses z (fun i _ => hz i)]
  refine congrArg _ (Finset.sum_congr rfl fun l hl => ?_)
  rw [C60_amplitude_value hm h hv η k hl]
  refine congrArg (fun x : ℂ => ‖x‖ ^ 2) (congrArg List.sum (List.map_congr_left fun c hc => ?_))
  rw [if_pos (hin c hc).1]

theorem withSymbol_other {s t : Sym} (h : t ≠ s) (x : ℝ) : (withSymbol ι s x).sym t = ι.sym t := by
  unfold withSymbol
  exact if_neg h

theorem weight_withSymbol (c : ChainDefinition) (r : Reading) (x : ℝ) :
    (withSymbol ι (decayAngle i j) x).sym (weightSymbol tl c r) = ι.sym (weightSymbol tl c r) := by
  rw [withSymbol_other]
  intro h
  have := congrArg Sym.asm h
  simp [weightSymbol, decayAngle] at this

open Classical in
/-- The two projections that the chains contributing for helicities `l` have in common. -/
noncomputable def commonOf (D : Distribution) (rd : ChainDefinition → Reading) (l : ℤ → ℚ) : ℚ × ℚ :=
  if h : ∃ c ∈ D.chains, ∀ v ∈ c.vertices, vertexValue v (rd c).lR l ≠ 0 then
    ((rd h.choose).lR, (rd h.choose).li - (rd h.choose).lj) else (0, 0)

theorem commonOf_eq (hcom : CommonHelicities D rd) {c : ChainDefinition} (hc : c ∈ D.chains) {l : ℤ → ℚ}
    (h : ∀ v ∈ c.vertices, vertexValue v (rd c).lR l ≠ 0) :
    commonOf D rd l = ((rd c).lR, (rd c).li - (rd c).lj) := by
  have he : ∃ c ∈ D.chains, ∀ v ∈ c.vertices, vertexValue v (rd c).lR l ≠ 0 := ⟨c, hc, h⟩
  unfold commonOf
  rw [dif_pos he]
  obtain ⟨e1, e2⟩ := hcom _ he.choose_spec.1 c hc l he.choose_spec.2 h
  rw [e1, e2]

/-- The value of a chain as a function of the decay angle. -/
theorem serialValue_angle {c : ChainDefinition} (hc : c ∈ D.chains) (hcom : CommonHelicities D rd)
    (hp : PossibleHelicities c (rd c)) (hw : ActualWigner ι) (hi : (rd c).i = i) (hj : (rd c).j = j) (l : ℤ → ℚ) (x : ℝ) :
    serialValue (withSymbol ι (decayAngle i j) x) tl line form l c (rd c) =
      serialStrength ι tl line form l c (rd c) * (angular (chainSpin c) (commonOf D rd l).1 (commonOf D rd l).2 x : ℂ) := by
  unfold serialValue serialStrength
  rw [weight_withSymbol]
  by_cases hz : ∀ v ∈ c.vertices, vertexValue v (rd c).lR l ≠ 0
  · rw [commonOf_eq hcom hc hz]
    have e : (withSymbol ι (decayAngle i j) x).sym ⟨"theta_" ++ toString (rd c).i ++ toString (rd c).j, .real⟩ = (x : ℂ) := by
      rw [hi, hj]
      simp [withSymbol, decayAngle]
    rw [e]
    have hw' : (withSymbol ι (decayAngle i j) x).wig = ι.wig := rfl
    rw [hw', hw, if_pos hp.products]
    unfold angular
    rw [if_pos ⟨hp.resonance, hp.products⟩]
    ring
  · push Not at hz
    obtain ⟨v, hv, hz⟩ := hz
    have : (c.vertices.map fun v => vertexValue v (rd c).lR l).prod = 0 :=
      List.prod_eq_zero (List.mem_map.2 ⟨v, hv, hz⟩)
    rw [this]
    ring

theorem mem_serialSpins {c : ChainDefinition} (hc : c ∈ D.chains) : chainSpin c ∈ serialSpins D :=
  List.mem_toFinset.2 (List.mem_map.2 ⟨c, hc, rfl⟩)

/-- C116: if the chains that contribute for the same helicities have the same `λR` and `λi - λj`, the integral of the intensity
over the cosine of the decay angle is the sum of `2/(2J+1) Σ_λ |Σ_c weight · couplings · lineshape · form factors|²` over the
spins `J` of the resonances, where the inner sum runs over the chains with spin `J`. -/
theorem C116_angle_integral_partial (hm : ReadsModel m D rd) (h0 : NonnegativeSpins D)
    (href : IsSpectator D.referenceTopology ref) (href' : ref ∈ ([1, 2, 3] : List ℤ))
    (h : formulate m cl tl add = .ok a)
    (hv : ∀ x, DynamicsValues m D.chains tl add (withSymbol ι (decayAngle i j) x) line form)
    (hin : InSubsystem D rd i j k) (hk : k ∈ ([1, 2, 3] : List ℤ)) (hne : D.chains ≠ []) (hcom : CommonHelicities D rd)
    (hp : ∀ c ∈ D.chains, PossibleHelicities c (rd c)) (hw : ActualWigner ι)
    (hζ : ∀ n : Fin 4, ∃ z : ℝ, ι.sym (zetaSymbol n k ref) = z) (η : Sym → ℚ) :
    angleIntegral ι i j a.fullExpression η = ((∑ J ∈ serialSpins D, 2 / (2 * (J : ℝ) + 1) * ∑ l ∈ helicities a.decay,
      ‖((D.chains.filter fun c => chainSpin c = J).map fun c => serialStrength ι tl line form (byId l) c (rd c)).sum‖ ^ 2 : ℝ) : ℂ) := by
  classical
  have hS : ∀ J ∈ serialSpins D, IsHalfInteger J := by
    intro J hJ
    obtain ⟨c, hc, rfl⟩ := List.mem_map.1 (List.mem_toFinset.1 hJ)
    exact (hp c hc).spin
  let G : (Fin 4 → ℚ) → ℚ → ℂ := fun l J =>
    ((D.chains.filter fun c => chainSpin c = J).map fun c => serialStrength ι tl line form (byId l) c (rd c)).sum
  let A : (Fin 4 → ℚ) → ℚ → ℝ → ℝ := fun l J x => angular J (commonOf D rd (byId l)).1 (commonOf D rd (byId l)).2 x
  have hval : ∀ x : ℝ, a.fullExpression.eval (withSymbol ι (decayAngle i j) x) η * (Real.sin x : ℂ) =
      ((∑ l ∈ helicities a.decay, ‖∑ J ∈ serialSpins D, G l J * (A l J x : ℂ)‖ ^ 2 * Real.sin x : ℝ) : ℂ) := by
    intro x
    have hw' : ActualWigner (withSymbol ι (decayAngle i j) x) := hw
    rw [single_subsystem hm h0 href href' h (hv x) hin hk hne hw' (fun n => by
      obtain ⟨z, hz⟩ := hζ n
      exact ⟨z, by rw [← hz]; simp [withSymbol, decayAngle_ne_zeta]⟩) η, ← Finset.sum_mul, Complex.ofReal_mul]
    refine congrArg (fun z : ℝ => (z : ℂ) * _) (Finset.sum_congr rfl fun l _ => ?_)
    rw [List.map_congr_left fun c hc => serialValue_angle hc hcom (hp c hc) hw (hin c hc).2.1 (hin c hc).2.2 (byId l) x,
      sum_group chainSpin (fun c => serialStrength ι tl line form (byId l) c (rd c)) (fun J => (A l J x : ℂ)) (serialSpins D)
        D.chains fun c hc => mem_serialSpins hc]
  unfold angleIntegral
  simp only [hval]
  rw [intervalIntegral.integral_ofReal, intervalIntegral.integral_finsetSum]
  · refine congrArg _ ?_
    simp only [Finset.mul_sum]
    rw [Finset.sum_comm]
    refine Finset.sum_congr rfl fun l _ => ?_
    rw [integral_norm_sq (serialSpins D) (G l) (A l) (fun J => if Projection J (commonOf D rd (byId l)).1 ∧
        Projection J (commonOf D rd (byId l)).2 then 2 / (2 * (J : ℝ) + 1) else 0)
      (fun J hJ => continuous_angular (hS J hJ) _ _) fun J hJ J' hJ' => integral_angular (hS J hJ) (hS J' hJ')]
    refine Finset.sum_congr rfl fun J _ => ?_
    by_cases hg : G l J = 0
    · have : ‖G l J‖ ^ 2 = 0 := by rw [hg]; simp
      rw [this]
      simp
    · rw [if_pos]
      by_contra hno
      apply hg
      refine List.sum_eq_zero fun y hy => ?_
      obtain ⟨c, hc, rfl⟩ := List.mem_map.1 hy
      obtain ⟨hc1, hc2⟩ := List.mem_filter.1 hc
      have hJ : chainSpin c = J := by simpa using hc2
      by_contra hs
      apply hno
      have hz : ∀ v ∈ c.vertices, vertexValue v (rd c).lR (byId l) ≠ 0 := by
        intro v hv hz
        apply hs
        unfold serialStrength
        rw [List.prod_eq_zero (List.mem_map.2 ⟨v, hv, hz⟩)]
        ring
      rw [commonOf_eq hcom hc1 hz, ← hJ]
      exact ⟨(hp c hc1).resonance, (hp c hc1).products⟩
  · intro l _
    apply Continuous.intervalIntegrable
    refine Continuous.mul ((continuous_norm.comp (continuous_finsetSum _ fun J hJ => ?_)).pow 2) Real.continuous_sin
    exact continuous_const.mul (Complex.continuous_ofReal.comp (continuous_angular (hS J hJ) _ _))

theorem builtin_values (hm : ReadsModel m D rd) (ι : Interp) (i j : ℤ) (x : ℝ) :
    DynamicsValues m D.chains tl none (withSymbol ι (decayAngle i j) x) (lineValue m tl none ι) (formValue m ι) := by
  have hv := dynamics_values (m := m) (tl := tl) (add := none) (fun _ h => by cases h) D.chains ι
  have key : ∀ {e : DefExpr}, ClosedLineshape e → NonnegKeys e.parameters → ∀ η,
      e.expression.eval (withSymbol ι (decayAngle i j) x) η = e.expression.eval ι η := by
    rintro e ⟨h1, h2, h3⟩ hn η
    have hsym : ∀ s ∈ e.expression.syms, (withSymbol ι (decayAngle i j) x).sym s = ι.sym s := by
      intro s hse
      have ha : s.asm = .nonneg := by
        rcases h3 s hse with h | h
        · have : ∀ s ∈ providedSymbols, s.asm = .nonneg := by decide +kernel
          exact this s h
        · obtain ⟨y, hy, e⟩ := List.mem_map.1 h
          obtain ⟨u, hu, ha⟩ := hn y hy
          rw [hu] at e
          injection e with e
          rw [← e, ha]
      refine withSymbol_other (fun h => ?_) x
      rw [h] at ha
      simp [decayAngle] at ha
    have hd : ∀ (ι : Interp), (e.expression.doit fun _ => none).eval ι η = e.expression.eval ι η :=
      fun ι => Expr.eval_doit ι _ _ _
    rw [← hd ι, ← hd (withSymbol ι (decayAngle i j) x)]
    refine Expr.eval_congr (ι := withSymbol ι (decayAngle i j) x) (ι' := ι) ⟨rfl, rfl, rfl, rfl, rfl⟩ _
      (Expr.flat_doit _ _) (fun s h => hsym s (Expr.mem_syms_doit _ _ _ h)) ?_
      (fun s _ => rfl)
    intro x hx
    obtain ⟨y, hy, -⟩ := Expr.mem_indexeds_doit _ _ x hx
    rw [h2] at hy
    cases hy
  constructor
  · intro c hc d hd η
    rw [key (closed_dynamics (fun _ h => by cases h) hd) (nonneg_dynamics (fun _ h => by cases h) hd)]
    exact hv.line c hc d hd η
  · intro c hc v hvm d hd η
    rw [key (closed_formFactor (fun i hi => vertex_ids (hm.reads c hc).1 (hm.reads c hc).2 hvm hi) hd) (nonneg_formFactor hd)]
    exact hv.form c hc v hvm d hd η

/-- C116: the built-in lineshapes and form factors do not contain angles. -/
theorem C116_builtin (hm : ReadsModel m D rd) (ι : Interp) (i j : ℤ) :
    ∃ line form, ∀ x, DynamicsValues m D.chains tl none (withSymbol ι (decayAngle i j) x) line form :=
  ⟨_, _, builtin_values hm ι i j⟩

theorem helicities_same (hm : ReadsModel m D rd) (hm' : ReadsModel m' D' rd) (hs : SameSetup m m' D D')
    (h : formulate m cl tl none = .ok a) (h' : formulate m' cl' tl none = .ok a') :
    helicities a'.decay = helicities a.decay := by
  obtain ⟨K, E, P, Θ, ref1, ids, zetas, terms, hf⟩ := formulate_inv hm.head hm.kinematics h
  obtain ⟨K', E', P', Θ', ref1', ids', zetas', terms', hf'⟩ := formulate_inv hm'.head hm'.kinematics h'
  have hst : a'.decay.states = a.decay.states := by
    have e1 := (toDecay_standard hm.head hm.kinematics hf.decay).2.1
    have e2 := (toDecay_standard hm'.head hm'.kinematics hf'.decay).2.1
    rw [states_same hs, e1] at e2
    exact (Except.ok.inj e2).symm
  unfold helicities Decay.spin Decay.st
  rw [hst]

theorem values_same (hs : SameSetup m m' D D') {line : ChainDefinition → ℂ} {form : Vertex → ℂ}
    (hsub : ∀ c ∈ D'.chains, c ∈ D.chains) (hv : DynamicsValues m D.chains tl none ι line form) :
    DynamicsValues m' D'.chains tl none ι line form := by
  constructor
  · intro c hcm d hd
    rw [dynamics_same hs] at hd
    exact hv.line c (hsub c hcm) d hd
  · intro c hcm v hvm d hd
    rw [formFactor_same hs] at hd
    exact hv.form c (hsub c hcm) v hvm d hd

/-- C116, no interference: then the integral of the intensity is the sum of the integrals of the intensities of the models that
contain only the chains with one spin, for all values of all parameters. -/
theorem C116_no_interference_partial (hm : ReadsModel m D rd) (h0 : NonnegativeSpins D)
    (href : IsSpectator D.referenceTopology ref) (href' : ref ∈ ([1, 2, 3] : List ℤ))
    (h : formulate m cl tl none = .ok a)
    (hin : InSubsystem D rd i j k) (hk : k ∈ ([1, 2, 3] : List ℤ)) (hne : D.chains ≠ []) (hcom : CommonHelicities D rd)
    (hp : ∀ c ∈ D.chains, PossibleHelicities c (rd c)) (hw : ActualWigner ι)
    (hζ : ∀ n : Fin 4, ∃ z : ℝ, ι.sym (zetaSymbol n k ref) = z) (η : Sym → ℚ)
    {sub : ℚ → ModelDefinition} {DS : ℚ → Distribution} {as : ℚ → AmplitudeModel}
    (hm' : ∀ J ∈ serialSpins D, ReadsModel (sub J) (DS J) rd) (hs : ∀ J ∈ serialSpins D, SameSetup m (sub J) D (DS J))
    (hc : ∀ J ∈ serialSpins D, (DS J).chains = D.chains.filter fun c => chainSpin c = J)
    (h' : ∀ J ∈ serialSpins D, formulate (sub J) cl' tl none = .ok (as J)) :
    angleIntegral ι i j a.fullExpression η = ∑ J ∈ serialSpins D, angleIntegral ι i j (as J).fullExpression η := by
  obtain ⟨line, form, hv⟩ := C116_builtin (tl := tl) hm ι i j
  rw [C116_angle_integral_partial hm h0 href href' h hv hin hk hne hcom hp hw hζ η, Complex.ofReal_sum]
  refine Finset.sum_congr rfl fun J hJ => ?_
  have hsub : ∀ c ∈ (DS J).chains, c ∈ D.chains := fun c h => by
    rw [hc J hJ] at h
    exact (List.mem_filter.1 h).1
  have hspin : serialSpins (DS J) = {J} := by
    ext x
    unfold serialSpins
    rw [List.mem_toFinset, Finset.mem_singleton, hc J hJ]
    constructor
    · intro hx
      obtain ⟨c, hcm, rfl⟩ := List.mem_map.1 hx
      simpa using (List.mem_filter.1 hcm).2
    · rintro rfl
      obtain ⟨c, hcm, e⟩ := List.mem_map.1 (List.mem_toFinset.1 hJ)
      exact List.mem_map.2 ⟨c, List.mem_filter.2 ⟨hcm, by simpa using e⟩, e⟩
  have hne' : (DS J).chains ≠ [] := by
    intro e
    unfold serialSpins at hspin
    rw [e] at hspin
    simp at hspin
  rw [C116_angle_integral_partial (hm' J hJ) (by unfold NonnegativeSpins; rw [(hs J hJ).kinematics]; exact h0)
    (by rw [(hs J hJ).reference]; exact href) href' (h' J hJ) (fun x => values_same (hs J hJ) hsub (hv x))
    (fun c h => hin c (hsub c h)) hk hne' (fun c h c' h' => hcom c (hsub c h) c' (hsub c' h')) (fun c h => hp c (hsub c h)) hw hζ η,
    hspin, Finset.sum_singleton, helicities_same hm (hm' J hJ) (hs J hJ) h (h' J hJ), hc J hJ]
  simp only [List.filter_filter, Bool.and_self]

/-- C116: chains of one subsystem without parity vertices for the same helicities of the final state add up coherently, whatever
the helicities `λR` of their resonances are. -/
theorem C116_same_helicities (hm : ReadsModel m D rd) (h0 : NonnegativeSpins D)
    (href : IsSpectator D.referenceTopology ref) (href' : ref ∈ ([1, 2, 3] : List ℤ))
    (h : formulate m cl tl add = .ok a) (hv : DynamicsValues m D.chains tl add ι line form)
    (hin : InSubsystem D rd i j k) (hk : k ∈ ([1, 2, 3] : List ℤ)) (hne : D.chains ≠ [])
    (ht : ∀ c ∈ D.chains, ∀ v ∈ c.vertices, v.type ≠ "parity") {hel : ℤ → ℚ}
    (hsame : ∀ c ∈ D.chains, ∀ n ∈ ([1, 2, 3] : List ℤ), (rd c).hel n = hel n)
    (hhel : ∀ x ∈ D.kinematics.finalState, ∀ s, x.spin = some s → Projection s (hel x.index))
    (hw : ActualWigner ι) (hζ : ∀ n : Fin 4, ∃ z : ℝ, ι.sym (zetaSymbol n k ref) = z) (η : Sym → ℚ) {s0 : ℚ}
    (hs0 : D.kinematics.initialState.spin = some s0) :
    a.fullExpression.eval ι η = (((2 * s0 + 1) * ‖(D.chains.map fun c => ι.sym (weightSymbol tl c (rd c)) *
      (line c * (c.vertices.map form).prod) *
      ι.wig (chainSpin c) (rd c).lR ((rd c).li - (rd c).lj) (ι.sym (decayAngle i j))).sum‖ ^ 2 : ℝ) : ℂ) := by
  classical
  have hd := decay_standard hm h
  rw [single_subsystem hm h0 href href' h hv hin hk hne hw hζ η]
  refine congrArg _ ?_
  have hval : ∀ l ∈ helicities a.decay, ‖(D.chains.map fun c => serialValue ι tl line form (byId l) c (rd c)).sum‖ ^ 2 =
      ‖(D.chains.map fun c => ι.sym (weightSymbol tl c (rd c)) * (line c * (c.vertices.map form).prod) *
        ι.wig (chainSpin c) (rd c).lR ((rd c).li - (rd c).lj) (ι.sym (decayAngle i j))).sum‖ ^ 2 *
      if ∀ n : Fin 4, n ≠ 0 → l n = hel ((n : ℕ) : ℤ) then 1 else 0 := by
    intro l _
    have : ∀ c ∈ D.chains, serialValue ι tl line form (byId l) c (rd c) = (ι.sym (weightSymbol tl c (rd c)) *
        (line c * (c.vertices.map form).prod) *
        ι.wig (chainSpin c) (rd c).lR ((rd c).li - (rd c).lj) (ι.sym (decayAngle i j))) *
        if ∀ n : Fin 4, n ≠ 0 → l n = hel ((n : ℕ) : ℤ) then 1 else 0 := by
      intro c hc
      have hiff : (∀ n : Fin 4, n ≠ 0 → l n = (rd c).hel ((n : ℕ) : ℤ)) ↔ ∀ n : Fin 4, n ≠ 0 → l n = hel ((n : ℕ) : ℤ) := by
        refine forall_congr' fun n => forall_congr' fun hn => ?_
        rw [hsame c hc]
        fin_cases n <;> simp at hn ⊢
      unfold serialValue
      rw [vertices_product (hm.reads c hc).1 (hm.reads c hc).2 (ht c hc)]
      simp only [hiff]
      unfold decayAngle
      rw [(hin c hc).2.1, (hin c hc).2.2]
      ring
    rw [List.map_congr_left this, List.sum_map_mul_right, norm_mul, mul_pow]
    split <;> simp
  rw [Finset.sum_congr rfl hval, ← Finset.mul_sum, Finset.sum_boole, fixed_card, projections_card (spins_half hd 0)
    (decay_spin_nonneg hm h0 h (by simp)), mul_comm]
  · rw [show a.decay.spin (((0 : Fin 4) : ℕ) : ℤ) = s0 from initial_spin hm h hs0]
  · intro n hn
    have hmn : ((n : ℕ) : ℤ) ∈ ([0, 1, 2, 3] : List ℤ) := by fin_cases n <;> simp
    obtain ⟨x, hx, h1, h2⟩ := decay_spin hm h hmn
    rcases List.mem_cons.1 hx with rfl | hx
    · rw [hm.kinematics.initial] at h1
      exact absurd (Fin.ext (by simpa using h1.symm)) hn
    · rw [mem_projections (spins_half hd n), ← h1]
      exact h1 ▸ hhel x hx _ h2

theorem wignerD_one_zero (x : ℝ) : Wigner.wignerD 1 1 0 x = -(1 / √2 * Real.sin x) := by
  have h1 : (⌊2 * (1 : ℚ)⌋).toNat = 2 := by norm_num; rfl
  have h2 : Wigner.pos 1 1 = 2 := by unfold Wigner.pos; norm_num; rfl
  have h3 : Wigner.pos 1 0 = 1 := by unfold Wigner.pos; norm_num
  unfold Wigner.wignerD Wigner.dmat
  rw [h1, h2, h3]
  have hp : Wigner.poly 2 2 x = Polynomial.C (Real.cos (x / 2) ^ 2) * Polynomial.X ^ 2 -
      Polynomial.C (2 * Real.sin (x / 2) * Real.cos (x / 2)) * Polynomial.X + Polynomial.C (Real.sin (x / 2) ^ 2) := by
    unfold Wigner.poly
    simp only [Polynomial.C_mul, Polynomial.C_pow]
    rw [show (Polynomial.C (2 : ℝ)) = 2 from rfl]
    ring
  unfold Wigner.mat
  rw [hp]
  simp only [Polynomial.coeff_sub, Polynomial.coeff_add, Polynomial.coeff_C_mul, Polynomial.coeff_X_pow, Polynomial.coeff_X,
    Polynomial.coeff_C]
  have h4 := Real.sin_two_mul (x / 2)
  rw [show 2 * (x / 2) = x by ring] at h4
  rw [h4]
  norm_num

/-! ### Examples -/

/-- `Lc → (K* → pi K) p` with a resonance of spin `J` and helicity `lR`, without parity vertices. -/
def exWave (name : String) (J lR : ℚ) : ChainDefinition where
  name := name
  propagators := [⟨some J, [.id 2, .id 3], "K892_BW"⟩]
  vertices := [
    { type := "helicity", node := [.seq [.id 2, .id 3], .id 1], helicities := some [some lR, some (1 / 2)] },
    { type := "helicity", node := [.id 2, .id 3], helicities := some [some 0, some 0] }]
  topology := [.seq [.id 2, .id 3], .id 1]
  weight := some (1, 0)

def exWaveDistribution (cs : List ChainDefinition) : Distribution := ⟨exKinematics, [.id 1, .seq [.id 2, .id 3]], cs⟩

def exWaveModel (cs : List ChainDefinition) : ModelDefinition :=
  { distributions := [exWaveDistribution cs], functions := exFunctions }

def exWaveReading (c : ChainDefinition) : Reading :=
  if c.name = "P1" then ⟨2, 3, 1, 1, 1 / 2, 0, 0⟩ else ⟨2, 3, 1, 0, 1 / 2, 0, 0⟩

/-- An S wave, a P wave with the same helicity of the resonance and a P wave with another one. -/
def exWaves : List ChainDefinition := [exWave "S" 0 0, exWave "P0" 1 0, exWave "P1" 1 1]

theorem exWave_cases {c : ChainDefinition} (h : c ∈ exWaves) :
    ∃ n J lR, c = exWave n J lR ∧ exWaveReading c = ⟨2, 3, 1, lR, 1 / 2, 0, 0⟩ ∧ IsHalfInteger J ∧ Projection J lR ∧
      Projection J 0 ∧ (formulateDynamics c (exWaveModel []) id none).toOption.isSome ∧ ∀ wig,
      lineValue (exWaveModel []) id none (Serialization.exInterp wig) c = Complex.I := by
  simp only [exWaves, List.mem_cons, List.not_mem_nil, or_false] at h
  have key : ∀ n J lR, c = exWave n J lR → (∃ P, formulateDynamics c (exWaveModel []) id none = .ok ⟨1 * breitWigner
      (.sym ⟨"sigma1", .nonneg⟩) (.sym (resonanceMass n)) (.sym (resonanceWidth n))
      (.sym ⟨"m2", .nonneg⟩) (.sym ⟨"m3", .nonneg⟩) (pyInt 1) (.sym resRadius), P⟩) →
      (formulateDynamics c (exWaveModel []) id none).toOption.isSome ∧ ∀ wig,
      lineValue (exWaveModel []) id none (Serialization.exInterp wig) c = Complex.I := by
    rintro n J lR - ⟨P, h⟩
    refine ⟨by rw [h]; rfl, fun wig => ?_⟩
    unfold lineValue
    rw [h]
    exact exInterp_breitWigner _ _ _ _ _ _ _ _ _
  rcases h with rfl | rfl | rfl
  · exact ⟨_, _, _, rfl, rfl, ⟨0, by norm_num⟩, ⟨by norm_num, by norm_num, 0, by norm_num⟩,
      ⟨by norm_num, by norm_num, 0, by norm_num⟩, key _ _ _ rfl ⟨_, rfl⟩⟩
  · exact ⟨_, _, _, rfl, rfl, ⟨2, by norm_num⟩, ⟨by norm_num, by norm_num, 1, by norm_num⟩,
      ⟨by norm_num, by norm_num, 1, by norm_num⟩, key _ _ _ rfl ⟨_, rfl⟩⟩
  · exact ⟨_, _, _, rfl, rfl, ⟨2, by norm_num⟩, ⟨by norm_num, by norm_num, 0, by norm_num⟩,
      ⟨by norm_num, by norm_num, 1, by norm_num⟩, key _ _ _ rfl ⟨_, rfl⟩⟩

theorem exWave_reads {cs : List ChainDefinition} (hcs : ∀ c ∈ cs, c ∈ exWaves) :
    ReadsModel (exWaveModel cs) (exWaveDistribution cs) exWaveReading := by
  refine ⟨⟨[], rfl⟩, exKinematics_wf, fun c hc => ?_⟩
  obtain ⟨n, J, lR, rfl, hr, -⟩ := exWave_cases (hcs c hc)
  rw [hr]
  exact ⟨⟨_, _, .inl rfl, ⟨_, _, .inl ⟨rfl, rfl⟩⟩, rfl, rfl⟩, show [(2 : ℤ), 3, 1].Perm [1, 2, 3] by decide⟩

theorem exWave_same (cs cs' : List ChainDefinition) :
    SameSetup (exWaveModel cs) (exWaveModel cs') (exWaveDistribution cs) (exWaveDistribution cs') :=
  ⟨⟨[], rfl⟩, ⟨[], rfl⟩, rfl, rfl, rfl⟩

theorem exWave_ok {cs : List ChainDefinition} (hcs : ∀ c ∈ cs, c ∈ exWaves) :
    ∃ a, formulate (exWaveModel cs) true id none = .ok a := by
  refine C60_returns (exWave_reads hcs) (ref := 1) ⟨by simp [exWaveDistribution], by simp [exWaveDistribution]⟩ (by simp)
    (fun c hc => ?_) true
  obtain ⟨n, J, lR, rfl, hr, hJ, -, -, hd, -⟩ := exWave_cases (hcs c hc)
  refine ⟨fun v hv => ?_, rfl, ⟨J, ⟨_, _, rfl, rfl⟩, hJ⟩, ⟨1, by simp, by simp [exWave], by simp [exWave]⟩, ?_, fun v hv => ?_⟩
  · simp only [exWave, List.mem_cons, List.not_mem_nil, or_false] at hv
    rcases hv with rfl | rfl <;> exact .inl rfl
  · rw [dynamics_same (exWave_same [] cs)]
    cases h : formulateDynamics (exWave n J lR) (exWaveModel []) id none with
    | ok d => exact ⟨d, rfl⟩
    | error e => rw [h] at hd; exact absurd hd (by simp [Except.toOption])
  · simp only [exWave, List.mem_cons, List.not_mem_nil, or_false] at hv
    rcases hv with rfl | rfl <;> exact ⟨_, rfl⟩

theorem exWave_in {cs : List ChainDefinition} (hcs : ∀ c ∈ cs, c ∈ exWaves) :
    InSubsystem (exWaveDistribution cs) exWaveReading 2 3 1 := by
  intro c hc
  obtain ⟨n, J, lR, rfl, hr, -⟩ := exWave_cases (hcs c hc)
  rw [hr]
  exact ⟨⟨by simp [exWave], by simp [exWave]⟩, rfl, rfl⟩

theorem exWave_possible {cs : List ChainDefinition} (hcs : ∀ c ∈ cs, c ∈ exWaves) :
    ∀ c ∈ (exWaveDistribution cs).chains, PossibleHelicities c (exWaveReading c) := by
  intro c hc
  obtain ⟨n, J, lR, rfl, hr, hJ, h1, h2, -⟩ := exWave_cases (hcs c hc)
  rw [hr]
  have e : chainSpin (exWave n J lR) = J := rfl
  refine ⟨by rwa [e], by rwa [e], ?_⟩
  rw [e, show ((0 : ℚ) - 0) = 0 by norm_num]
  exact h2

theorem exWave_zeta (n : Fin 4) : ∃ z : ℝ, exTurn.sym (zetaSymbol n 1 1) = z := ⟨1, Complex.ofReal_one.symm⟩

theorem ofReal_sum_map {α : Type*} (f : α → ℝ) (l : List α) : (l.map fun c => (f c : ℂ)).sum = ((l.map f).sum : ℝ) := by
  induction l with
  | nil => simp
  | cons c l ih => simp [ih]

/-- The intensity of the example is the square of the sum of the Wigner functions. -/
theorem exWave_value {cs : List ChainDefinition} (hcs : ∀ c ∈ cs, c ∈ exWaves) (hne : cs ≠ [])
    (h : formulate (exWaveModel cs) true id none = .ok a) (x : ℝ) (η : Sym → ℚ) :
    a.fullExpression.eval (withSymbol exTurn (decayAngle 2 3) x) η =
      ((2 * ((cs.map fun c => Wigner.wignerD (chainSpin c) (exWaveReading c).lR 0 x).sum) ^ 2 : ℝ) : ℂ) := by
  have hv := builtin_values (tl := id) (exWave_reads hcs) exTurn 2 3 x
  have ht : ∀ c ∈ (exWaveDistribution cs).chains, ∀ v ∈ c.vertices, v.type ≠ "parity" := by
    intro c hc v hvm
    obtain ⟨n, J, lR, rfl, -⟩ := exWave_cases (hcs c hc)
    simp only [exWave, List.mem_cons, List.not_mem_nil, or_false] at hvm
    rcases hvm with rfl | rfl <;> simp
  have hsame : ∀ c ∈ (exWaveDistribution cs).chains, ∀ n ∈ ([1, 2, 3] : List ℤ),
      (exWaveReading c).hel n = (fun n : ℤ => if n = 1 then (1 / 2 : ℚ) else 0) n := by
    intro c hc n hn
    obtain ⟨n', J, lR, rfl, hr, -⟩ := exWave_cases (hcs c hc)
    rw [hr]
    simp only [List.mem_cons, List.not_mem_nil, or_false] at hn
    rcases hn with rfl | rfl | rfl <;> simp [Reading.hel]
  have hhel : ∀ x ∈ (exWaveDistribution cs).kinematics.finalState, ∀ s, x.spin = some s →
      Projection s ((fun n : ℤ => if n = 1 then (1 / 2 : ℚ) else 0) x.index) := by
    intro y hy s hs
    simp only [exWaveDistribution, exKinematics, List.mem_cons, List.not_mem_nil, or_false] at hy
    rcases hy with rfl | rfl | rfl <;> cases hs <;> exact ⟨by norm_num, by norm_num, 0, by norm_num⟩
  rw [C116_same_helicities (exWave_reads hcs) exDistribution_nonneg (ref := 1) ⟨by simp [exWaveDistribution], by simp [exWaveDistribution]⟩
    (by simp) h hv (exWave_in hcs) (by simp) hne ht hsame hhel exTurn_actual (fun n => ⟨1, by
      rw [withSymbol_other decayAngle_ne_zeta]; exact Complex.ofReal_one.symm⟩) η (s0 := 1 / 2) rfl]
  · refine congrArg _ ?_
    have : ∀ c ∈ cs, (withSymbol exTurn (decayAngle 2 3) x).sym (weightSymbol id c (exWaveReading c)) *
        (lineValue (exWaveModel cs) id none exTurn c * (c.vertices.map (formValue (exWaveModel cs) exTurn)).prod) *
        (withSymbol exTurn (decayAngle 2 3) x).wig (chainSpin c) (exWaveReading c).lR ((exWaveReading c).li - (exWaveReading c).lj)
          ((withSymbol exTurn (decayAngle 2 3) x).sym (decayAngle 2 3)) =
        Complex.I * ((Wigner.wignerD (chainSpin c) (exWaveReading c).lR 0 x : ℝ) : ℂ) := by
      intro c hc
      have hp := (exWave_possible hcs c hc).products
      obtain ⟨n, J, lR, rfl, hr, hJ, h1, h2, hd, hl⟩ := exWave_cases (hcs c hc)
      have hline : lineValue (exWaveModel cs) id none exTurn (exWave n J lR) = Complex.I := by
        have := hl (exTurn.wig)
        unfold lineValue at this ⊢
        rw [dynamics_same (exWave_same [] cs)]
        exact this
      have hform : ((exWave n J lR).vertices.map (formValue (exWaveModel cs) exTurn)).prod = 1 := by
        refine List.prod_eq_one fun y hy => ?_
        obtain ⟨v, hvm, rfl⟩ := List.mem_map.1 hy
        have : formulateFormFactor v (exWaveModel cs) = .ok {} := by
          simp only [exWave, List.mem_cons, List.not_mem_nil, or_false] at hvm
          rcases hvm with rfl | rfl <;> rfl
        unfold formValue
        rw [this]
        simp [Expr.eval]
      have hs : (withSymbol exTurn (decayAngle 2 3) x).sym (decayAngle 2 3) = (x : ℂ) := by simp [withSymbol]
      have hwig : (withSymbol exTurn (decayAngle 2 3) x).wig = exTurn.wig := rfl
      rw [weight_withSymbol, hline, hform, hs, hwig, exTurn_actual, if_pos hp, hr, show ((0 : ℚ) - 0) = 0 by norm_num]
      rw [show exTurn.sym (weightSymbol id (exWave n J lR) _) = 1 from rfl]
      ring
    rw [show (exWaveDistribution cs).chains = cs from rfl, List.map_congr_left this, List.sum_map_mul_left, norm_mul,
      Complex.norm_I, one_mul, ofReal_sum_map, Complex.norm_real, Real.norm_eq_abs, sq_abs]
    push_cast
    norm_num

theorem exWave_integral {cs : List ChainDefinition} (hcs : ∀ c ∈ cs, c ∈ exWaves) (hne : cs ≠ [])
    (h : formulate (exWaveModel cs) true id none = .ok a) (η : Sym → ℚ) : angleIntegral exTurn 2 3 a.fullExpression η =
      ((∫ x in (0 : ℝ)..Real.pi, 2 * ((cs.map fun c => Wigner.wignerD (chainSpin c) (exWaveReading c).lR 0 x).sum) ^ 2 * Real.sin x : ℝ) : ℂ) := by
  unfold angleIntegral
  rw [← intervalIntegral.integral_ofReal]
  simp only [exWave_value hcs hne h, Complex.ofReal_mul]

/-- C116: the restriction to common helicities cannot be dropped. Chains with resonances of spin 0 and 1 in one subsystem
interfere after integration over the decay angle if the helicities `λR` of their resonances differ: the spin projection of the
initial state does not select one of them. -/
theorem C116_interference : ∃ (m : ModelDefinition) (D : Distribution) (rd : ChainDefinition → Reading) (a : AmplitudeModel)
    (sub : ℚ → ModelDefinition) (DS : ℚ → Distribution) (as : ℚ → AmplitudeModel) (ι : Interp),
    ReadsModel m D rd ∧ NonnegativeSpins D ∧ IsSpectator D.referenceTopology 1 ∧ formulate m true id none = .ok a ∧
    InSubsystem D rd 2 3 1 ∧ (∀ c ∈ D.chains, PossibleHelicities c (rd c)) ∧ ActualWigner ι ∧ RealAngles ι ∧
    (∀ J ∈ serialSpins D, ReadsModel (sub J) (DS J) rd) ∧ (∀ J ∈ serialSpins D, SameSetup m (sub J) D (DS J)) ∧
    (∀ J ∈ serialSpins D, (DS J).chains = D.chains.filter fun c => chainSpin c = J) ∧
    (∀ J ∈ serialSpins D, formulate (sub J) true id none = .ok (as J)) ∧
    ∀ η, angleIntegral ι 2 3 a.fullExpression η ≠ ∑ J ∈ serialSpins D, angleIntegral ι 2 3 (as J).fullExpression η := by
  have hcs : ∀ c ∈ [exWave "S" 0 0, exWave "P1" 1 1], c ∈ exWaves := by
    intro c hc
    simp only [List.mem_cons, List.not_mem_nil, or_false] at hc
    rcases hc with rfl | rfl <;> simp [exWaves]
  have hS : ∀ c ∈ [exWave "S" 0 0], c ∈ exWaves := fun c hc => hcs c (by simp at hc; simp [hc])
  have hP : ∀ c ∈ [exWave "P1" 1 1], c ∈ exWaves := fun c hc => hcs c (by simp at hc; simp [hc])
  obtain ⟨a, ha⟩ := exWave_ok hcs
  obtain ⟨a0, ha0⟩ := exWave_ok hS
  obtain ⟨a1, ha1⟩ := exWave_ok hP
  have e0 : chainSpin (exWave "S" 0 0) = 0 := rfl
  have e1 : chainSpin (exWave "P1" 1 1) = 1 := rfl
  have hspin : serialSpins (exWaveDistribution [exWave "S" 0 0, exWave "P1" 1 1]) = {0, 1} := by
    unfold serialSpins exWaveDistribution
    simp [e0, e1]
  refine ⟨_, exWaveDistribution _, exWaveReading, a,
    fun J => exWaveModel (if J = 0 then [exWave "S" 0 0] else [exWave "P1" 1 1]),
    fun J => exWaveDistribution (if J = 0 then [exWave "S" 0 0] else [exWave "P1" 1 1]),
    fun J => if J = 0 then a0 else a1, exTurn, exWave_reads hcs, exDistribution_nonneg,
    ⟨by simp [exWaveDistribution], by simp [exWaveDistribution]⟩, ha, exWave_in hcs, exWave_possible hcs, exTurn_actual,
    exTurn_angles, fun J _ => exWave_reads ?_, fun J _ => exWave_same _ _, fun J hJ => ?_, fun J hJ => ?_, fun η => ?_⟩
  · split
    · exact hS
    · exact hP
  · rw [hspin, Finset.mem_insert, Finset.mem_singleton] at hJ
    unfold exWaveDistribution
    rcases hJ with rfl | rfl <;> simp [e0, e1]
  · dsimp only
    split
    · exact ha0
    · exact ha1
  · rw [hspin, Finset.sum_pair (by norm_num)]
    dsimp only
    rw [if_pos rfl, if_neg one_ne_zero, exWave_integral hcs (by simp) ha,
      exWave_integral hS (by simp) ha0, exWave_integral hP (by simp) ha1, ← Complex.ofReal_add, Ne, Complex.ofReal_inj]
    have r0 : (exWaveReading (exWave "S" 0 0)).lR = 0 := rfl
    have r1 : (exWaveReading (exWave "P1" 1 1)).lR = 1 := rfl
    simp only [List.map_cons, List.map_nil, List.sum_cons, List.sum_nil, e0, e1, r0, r1, Wigner.wignerD_zero, wignerD_one_zero,
      add_zero]
    rw [← intervalIntegral.integral_add, ← sub_eq_zero.not, ← intervalIntegral.integral_sub]
    · have : ∀ x : ℝ, 2 * (1 + -(1 / √2 * Real.sin x)) ^ 2 * Real.sin x -
          (2 * 1 ^ 2 * Real.sin x + 2 * (-(1 / √2 * Real.sin x)) ^ 2 * Real.sin x) = -(4 / √2) * Real.sin x ^ 2 := by
        intro x
        ring
      simp only [this]
      rw [intervalIntegral.integral_const_mul, integral_sin_sq]
      have : (√2 : ℝ) ≠ 0 := by positivity
      simp
    all_goals exact Continuous.intervalIntegrable (by fun_prop) _ _

/-- An S and a P wave with the same helicity of the resonance do not interfere. -/
example : ∃ a a0 a1, formulate (exWaveModel [exWave "S" 0 0, exWave "P0" 1 0]) true id none = .ok a ∧
    formulate (exWaveModel [exWave "S" 0 0]) true id none = .ok a0 ∧
    formulate (exWaveModel [exWave "P0" 1 0]) true id none = .ok a1 ∧ ∀ η, angleIntegral exTurn 2 3 a.fullExpression η =
      angleIntegral exTurn 2 3 a0.fullExpression η + angleIntegral exTurn 2 3 a1.fullExpression η := by
  have hcs : ∀ c ∈ [exWave "S" 0 0, exWave "P0" 1 0], c ∈ exWaves := by
    intro c hc
    simp only [List.mem_cons, List.not_mem_nil, or_false] at hc
    rcases hc with rfl | rfl <;> simp [exWaves]
  have hS : ∀ c ∈ [exWave "S" 0 0], c ∈ exWaves := fun c hc => hcs c (by simp at hc; simp [hc])
  have hP : ∀ c ∈ [exWave "P0" 1 0], c ∈ exWaves := fun c hc => hcs c (by simp at hc; simp [hc])
  obtain ⟨a, ha⟩ := exWave_ok hcs
  obtain ⟨a0, ha0⟩ := exWave_ok hS
  obtain ⟨a1, ha1⟩ := exWave_ok hP
  have e0 : chainSpin (exWave "S" 0 0) = 0 := rfl
  have e1 : chainSpin (exWave "P0" 1 0) = 1 := rfl
  have hspin : serialSpins (exWaveDistribution [exWave "S" 0 0, exWave "P0" 1 0]) = {0, 1} := by
    unfold serialSpins exWaveDistribution
    simp [e0, e1]
  refine ⟨a, a0, a1, ha, ha0, ha1, fun η => ?_⟩
  have := C116_no_interference_partial (cl' := true) (exWave_reads hcs) exDistribution_nonneg (ref := 1)
    ⟨by simp [exWaveDistribution], by simp [exWaveDistribution]⟩ (by simp) ha (exWave_in hcs) (by simp)
    (by simp [exWaveDistribution]) ?_ (exWave_possible hcs) exTurn_actual exWave_zeta η
    (sub := fun J => exWaveModel (if J = 0 then [exWave "S" 0 0] else [exWave "P0" 1 0]))
    (DS := fun J => exWaveDistribution (if J = 0 then [exWave "S" 0 0] else [exWave "P0" 1 0]))
    (as := fun J => if J = 0 then a0 else a1) ?_ (fun J _ => exWave_same _ _) ?_ ?_
  · rw [this, hspin, Finset.sum_pair (by norm_num), if_pos rfl, if_neg one_ne_zero]
  · intro c hc c' hc' l _ _
    simp only [exWaveDistribution, List.mem_cons, List.not_mem_nil, or_false] at hc hc'
    rcases hc with rfl | rfl <;> rcases hc' with rfl | rfl <;> exact ⟨rfl, rfl⟩
  · intro J _
    refine exWave_reads ?_
    split
    · exact hS
    · exact hP
  · intro J hJ
    rw [hspin, Finset.mem_insert, Finset.mem_singleton] at hJ
    unfold exWaveDistribution
    rcases hJ with rfl | rfl <;> simp [e0, e1]
  · intro J hJ
    split
    · exact ha0
    · exact ha1

end Verif.Serialization
