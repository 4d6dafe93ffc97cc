import Verif.Proofs.Closed
import Verif.Props.Smooth
import Verif.Props.SerialSmooth

/-! Property C120: angles and intensity on the Dalitz plot with its boundary. -/
namespace Verif.Angles
open Verif Verif.Spec RExpr

variable {X : Type*} [TopologicalSpace X] {ρ : X → Sym → ℝ} {S : Set X}

/-- C120: all angles are continuous functions of masses and Mandelstam variables on the Dalitz plot, including its boundary. -/
theorem C120_angles (h : ContinuousPoint ρ S) (hd : ∀ x ∈ S, DalitzRegion (ρ x)) :
    (∀ i ∈ ([1, 2, 3] : List ℤ), ∀ j ∈ ([1, 2, 3] : List ℤ), i ≠ j →
      ∃ s e, formulateScatteringAngle i j = .ok (s, e) ∧ ContinuousValue ρ S e) ∧
    (∀ i ∈ ([1, 2, 3] : List ℤ), ∀ j ∈ ([1, 2, 3] : List ℤ),
      ∃ s e, formulateThetaHatAngle i j = .ok (s, e) ∧ ContinuousValue ρ S e) ∧
    (∀ i ∈ ([0, 1, 2, 3] : List ℤ), ∀ j ∈ ([1, 2, 3] : List ℤ), ∀ k ∈ ([1, 2, 3] : List ℤ),
      ∃ s e, formulateZetaAngle i j k = .ok (s, e) ∧ ContinuousValue ρ S e) := by
  have h0 : ContinuousValue ρ S (0 : RExpr) := ContinuousValue.num 0
  have hhat : ∀ q, ∀ i ∈ ([1, 2, 3] : List ℤ), ∀ j ∈ ([1, 2, 3] : List ℤ),
      ∃ e, formulateThetaHatAngleF (q + 2) i j = .ok (hatSym i j, e) ∧ ContinuousValue ρ S e := by
    intro q i hi j hj
    rcases pair_cases hi hj with rfl | ⟨k, hk⟩ | ⟨k, hk⟩
    · exact ⟨_, hat_self (q + 1) hi, h0⟩
    · exact ⟨_, (hat_forms q hk).1, hat_continuous h hd (cyclic_perm hk)⟩
    · exact ⟨_, (hat_forms q hk).2, (hat_continuous h hd (cyclic_perm hk)).neg⟩
  refine ⟨?_, ?_, ?_⟩
  · intro i hi j hj hij
    have : ∃ k, IsPerm123 i j k := by
      rcases pair_cases hi hj with rfl | ⟨k, hk⟩ | ⟨k, hk⟩
      · exact absurd rfl hij
      · exact ⟨k, cyclic_perm hk⟩
      · exact ⟨k, perm_swap (cyclic_perm hk)⟩
    obtain ⟨k, hp⟩ := this
    exact ⟨_, _, scat_forms hp, scat_continuous h hd hp⟩
  · intro i hi j hj
    obtain ⟨e, he⟩ := hhat 998 i hi j hj
    exact ⟨_, e, he⟩
  · intro i hi j hj k hk
    rcases List.mem_cons.1 hi with rfl | hi
    · obtain ⟨e, he, hv⟩ := hhat 997 j hj k hk
      refine ⟨zetaSym 0 j k, e, ?_, hv⟩
      show formulateZetaAngleF (999 + 1) 0 j k = _
      rw [zeta_rot0, he]; rfl
    · by_cases hjk : j = k
      · subst hjk
        obtain ⟨s, hs⟩ := C13_zeta_symmetry.1 i (mem0 hi) j hj
        exact ⟨_, _, hs, h0⟩
      obtain ⟨a, b, hc, hj', hk'⟩ := zeta_triples hi hj hk
      obtain ⟨f1, f2, f3, f4, f5, f6⟩ := zeta_forms 998 hc
      have hp := cyclic_perm hc
      have hp' : IsPerm123 i b a := perm_swap (perm_rot (perm_rot hp))
      have z1 := zetaA_continuous h hd hp
      have z2 := zetaA_continuous h hd hp'
      have z3 := zetaB_continuous h hd hp
      rcases hj' with rfl | rfl | rfl <;> rcases hk' with rfl | rfl | rfl
      · exact absurd rfl hjk
      · exact ⟨_, _, f5, z2.neg⟩
      · exact ⟨_, _, f1, z1⟩
      · exact ⟨_, _, f2, z2⟩
      · exact absurd rfl hjk
      · exact ⟨_, _, f3, z3⟩
      · exact ⟨_, _, f4, z1.neg⟩
      · exact ⟨_, _, f6, z3.neg⟩
      · exact absurd rfl hjk

end Verif.Angles

namespace Verif.ThreeBody
open Verif Verif.Spec Verif.Spin Verif.Angles

variable {b : Builder} {dyn : Chain → DefExpr} {reference : Option ℤ} {cl uc : Bool} {m : AmplitudeModel}
variable {X : Type*} [TopologicalSpace X] {ρ : X → Sym → ℝ} {S : Set X} {ι : X → Interp}

/-- Couplings are continuous functions on `S`, Clebsch-Gordan coefficients do not change, the Wigner functions are the actual
ones, and the angles follow from their definitions at the kinematic point `ρ x`. -/
structure ContinuousInterp (ι : X → Interp) (ρ : X → Sym → ℝ) (m : AmplitudeModel) (S : Set X) : Prop where
  wigner : ∀ x ∈ S, ActualWigner (ι x)
  clebsch : ∀ x ∈ S, ∀ y ∈ S, (ι x).cg = (ι y).cg
  couplings : ∀ base R l, ContinuousOn (fun x => (ι x).idx base R l) S
  angles : ∀ x ∈ S, AnglesAt (ι x) (ρ x) m

theorem continuous_wig (hw : ∀ x ∈ S, ActualWigner (ι x)) {f : X → ℝ} {s : Sym} (hf : ContinuousOn f S)
    (h : ∀ x ∈ S, (ι x).sym s = (f x : ℂ)) (j μ ν : ℚ) :
    ContinuousOn (fun x => (ι x).wig j μ ν ((ι x).sym s)) S := by
  classical
  have key : ContinuousOn (fun x => if Projection j ν then (Wigner.wignerD j μ ν (f x) : ℂ) else 0) S := by
    by_cases hp : Projection j ν
    · simp only [if_pos hp]
      exact Complex.continuous_ofReal.comp_continuousOn
        ((Wigner.contDiff_wignerD (n := 0) j μ ν).continuous.comp_continuousOn hf)
    · simp only [if_neg hp]
      exact continuousOn_const
  refine key.congr fun x hx => ?_
  simp only
  rw [h x hx, hw x hx]

theorem continuous_sum {α : Type} {l : List α} {f : α → X → ℂ} (h : ∀ a ∈ l, ContinuousOn (f a) S) :
    ContinuousOn (fun x => (l.map fun a => f a x).sum) S := by
  induction l with
  | nil => exact continuousOn_const
  | cons a l ih =>
    simp only [List.map_cons, List.sum_cons]
    exact (h a List.mem_cons_self).add (ih fun a ha => h a (List.mem_cons_of_mem _ ha))

/-- C120: the intensity of a model is continuous on the Dalitz plot, including its boundary, if the couplings, the lineshapes and the
masses and Mandelstam variables are. -/
theorem C120_intensity (hd : Standard b.decay) (hdyn : Lineshapes b dyn) (hr : RefOk reference)
    (h : b.formulate reference cl uc = .ok m)
    (hfree : ∀ c ∈ b.decay.chains, HelicityFree (dyn c).expression)
    (hres : b.useProdHel = false → ∀ c ∈ b.decay.chains, c.resonance ≠ .state c.spectator) (η : Sym → ℚ)
    (hρ : ContinuousPoint ρ S) (hin : ∀ x ∈ S, DalitzRegion (ρ x)) (hι : ContinuousInterp ι ρ m S)
    (hline : ∀ c ∈ b.decay.chains, ContinuousOn (fun x => (dyn c).expression.eval (ι x) η) S) :
    ContinuousOn (fun x => m.fullExpression.eval (ι x) η) S := by
  obtain ⟨ref, hu, hv⟩ := full_value hd hdyn hr h hfree hres η
  obtain ⟨ref', P, hu', hr3, -, rfl, -⟩ := formulate_inv hd hdyn hr h
  obtain rfl := usedRef_unique hu hu'
  obtain ⟨a1, -, a3⟩ := C120_angles hρ hin
  simp only [hv]
  suffices hs : ContinuousOn (fun x => intensity (ι x) b.decay ref
      (subsystemValue (ι x) b uc fun c => (dyn c).expression.eval (ι x) η)) S from
    Complex.continuous_ofReal.comp_continuousOn hs
  unfold Spec.intensity
  refine continuousOn_finsetSum _ fun l hl => ContinuousOn.pow (ContinuousOn.norm ?_) 2
  unfold Spec.aligned
  have hrot : ∀ k ∈ subsystems b.decay, ∀ (i : Fin 4) μ ν,
      ContinuousOn (fun x => rotation (ι x) b.decay ref k i μ ν) S := by
    intro k hk i μ ν
    unfold rotation
    by_cases hs : b.decay.spin i = 0
    · simp only [if_pos hs]
      exact continuousOn_const
    · simp only [if_neg hs]
      have hi := fin4_mem i
      have hk' := (mem_subsystems _ _).1 hk
      have hk3 := Standard.subsystem hd hk'
      obtain ⟨s, e, he, f, hf, hf'⟩ := a3 i hi k hk3 ref hr3
      rw [zeta_eq hi hk3 hr3] at he
      injection he with he
      injection he with h1 h2
      subst h1 h2
      exact continuous_wig hι.wigner hf (fun x hx => hι.angles x hx _ _ _
        (angle_get?_zeta hd hr3 hi hk' (by rw [spins_eq _ hi]; exact hs)) (hf' x hx)) _ _ _
  refine continuousOn_finsetSum _ fun l' hl' => continuousOn_finsetSum _ fun k hk => ?_
  refine ((((?_ : ContinuousOn _ S).mul (hrot k hk 0 _ _)).mul (hrot k hk 1 _ _)).mul (hrot k hk 2 _ _)).mul
    (hrot k hk 3 _ _)
  have hk' := (mem_subsystems _ _).1 hk
  have hk3 := Standard.subsystem hd hk'
  have hp := evenPerm_perm (evenPerm_prodIds hk3)
  obtain ⟨hi3, hj3, -⟩ := perm_mem hp
  have hij : (prodIds k).1 ≠ (prodIds k).2 := by
    intro he
    have := hp.nodup_iff.2 (by decide)
    simp [he] at this
  obtain ⟨s, e, he, f, hf, hf'⟩ := a1 _ hi3 _ hj3 hij
  rw [theta_eq hk3] at he
  injection he with he
  injection he with h1 h2
  subst h1 h2
  have hwig := fun j μ ν => continuous_wig hι.wigner hf (fun x hx => hι.angles x hx _ _ _
    (angle_get?_theta hd ((selected_iff hd k).2 (selected_of_chain hd hk)) (helicities_tuple hd hl')) (hf' x hx)) j μ ν
  unfold subsystemValue
  refine continuous_sum fun c hc => ?_
  have hc' := (List.mem_filter.1 hc).1
  unfold chainValue
  split
  · have hcoup : ContinuousOn (fun x => couplings (ι x) b c uc (byId l' 0 + byId l' k) (byId l' k)
        (byId l' (prodIds k).1) (byId l' (prodIds k).2)) S := by
      unfold couplings
      simp only
      split
      · exact hι.couplings _ _ _
      · exact (hι.couplings _ _ _).mul (hι.couplings _ _ _)
    have hdec : ContinuousOn (fun x => decayFactor (ι x) b c (byId l')) S := by
      rcases S.eq_empty_or_nonempty with rfl | ⟨x₀, h₀⟩
      · exact continuousOn_empty _
      refine (continuousOn_const (c := decayFactor (ι x₀) b c (byId l'))).congr fun x hx => ?_
      simp only [decayFactor, lsFactor]
      rw [hι.clebsch x hx x₀ h₀]
    have hprod : ContinuousOn (fun x => productionFactor (ι x) b c (byId l' 0 + byId l' k) (byId l' k)) S := by
      rcases S.eq_empty_or_nonempty with rfl | ⟨x₀, h₀⟩
      · exact continuousOn_empty _
      refine (continuousOn_const (c := productionFactor (ι x₀) b c (byId l' 0 + byId l' k) (byId l' k))).congr fun x hx => ?_
      simp only [productionFactor, lsFactor]
      rw [hι.clebsch x hx x₀ h₀]
    exact ((((continuousOn_const.mul (hline c hc')).mul (hwig _ _ _)).mul hcoup).mul hdec).mul hprod
  · exact continuousOn_const

/-- C120: on a compact part of the Dalitz plot, the intensity has a maximum, so that events can be generated by
rejection. -/
theorem C120_maximum (hd : Standard b.decay) (hdyn : Lineshapes b dyn) (hr : RefOk reference)
    (h : b.formulate reference cl uc = .ok m)
    (hfree : ∀ c ∈ b.decay.chains, HelicityFree (dyn c).expression)
    (hres : b.useProdHel = false → ∀ c ∈ b.decay.chains, c.resonance ≠ .state c.spectator) (η : Sym → ℚ)
    (hρ : ContinuousPoint ρ S) (hin : ∀ x ∈ S, DalitzRegion (ρ x)) (hι : ContinuousInterp ι ρ m S)
    (hline : ∀ c ∈ b.decay.chains, ContinuousOn (fun x => (dyn c).expression.eval (ι x) η) S)
    (hS : IsCompact S) (hne : S.Nonempty) :
    ∃ y ∈ S, ∀ x ∈ S, (m.fullExpression.eval (ι x) η).re ≤ (m.fullExpression.eval (ι y) η).re :=
  hS.exists_isMaxOn hne (Complex.continuous_re.comp_continuousOn
    (C120_intensity hd hdyn hr h hfree hres η hρ hin hι hline))

/-- All hypotheses of `C120_intensity` and `C120_maximum` hold for `exTwo` with reference subsystem 2, along a line through the whole
Dalitz plot, with couplings that change along that line. -/
example : ∃ m : AmplitudeModel, exTwo.formulate (some 2) true false = .ok m ∧
    ContinuousPoint closedLine (Set.Icc (27 / 4) (49 / 4)) ∧ (∀ t ∈ Set.Icc (27 / 4) (49 / 4), DalitzRegion (closedLine t)) ∧
    ContinuousInterp (fun t => { exActual (closedLine t) with idx := fun _ _ _ => (t : ℂ) }) closedLine m
      (Set.Icc (27 / 4) (49 / 4)) ∧
    ∃ y ∈ Set.Icc (27 / 4 : ℝ) (49 / 4), ∀ t ∈ Set.Icc (27 / 4 : ℝ) (49 / 4),
      (m.fullExpression.eval { exActual (closedLine t) with idx := fun _ _ _ => (t : ℂ) } fun _ => 0).re ≤
      (m.fullExpression.eval { exActual (closedLine y) with idx := fun _ _ _ => (y : ℂ) } fun _ => 0).re := by
  obtain ⟨m, hm, am⟩ := ex_formulate exTwo_standard (unit_lineshapes _ _ _ _) rfl rfl 2 (by simp)
  have h1 : ContinuousPoint closedLine (Set.Icc (27 / 4) (49 / 4)) := by
    have : ∀ s, Continuous (fun t => closedLine t s) := by
      intro s
      unfold closedLine
      split_ifs <;> fun_prop
    exact ⟨fun _ _ => (this _).continuousOn, fun _ _ => (this _).continuousOn⟩
  have h2 : ∀ t ∈ Set.Icc (27 / 4) (49 / 4), DalitzRegion (closedLine t) := fun t ht => (closedLine_region ht.1 ht.2).1
  have h3 : ContinuousInterp (fun t : ℝ => { exActual (closedLine t) with idx := fun _ _ _ => (t : ℂ) }) closedLine m
      (Set.Icc (27 / 4) (49 / 4)) :=
    ⟨fun _ _ j m m' x => by simp [exActual], fun _ _ _ _ => rfl, fun _ _ _ => Complex.continuous_ofReal.continuousOn,
      fun t _ => am _ _ rfl⟩
  have hr : RefOk (some 2) := by simp [RefOk]
  exact ⟨m, hm, h1, h2, h3, C120_maximum exTwo_standard (unit_lineshapes _ _ _ _) hr hm (fun _ _ _ _ _ => rfl)
    (fun h => by cases h) _ h1 h2 h3 (fun _ _ => continuousOn_const) isCompact_Icc ⟨27 / 4, by norm_num, by norm_num⟩⟩

end Verif.ThreeBody

namespace Verif.Serialization
open Verif Verif.Spec Verif.ThreeBody Verif.Angles

variable {m : ModelDefinition} {D : Distribution} {rd : ChainDefinition → Reading} {ref : ℤ} {cl : Bool}
  {tl : String → String} {add : Option (PyDict String PropagatorBuilder)} {a : AmplitudeModel}
variable {X : Type*} [TopologicalSpace X] {ρ : X → Sym → ℝ} {S : Set X} {ι : X → Interp}

theorem continuous_prod {α : Type} {l : List α} {f : α → X → ℂ} (h : ∀ a ∈ l, ContinuousOn (f a) S) :
    ContinuousOn (fun x => (l.map fun a => f a x).prod) S := by
  induction l with
  | nil => exact continuousOn_const
  | cons a l ih =>
    simp only [List.map_cons, List.prod_cons]
    exact (h a List.mem_cons_self).mul (ih fun a ha => h a (List.mem_cons_of_mem _ ha))

/-- C120 for serialized models: the intensity is continuous on the Dalitz plot, including its boundary, if the weights, lineshapes and
form factors and the masses and Mandelstam variables are. -/
theorem C120_serial_intensity (hm : ReadsModel m D rd) (h0 : NonnegativeSpins D)
    (href : IsSpectator D.referenceTopology ref) (href' : ref ∈ ([1, 2, 3] : List ℤ))
    (h : formulate m cl tl add = .ok a) (hρ : ContinuousPoint ρ S) (hin : ∀ x ∈ S, DalitzRegion (ρ x))
    (hw : ∀ x ∈ S, ActualWigner (ι x)) (hang : ∀ x ∈ S, AnglesAt (ι x) (ρ x) a)
    (hweights : ∀ c ∈ D.chains, ContinuousOn (fun x => (ι x).sym (weightSymbol tl c (rd c))) S)
    {line : X → ChainDefinition → ℂ} {form : X → Vertex → ℂ}
    (hv : ∀ x, DynamicsValues m D.chains tl add (ι x) (line x) (form x))
    (hline : ∀ c ∈ D.chains, ContinuousOn (fun x => line x c) S)
    (hform : ∀ c ∈ D.chains, ∀ v ∈ c.vertices, ContinuousOn (fun x => form x v) S) (η : Sym → ℚ) :
    ContinuousOn (fun x => a.fullExpression.eval (ι x) η) S := by
  classical
  obtain ⟨a1, -, a3⟩ := C120_angles hρ hin
  obtain ⟨t1, t2⟩ := C71_angles_defined hm h0 href href' h
  simp only [fun x => (C70_intensity_value hm h0 href href' h (ι x) η).2]
  suffices hs : ContinuousOn (fun x => intensityOver (ι x) a.decay (topologySubsystems D.chains) ref
      (definedValue a (ι x) η)) S from Complex.continuous_ofReal.comp_continuousOn hs
  unfold Spec.intensityOver
  refine continuousOn_finsetSum _ fun l hl => ContinuousOn.pow (ContinuousOn.norm ?_) 2
  unfold Spec.alignedOver
  have hrot : ∀ k ∈ topologySubsystems D.chains, ∀ (i : Fin 4) μ ν,
      ContinuousOn (fun x => rotation (ι x) a.decay ref k i μ ν) S := by
    intro k hk i μ ν
    unfold rotation
    by_cases hs : a.decay.spin i = 0
    · simp only [if_pos hs]
      exact continuousOn_const
    · simp only [if_neg hs]
      have hi := fin4_mem i
      obtain ⟨e, he, hg⟩ := t2 k hk i hi hs
      obtain ⟨s, e', he', f, hf, hf'⟩ := a3 i hi k (topology_mem hk) ref href'
      rw [he] at he'
      cases he'
      exact continuous_wig hw hf (fun x hx => hang x hx _ _ _ hg (hf' x hx)) _ _ _
  refine continuousOn_finsetSum _ fun l' hl' => continuousOn_finsetSum _ fun k hk => ?_
  refine ((((?_ : ContinuousOn _ S).mul (hrot k hk 0 _ _)).mul (hrot k hk 1 _ _)).mul (hrot k hk 2 _ _)).mul
    (hrot k hk 3 _ _)
  simp only [fun x => C60_amplitude_value hm h (hv x) η k hl']
  refine continuous_sum fun c hc => ?_
  by_cases hk : IsSpectator c.topology k
  · simp only [if_pos hk]
    unfold serialValue
    have hp : IsPerm123 (rd c).i (rd c).j (rd c).k := (hm.reads c hc).2
    obtain ⟨hi3, hj3, -⟩ := perm_mem hp
    have hij : (rd c).i ≠ (rd c).j := by
      intro he
      have := hp.nodup_iff.2 (by decide)
      simp [he] at this
    obtain ⟨e, he, hg⟩ := t1 c hc
    obtain ⟨s, e', he', f, hf, hf'⟩ := a1 _ hi3 _ hj3 hij
    rw [he] at he'
    cases he'
    refine (((hweights c hc).mul continuousOn_const).mul ?_).mul ((hline c hc).mul (continuous_prod fun v hv => hform c hc v hv))
    exact continuous_wig hw hf (fun x hx => hang x hx _ _ _ hg (hf' x hx)) _ _ _
  · simp only [if_neg hk]
    exact continuousOn_const

/-- Values of the angles along the line `closedLine`, with weights that change along that line. -/
noncomputable def exAcross (a : AmplitudeModel) (t : ℝ) : Interp :=
  { exActual 0 with sym := fun s => if s.asm = .real
      then ((((PyDict.get? a.angleDefs s).bind fun e => e.eval (closedLine t)).getD 0 : ℝ) : ℂ)
      else if s.asm = .none then t else 1 }

/-- All hypotheses of `C120_serial_intensity` hold for `exModel`, with its built-in lineshapes, along a line through the whole Dalitz
plot. -/
example : ∃ a, formulate exModel true id none = .ok a ∧
    ∀ η, ContinuousOn (fun t => a.fullExpression.eval (exAcross a t) η) (Set.Icc (27 / 4) (49 / 4)) := by
  obtain ⟨a, ha⟩ := exModel_ok id true
  have h1 : ContinuousPoint closedLine (Set.Icc (27 / 4) (49 / 4)) := by
    have : ∀ s, Continuous (fun t => closedLine t s) := by
      intro s
      unfold closedLine
      split_ifs <;> fun_prop
    exact ⟨fun _ _ => (this _).continuousOn, fun _ _ => (this _).continuousOn⟩
  have h2 : ∀ t ∈ Set.Icc (27 / 4) (49 / 4), DalitzRegion (closedLine t) := fun t ht => (closedLine_region ht.1 ht.2).1
  have h4 : ∀ t, AnglesAt (exAcross a t) (closedLine t) a := by
    intro t s e v g hv
    have hs : s.asm = .real := by
      rcases serial_angleDefs exModel_reads exModel_reference (by simp) ha (PyDict.mem_of_get? g) with
        ⟨c, hc, h6, h7⟩ | ⟨i, hi, k, hk, h7⟩
      · have h7 : s = _ := h7
        rw [h7]; rfl
      · injection h7 with h7
        rw [h7]; rfl
    simp [exAcross, hs, g, hv]
  refine ⟨a, ha, fun η => ?_⟩
  have hf : ∀ t t', SameFunctions (exAcross a t) (exAcross a t') := fun _ _ => ⟨rfl, rfl, rfl, rfl, rfl⟩
  have hn : ∀ t t' s, s.asm = .nonneg → (exAcross a t).sym s = (exAcross a t').sym s := by
    intro t t' s hs
    simp [exAcross, hs]
  have hv := dynamics_values (m := exModel) (tl := id) (add := none) (fun _ h => by cases h) exDistribution.chains (exAcross a 0)
  refine C120_serial_intensity exModel_reads exDistribution_nonneg exModel_reference (by simp) ha h1 h2
    (fun _ _ j m m' x => by simp [exAcross, exActual]) (fun t _ => h4 t) ?_
    (line := fun _ => lineValue exModel id none (exAcross a 0)) (form := fun _ => formValue exModel (exAcross a 0)) ?_
    (fun _ _ => continuousOn_const) (fun _ _ _ _ => continuousOn_const) η
  · intro c hc
    have : ∀ t, (exAcross a t).sym (weightSymbol id c (exReading c)) = (t : ℂ) := fun t => by simp [exAcross, weightSymbol]
    simp only [this]
    exact Complex.continuous_ofReal.continuousOn
  · intro t
    constructor
    · intro c hc d hd η
      rw [← hv.line c hc d hd η]
      exact closed_nonneg (closed_dynamics (fun _ h => by cases h) hd) (nonneg_dynamics (fun _ h => by cases h) hd) (hf _ _) (hn _ _) η
    · intro c hc v hvm d hd η
      rw [← hv.form c hc v hvm d hd η]
      exact closed_nonneg (closed_formFactor (fun i hi => vertex_ids (exModel_reads.reads c hc).1 (exModel_reads.reads c hc).2
        hvm hi) hd) (nonneg_formFactor hd) (hf _ _) (hn _ _) η

end Verif.Serialization
