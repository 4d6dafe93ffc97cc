import Verif.Props.Smooth
import Verif.Props.SerialReference

/-! Property C107 for serialized models: the intensity is a smooth function inside the Dalitz plot. -/
namespace Verif.Serialization
open Verif Verif.Spec Verif.ThreeBody Verif.Angles
open scoped ContDiff Topology

variable {m : ModelDefinition} {D : Distribution} {rd : ChainDefinition → Reading} {ref : ℤ} {cl : Bool}
  {tl : String → String} {add : Option (PyDict String PropagatorBuilder)} {a : AmplitudeModel}
variable {X : Type*} [NormedAddCommGroup X] [NormedSpace ℝ X] {n : WithTop ℕ∞} {ρ : X → Sym → ℝ} {x₀ : X}
  {ι : X → Interp}

theorem smooth_prod {α : Type} {l : List α} {f : α → X → ℂ} (h : ∀ a ∈ l, ContDiffAt ℝ n (f a) x₀) :
    ContDiffAt ℝ n (fun x => (l.map fun a => f a x).prod) x₀ := by
  induction l with
  | nil => exact contDiffAt_const
  | cons a l ih =>
    simp only [List.map_cons, List.prod_cons]
    exact (h a List.mem_cons_self).mul (ih fun a ha => h a (List.mem_cons_of_mem _ ha))

/-- C107 for serialized models: the intensity is as smooth as the weights, lineshapes and form factors and the masses and
Mandelstam variables, at all points inside the Dalitz plot. -/
theorem C107_serial_intensity (hm : ReadsModel m D rd) (h0 : NonnegativeSpins D)
    (href : IsSpectator D.referenceTopology ref) (href' : ref ∈ ([1, 2, 3] : List ℤ))
    (h : formulate m cl tl add = .ok a) (hρ : SmoothPoint n ρ x₀) (hin : DalitzInterior (ρ x₀))
    (hw : ∀ x, ActualWigner (ι x)) (hang : ∀ x, AnglesAt (ι x) (ρ x) a)
    (hweights : ∀ c ∈ D.chains, ContDiffAt ℝ n (fun x => (ι x).sym (weightSymbol tl c (rd c))) x₀)
    {line : X → ChainDefinition → ℂ} {form : X → Vertex → ℂ}
    (hv : ∀ x, DynamicsValues m D.chains tl add (ι x) (line x) (form x))
    (hline : ∀ c ∈ D.chains, ContDiffAt ℝ n (fun x => line x c) x₀)
    (hform : ∀ c ∈ D.chains, ∀ v ∈ c.vertices, ContDiffAt ℝ n (fun x => form x v) x₀) (η : Sym → ℚ) :
    ContDiffAt ℝ n (fun x => a.fullExpression.eval (ι x) η) x₀ := by
  classical
  obtain ⟨a1, -, a3⟩ := C107_angles hρ hin
  obtain ⟨t1, t2⟩ := C71_angles_defined hm h0 href href' h
  simp only [fun x => (C70_intensity_value hm h0 href href' h (ι x) η).2]
  suffices hs : ContDiffAt ℝ n (fun x => intensityOver (ι x) a.decay (topologySubsystems D.chains) ref
      (definedValue a (ι x) η)) x₀ from Complex.ofRealCLM.contDiff.contDiffAt.comp x₀ hs
  unfold Spec.intensityOver
  refine ContDiffAt.sum fun l hl => ContDiffAt.norm_sq ℝ ?_
  unfold Spec.alignedOver
  have hrot : ∀ k ∈ topologySubsystems D.chains, ∀ (i : Fin 4) μ ν,
      ContDiffAt ℝ n (fun x => rotation (ι x) a.decay ref k i μ ν) x₀ := by
    intro k hk i μ ν
    unfold rotation
    by_cases hs : a.decay.spin i = 0
    · simp only [if_pos hs]
      exact contDiffAt_const
    · simp only [if_neg hs]
      have hi := fin4_mem i
      obtain ⟨e, he, hg⟩ := t2 k hk i hi hs
      obtain ⟨s, e', he', f, hf, hf'⟩ := a3 i hi k (topology_mem hk) ref href'
      rw [he] at he'
      cases he'
      exact smooth_wig hw hf (hf'.mono fun x hx => hang x _ _ _ hg hx) _ _ _
  refine ContDiffAt.sum fun l' hl' => ContDiffAt.sum fun k hk => ?_
  refine ((((?_ : ContDiffAt ℝ n _ x₀).mul (hrot k hk 0 _ _)).mul (hrot k hk 1 _ _)).mul (hrot k hk 2 _ _)).mul
    (hrot k hk 3 _ _)
  simp only [fun x => C60_amplitude_value hm h (hv x) η k hl']
  refine smooth_sum fun c hc => ?_
  by_cases hk : IsSpectator c.topology k
  · simp only [if_pos hk]
    unfold serialValue
    have hp : IsPerm123 (rd c).i (rd c).j (rd c).k := (hm.reads c hc).2
    obtain ⟨hi3, hj3, -⟩ := perm_mem hp
    have hij : (rd c).i ≠ (rd c).j := by
      intro he
      have := hp.nodup_iff.2 (by decide)
      simp [he] at this
    obtain ⟨e, he, hg⟩ := t1 c hc
    obtain ⟨s, e', he', f, hf, hf'⟩ := a1 _ hi3 _ hj3 hij
    rw [he] at he'
    cases he'
    refine (((hweights c hc).mul contDiffAt_const).mul ?_).mul ((hline c hc).mul (smooth_prod fun v hv => hform c hc v hv))
    exact smooth_wig hw hf (hf'.mono fun x hx => hang x _ _ _ hg hx) _ _ _
  · simp only [if_neg hk]
    exact contDiffAt_const

/-! ### The conditions can be met -/

theorem closed_nonneg {e : DefExpr} (h : ClosedLineshape e) (hn : NonnegKeys e.parameters) {ι ι' : Interp}
    (hf : SameFunctions ι ι') (hs : ∀ s : Sym, s.asm = .nonneg → ι.sym s = ι'.sym s) (η : Sym → ℚ) :
    e.expression.eval ι η = e.expression.eval ι' η := by
  obtain ⟨h1, h2, h3⟩ := h
  have hsym : ∀ s ∈ e.expression.syms, ι.sym s = ι'.sym s := by
    intro s hse
    apply hs
    rcases h3 s hse with h | h
    · have : ∀ s ∈ providedSymbols, s.asm = .nonneg := by decide +kernel
      exact this s h
    · obtain ⟨x, hx, e⟩ := List.mem_map.1 h
      obtain ⟨u, hu, ha⟩ := hn x hx
      rw [hu] at e
      injection e with e
      rw [← e, ha]
  have hd : ∀ (ι : Interp), (e.expression.doit fun _ => none).eval ι η = e.expression.eval ι η :=
    fun ι => Expr.eval_doit ι _ _ _
  rw [← hd ι, ← hd ι']
  refine Expr.eval_congr hf _ (Expr.flat_doit _ _) (fun s h => hsym s (Expr.mem_syms_doit _ _ _ h)) ?_
    (fun s _ => rfl)
  intro x hx
  obtain ⟨y, hy, -⟩ := Expr.mem_indexeds_doit _ _ x hx
  rw [h2] at hy
  cases hy

/-- Values of the angles along the line `σ_1 = 28/3`, with weights that change along that line. -/
noncomputable def exAlong (a : AmplitudeModel) (t : ℝ) : Interp :=
  { exActual 0 with sym := fun s => if s.asm = .real
      then ((((PyDict.get? a.angleDefs s).bind fun e => e.eval (exSlice t)).getD 0 : ℝ) : ℂ)
      else if s.asm = .none then t else 1 }

/-- All hypotheses of `C107_serial_intensity` hold for `exModel`, with its built-in lineshapes. -/
example : ∃ a, formulate exModel true id none = .ok a ∧ SmoothPoint ω exSlice (28 / 3) ∧
    DalitzInterior (exSlice (28 / 3)) ∧ (∀ t, ActualWigner (exAlong a t)) ∧ (∀ t, AnglesAt (exAlong a t) (exSlice t) a) ∧
    ∀ η, ContDiffAt ℝ ω (fun t => a.fullExpression.eval (exAlong a t) η) (28 / 3) := by
  obtain ⟨a, ha⟩ := exModel_ok id true
  have h1 : SmoothPoint ω exSlice (28 / 3) := by
    have : ∀ s, ContDiffAt ℝ ω (fun t => exSlice t s) (28 / 3) := by
      intro s
      unfold exSlice
      split_ifs <;> fun_prop
    exact ⟨fun _ _ => this _, fun _ _ => this _⟩
  have h2 : DalitzInterior (exSlice (28 / 3)) := by
    constructor <;> simp [SumRule, BetweenThresholds, lam, exSlice] <;> norm_num
  have h3 : ∀ t, ActualWigner (exAlong a t) := fun _ j m m' x => by simp [exAlong, exActual]
  have h4 : ∀ t, AnglesAt (exAlong a t) (exSlice t) a := by
    intro t s e v g hv
    have hs : s.asm = .real := by
      rcases serial_angleDefs exModel_reads exModel_reference (by simp) ha (PyDict.mem_of_get? g) with
        ⟨c, hc, h6, h7⟩ | ⟨i, hi, k, hk, h7⟩
      · have h7 : s = _ := h7
        rw [h7]; rfl
      · injection h7 with h7
        rw [h7]; rfl
    simp [exAlong, hs, g, hv]
  refine ⟨a, ha, h1, h2, h3, h4, fun η => ?_⟩
  have hf : ∀ t t', SameFunctions (exAlong a t) (exAlong a t') := fun _ _ => ⟨rfl, rfl, rfl, rfl, rfl⟩
  have hn : ∀ t t' s, s.asm = .nonneg → (exAlong a t).sym s = (exAlong a t').sym s := by
    intro t t' s hs
    simp [exAlong, hs]
  have hv := dynamics_values (m := exModel) (tl := id) (add := none) (fun _ h => by cases h) exDistribution.chains (exAlong a 0)
  refine C107_serial_intensity exModel_reads exDistribution_nonneg exModel_reference (by simp) ha h1 h2 h3 h4 ?_
    (line := fun _ => lineValue exModel id none (exAlong a 0)) (form := fun _ => formValue exModel (exAlong a 0)) ?_
    (fun _ _ => contDiffAt_const) (fun _ _ _ _ => contDiffAt_const) η
  · intro c hc
    have : ∀ t, (exAlong a t).sym (weightSymbol id c (exReading c)) = (t : ℂ) := fun t => by simp [exAlong, weightSymbol]
    simp only [this]
    exact Complex.ofRealCLM.contDiff.contDiffAt
  · intro t
    constructor
    · intro c hc d hd η
      rw [← hv.line c hc d hd η]
      exact closed_nonneg (closed_dynamics (fun _ h => by cases h) hd) (nonneg_dynamics (fun _ h => by cases h) hd) (hf _ _) (hn _ _) η
    · intro c hc v hvm d hd η
      rw [← hv.form c hc v hvm d hd η]
      exact closed_nonneg (closed_formFactor (fun i hi => vertex_ids (exModel_reads.reads c hc).1 (exModel_reads.reads c hc).2
        hvm hi) hd) (nonneg_formFactor hd) (hf _ _) (hn _ _) η

end Verif.Serialization
