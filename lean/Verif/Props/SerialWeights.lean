import Verif.Spec.SerialWeights
import Verif.Props.SerialClosure
import Verif.Proofs.Superposition

/-! C86: how the intensity of a deserialized model depends on the weights of its chains. -/
namespace Verif.Serialization
open Verif Verif.ThreeBody Verif.Spec

variable {m m' : ModelDefinition} {tl : String → String} {add : Option (PyDict String PropagatorBuilder)}
  {D D' : Distribution} {rd : ChainDefinition → Reading} {cl cl' : Bool} {a a' : AmplitudeModel} {ref : ℤ}
  {ι ι' ι₀ : Interp}

theorem SameExceptWeights.refl (ι : Interp) : SameExceptWeights tl D rd ι ι :=
  ⟨⟨rfl, rfl, rfl, rfl, rfl⟩, fun _ _ => rfl⟩

/-- Symbols with assumptions are no weights. -/
theorem SameExceptWeights.sym (h : SameExceptWeights tl D rd ι ι') {s : Sym} (hs : s.asm ≠ .none) :
    ι.sym s = ι'.sym s := by
  refine h.2 s fun c _ e => hs ?_
  rw [e]
  rfl

theorem SameExceptWeights.symm (h : SameExceptWeights tl D rd ι ι') : SameExceptWeights tl D rd ι' ι :=
  ⟨⟨h.1.wig.symm, h.1.cg.symm, h.1.ff.symm, h.1.edw.symm, h.1.bmom.symm⟩, fun s hs => (h.2 s hs).symm⟩

theorem SameExceptWeights.trans (h : SameExceptWeights tl D rd ι ι') (h' : SameExceptWeights tl D rd ι' ι₀) :
    SameExceptWeights tl D rd ι ι₀ :=
  ⟨⟨h.1.wig.trans h'.1.wig, h.1.cg.trans h'.1.cg, h.1.ff.trans h'.1.ff, h.1.edw.trans h'.1.edw,
    h.1.bmom.trans h'.1.bmom⟩, fun s hs => (h.2 s hs).trans (h'.2 s hs)⟩

theorem closed_same {e : DefExpr} (h : ClosedLineshape e) (hn : NonnegKeys e.parameters)
    (hs : SameExceptWeights tl D rd ι ι') (η : Sym → ℚ) :
    e.expression.eval ι η = e.expression.eval ι' η := by
  obtain ⟨h1, h2, h3⟩ := h
  have hsym : ∀ s ∈ e.expression.syms, ι.sym s = ι'.sym s := by
    intro s hse
    apply hs.sym
    rcases h3 s hse with h | h
    · have : ∀ s ∈ providedSymbols, s.asm ≠ .none := by decide +kernel
      exact this s h
    · obtain ⟨x, hx, e⟩ := List.mem_map.1 h
      obtain ⟨u, hu, ha⟩ := hn x hx
      rw [hu] at e
      injection e with e
      rw [← e, ha]
      simp
  have hd : ∀ (ι : Interp), (e.expression.doit fun _ => none).eval ι η = e.expression.eval ι η :=
    fun ι => Expr.eval_doit ι _ _ _
  rw [← hd ι, ← hd ι']
  refine Expr.eval_congr hs.1 _ (Expr.flat_doit _ _) (fun s h => hsym s (Expr.mem_syms_doit _ _ _ h)) ?_
    (fun s _ => rfl)
  intro x hx
  obtain ⟨y, hy, -⟩ := Expr.mem_indexeds_doit _ _ x hx
  rw [h2] at hy
  cases hy

/-- C86: the built-in lineshapes and form factors do not contain the weights. -/
theorem C86_builtin (hm : ReadsModel m D rd) (ι : Interp) : WeightFree m tl none D rd ι := by
  refine ⟨lineValue m tl none ι, formValue m ι, fun ι' hι => ?_⟩
  have hv := dynamics_values (m := m) (tl := tl) (add := none) (fun _ h => by cases h) D.chains ι
  constructor
  · intro c hc d hd η
    rw [← hv.line c hc d hd η]
    exact (closed_same (closed_dynamics (fun _ h => by cases h) hd) (nonneg_dynamics (fun _ h => by cases h) hd) hι η).symm
  · intro c hc v hvm d hd η
    rw [← hv.form c hc v hvm d hd η]
    exact (closed_same (closed_formFactor (fun i hi => vertex_ids (hm.reads c hc).1 (hm.reads c hc).2 hvm hi) hd)
      (nonneg_formFactor hd) hι η).symm

theorem alignedOver_congr {d : Decay} {S : Finset ℤ} {A A' : ℤ → (Fin 4 → ℚ) → ℂ}
    (h1 : ∀ s : Sym, s.asm ≠ .none → ι.sym s = ι'.sym s) (h2 : ι.wig = ι'.wig)
    (h : ∀ k l, l ∈ helicities d → A k l = A' k l) (l : Fin 4 → ℚ) :
    alignedOver ι d S ref A l = alignedOver ι' d S ref A' l := by
  unfold alignedOver
  refine Finset.sum_congr rfl fun l' hl' => Finset.sum_congr rfl fun k _ => ?_
  have hr : ∀ i m m', rotation ι d ref k i m m' = rotation ι' d ref k i m m' := by
    intro i m m'
    unfold rotation
    rw [h2, h1 (zetaSymbol i k ref) (by simp [zetaSymbol])]
  rw [h k l' hl', hr, hr, hr, hr]

theorem alignedOver_linear {d : Decay} {S : Finset ℤ} {A A' A₀ : ℤ → (Fin 4 → ℚ) → ℂ} {z z' : ℂ}
    (h : ∀ k l, l ∈ helicities d → A₀ k l = z * A k l + z' * A' k l) (l : Fin 4 → ℚ) :
    alignedOver ι d S ref A₀ l = z * alignedOver ι d S ref A l + z' * alignedOver ι d S ref A' l := by
  unfold alignedOver
  rw [Finset.mul_sum, Finset.mul_sum, ← Finset.sum_add_distrib]
  refine Finset.sum_congr rfl fun l' hl' => ?_
  rw [Finset.mul_sum, Finset.mul_sum, ← Finset.sum_add_distrib]
  refine Finset.sum_congr rfl fun k _ => ?_
  rw [h k l' hl']
  ring

/-- Superposition of amplitudes. -/
theorem definedValue_linear (hm : ReadsModel m D rd) (h : formulate m cl tl add = .ok a)
    (hw : WeightFree m tl add D rd ι) (hs : SameExceptWeights tl D rd ι ι')
    (hs₀ : SameExceptWeights tl D rd ι ι₀) {z z' : ℂ}
    (hz : ∀ c ∈ D.chains, ι₀.sym (weightSymbol tl c (rd c)) =
      z * ι.sym (weightSymbol tl c (rd c)) + z' * ι'.sym (weightSymbol tl c (rd c)))
    (η : Sym → ℚ) (k : ℤ) {l : Fin 4 → ℚ} (hl : l ∈ helicities a.decay) :
    definedValue a ι₀ η k l = z * definedValue a ι η k l + z' * definedValue a ι' η k l := by
  classical
  obtain ⟨line, form, hv⟩ := hw
  rw [C60_amplitude_value hm h (hv ι (.refl ι)) η k hl, C60_amplitude_value hm h (hv ι' hs) η k hl,
    C60_amplitude_value hm h (hv ι₀ hs₀) η k hl]
  have key : ∀ cs : List ChainDefinition, (∀ c ∈ cs, c ∈ D.chains) →
      (cs.map fun c => if IsSpectator c.topology k then serialValue ι₀ tl line form (byId l) c (rd c) else 0).sum =
      z * (cs.map fun c => if IsSpectator c.topology k then serialValue ι tl line form (byId l) c (rd c) else 0).sum +
      z' * (cs.map fun c => if IsSpectator c.topology k then serialValue ι' tl line form (byId l) c (rd c) else 0).sum := by
    intro cs
    induction cs with
    | nil => intro _; simp
    | cons c cs ih =>
      intro hcs
      simp only [List.map_cons, List.sum_cons]
      rw [ih fun x hx => hcs x (List.mem_cons_of_mem _ hx)]
      have hc := hcs c (List.mem_cons_self ..)
      split
      · unfold serialValue
        rw [hz c hc, ← hs.1.wig, ← hs₀.1.wig,
          ← hs.sym (s := ⟨"theta_" ++ toString (rd c).i ++ toString (rd c).j, .real⟩) (by simp),
          ← hs₀.sym (s := ⟨"theta_" ++ toString (rd c).i ++ toString (rd c).j, .real⟩) (by simp)]
        ring
      · ring
  exact key D.chains fun _ h => h

/-- C86: multiplying the weights of all chains by a complex number multiplies the intensity by its
squared modulus; a common phase is not observable. -/
theorem C86_scale (hm : ReadsModel m D rd) (h0 : NonnegativeSpins D)
    (href : IsSpectator D.referenceTopology ref) (href' : ref ∈ ([1, 2, 3] : List ℤ))
    (h : formulate m cl tl add = .ok a) (hw : WeightFree m tl add D rd ι)
    (hs : SameExceptWeights tl D rd ι ι') (z : ℂ)
    (hz : ∀ c ∈ D.chains, ι'.sym (weightSymbol tl c (rd c)) = z * ι.sym (weightSymbol tl c (rd c)))
    (η : Sym → ℚ) :
    a.fullExpression.eval ι' η = (‖z‖ ^ 2 : ℝ) * a.fullExpression.eval ι η := by
  rw [(C70_intensity_value hm h0 href href' h ι η).2, (C70_intensity_value hm h0 href href' h ι' η).2,
    ← Complex.ofReal_mul]
  refine congrArg _ ?_
  unfold intensityOver
  rw [Finset.mul_sum]
  refine Finset.sum_congr rfl fun l _ => ?_
  rw [alignedOver_congr (ι := ι') (ι' := ι) (A' := definedValue a ι' η) (fun s h => (hs.sym h).symm)
      hs.1.wig.symm (fun _ _ _ => rfl),
    alignedOver_linear (A := definedValue a ι η) (A' := definedValue a ι η) (z := z) (z' := 0)
      (fun k l hl => definedValue_linear hm h hw (.refl ι) hs (fun c hc => by rw [hz c hc]; ring) η k hl),
    zero_mul, add_zero, norm_mul, mul_pow]

/-- C86: the intensity is a quadratic form in the weights: for weights that are the sums and the
differences of two sets of weights, the intensities add up to twice the sum of the intensities of the
two sets. -/
theorem C86_parallelogram (hm : ReadsModel m D rd) (h0 : NonnegativeSpins D)
    (href : IsSpectator D.referenceTopology ref) (href' : ref ∈ ([1, 2, 3] : List ℤ))
    (h : formulate m cl tl add = .ok a) (hw : WeightFree m tl add D rd ι) {ιp ιm : Interp}
    (hs : ∀ x ∈ [ι', ιp, ιm], SameExceptWeights tl D rd ι x)
    (hp : ∀ c ∈ D.chains, ιp.sym (weightSymbol tl c (rd c)) =
      ι.sym (weightSymbol tl c (rd c)) + ι'.sym (weightSymbol tl c (rd c)))
    (hq : ∀ c ∈ D.chains, ιm.sym (weightSymbol tl c (rd c)) =
      ι.sym (weightSymbol tl c (rd c)) - ι'.sym (weightSymbol tl c (rd c)))
    (η : Sym → ℚ) :
    a.fullExpression.eval ιp η + a.fullExpression.eval ιm η =
      2 * (a.fullExpression.eval ι η + a.fullExpression.eval ι' η) := by
  have s1 := hs ι' (by simp)
  have s2 := hs ιp (by simp)
  have s3 := hs ιm (by simp)
  have hv := fun x => (C70_intensity_value hm h0 href href' h x η).2
  have h2 : ((2 : ℝ) : ℂ) = 2 := by norm_num
  rw [hv, hv, hv, hv, ← Complex.ofReal_add, ← Complex.ofReal_add, ← h2, ← Complex.ofReal_mul]
  refine congrArg _ ?_
  unfold intensityOver
  rw [← Finset.sum_add_distrib, ← Finset.sum_add_distrib, Finset.mul_sum]
  refine Finset.sum_congr rfl fun l _ => ?_
  have hc : ∀ x, SameExceptWeights tl D rd ι x → ∀ S, alignedOver x a.decay S ref (definedValue a x η) l =
      alignedOver ι a.decay S ref (definedValue a x η) l := fun x hx S =>
    alignedOver_congr (fun s h => (hx.sym h).symm) hx.1.wig.symm (fun _ _ _ => rfl) l
  rw [hc _ s1, hc _ s2, hc _ s3,
    alignedOver_linear (A₀ := definedValue a ιp η) (A := definedValue a ι η) (A' := definedValue a ι' η)
      (z := 1) (z' := 1)
      (fun k l hl => definedValue_linear hm h hw s1 s2 (fun c hc => by rw [hp c hc]; ring) η k hl),
    alignedOver_linear (A₀ := definedValue a ιm η) (A := definedValue a ι η) (A' := definedValue a ι' η)
      (z := 1) (z' := -1)
      (fun k l hl => definedValue_linear hm h hw s1 s3 (fun c hc => by rw [hq c hc]; ring) η k hl)]
  have := parallelogram_law_with_norm ℝ
    (alignedOver ι a.decay (topologySubsystems D.chains) ref (definedValue a ι η) l)
    (alignedOver ι a.decay (topologySubsystems D.chains) ref (definedValue a ι' η) l)
  rw [one_mul, one_mul, neg_one_mul, ← sub_eq_add_neg]
  nlinarith [this]

/-! ### Other chains -/

theorem initial_same (hs : SameSetup m m' D D') (f : String → String) :
    getInitialState m' f = getInitialState m f := by
  obtain ⟨r, hr⟩ := hs.head
  obtain ⟨r', hr'⟩ := hs.head'
  simp only [getInitialState, getDistributionDef, hr, hr', bind, Except.bind, hs.kinematics]

theorem states_same (hs : SameSetup m m' D D') (f : String → String) : getStates m' f = getStates m f := by
  unfold getStates
  rw [initial_same hs]
  obtain ⟨r, hr⟩ := hs.head
  obtain ⟨r', hr'⟩ := hs.head'
  simp only [getFinalState, getDistributionDef, hr, hr', bind, Except.bind, hs.kinematics]

theorem function_same (hs : SameSetup m m' D D') (name : String) :
    getFunctionDefinition name m' = getFunctionDefinition name m := by
  unfold getFunctionDefinition
  rw [hs.functions]

theorem formFactor_same (hs : SameSetup m m' D D') (v : Vertex) :
    formulateFormFactor v m' = formulateFormFactor v m := by
  unfold formulateFormFactor
  simp only [function_same hs, initial_same hs]

theorem dynamics_same (hs : SameSetup m m' D D') (c : ChainDefinition) :
    formulateDynamics c m' tl none = formulateDynamics c m tl none := by
  unfold formulateDynamics
  have key : ∀ ps d, dynamicsLoop (dynamicsDefinitions none) (tl c.name) m' ps d =
      dynamicsLoop (dynamicsDefinitions none) (tl c.name) m ps d := by
    intro ps
    induction ps with
    | nil => intro d; rfl
    | cons p ps ih =>
      intro d
      unfold dynamicsLoop
      rw [function_same hs]
      refine bind_congr fun f => ?_
      cases hb : PyDict.get? (dynamicsDefinitions none) f.type with
      | none => rfl
      | some b =>
        have e : b p (tl c.name) m' = b p (tl c.name) m := by
          rcases builtin_get hb with ⟨-, rfl⟩ | ⟨-, rfl⟩
          · unfold formulateBreitWigner; rw [function_same hs]
          · unfold formulateMultichannelBreitWigner; rw [function_same hs]
        simp only [e, ih]
  exact key _ _

/-- Two models of the same decay have the same value if their amplitudes have. -/
theorem full_of_values (hm : ReadsModel m D rd) (hm' : ReadsModel m' D' rd)
    (h0 : NonnegativeSpins D) (href : IsSpectator D.referenceTopology ref)
    (href' : ref ∈ ([1, 2, 3] : List ℤ)) (hs : SameSetup m m' D D')
    (h : formulate m cl tl add = .ok a) (h' : formulate m' cl' tl add = .ok a') (ι : Interp) (η : Sym → ℚ)
    (hA : ∀ k l, l ∈ helicities a.decay → l ∈ helicities a'.decay →
      definedValue a' ι η k l = definedValue a ι η k l)
    (hsub : ∀ c ∈ D'.chains, ∀ k, IsSpectator c.topology k → ∃ c' ∈ D.chains, IsSpectator c'.topology k)
    (hzero : ∀ k ∈ topologySubsystems D.chains, k ∉ topologySubsystems D'.chains →
      ∀ l ∈ helicities a.decay, definedValue a ι η k l = 0) :
    a.fullExpression.eval ι η = a'.fullExpression.eval ι η := by
  classical
  have h0' : NonnegativeSpins D' := by
    unfold NonnegativeSpins
    rw [hs.kinematics]
    exact h0
  obtain ⟨K, E, P, Θ, ref1, ids, zetas, terms, hf⟩ := formulate_inv hm.head hm.kinematics h
  obtain ⟨K', E', P', Θ', ref1', ids', zetas', terms', hf'⟩ := formulate_inv hm'.head hm'.kinematics h'
  have hst : a'.decay.states = a.decay.states := by
    have e1 := (toDecay_standard hm.head hm.kinematics hf.decay).2.1
    have e2 := (toDecay_standard hm'.head hm'.kinematics hf'.decay).2.1
    rw [states_same hs, e1] at e2
    exact (Except.ok.inj e2).symm
  have hspin : a'.decay.spin = a.decay.spin := by
    funext i
    unfold Decay.spin Decay.st
    rw [hst]
  have hhel : helicities a'.decay = helicities a.decay := by
    unfold helicities
    rw [hspin]
  rw [(C70_intensity_value hm h0 href href' h ι η).2,
    (C70_intensity_value hm' h0' (by rw [hs.reference]; exact href) href' h' ι η).2]
  refine congrArg _ ?_
  unfold intensityOver
  rw [hhel]
  refine Finset.sum_congr rfl fun l _ => ?_
  refine congrArg (fun x : ℂ => ‖x‖ ^ 2) ?_
  unfold alignedOver
  rw [hhel]
  refine Finset.sum_congr rfl fun l' hl' => ?_
  have hrot : ∀ k i x y, rotation ι a'.decay ref k i x y = rotation ι a.decay ref k i x y := by
    intro k i x y
    unfold rotation
    rw [hspin]
  have hA' : ∀ k, definedValue a' ι η k l' = definedValue a ι η k l' := fun k => hA k l' hl' (hhel ▸ hl')
  simp only [hrot, hA']
  symm
  apply Finset.sum_subset
  · intro k hk
    unfold topologySubsystems at hk ⊢
    rw [Finset.mem_filter] at hk ⊢
    obtain ⟨h1, c, h2, h3⟩ := hk
    exact ⟨h1, hsub c h2 k h3⟩
  · intro k hk hk'
    rw [hzero k hk hk' l' hl']
    ring

/-- C86: switching off weights removes chains, and the order of the chains does not matter. If a model
has the chains that `keep` selects from those of another model, in any order, and everything else is
the same, the two intensities are the same where the weights of the other chains are zero. -/
theorem C86_switch_off (keep : ChainDefinition → Bool) (hm : ReadsModel m D rd) (hm' : ReadsModel m' D' rd)
    (h0 : NonnegativeSpins D) (href : IsSpectator D.referenceTopology ref)
    (href' : ref ∈ ([1, 2, 3] : List ℤ)) (hs : SameSetup m m' D D')
    (hc : D'.chains.Perm (D.chains.filter keep))
    (h : formulate m cl tl none = .ok a) (h' : formulate m' cl' tl none = .ok a') (ι : Interp)
    (hoff : ∀ c ∈ D.chains, keep c = false → ι.sym (weightSymbol tl c (rd c)) = 0) (η : Sym → ℚ) :
    a.fullExpression.eval ι η = a'.fullExpression.eval ι η := by
  classical
  have hmem : ∀ c ∈ D'.chains, c ∈ D.chains := fun c h => (List.mem_filter.1 (hc.subset h)).1
  have hv := dynamics_values (m := m) (tl := tl) (add := none) (fun _ h => by cases h) D.chains ι
  have hv' : DynamicsValues m' D'.chains tl none ι (lineValue m tl none ι) (formValue m ι) := by
    constructor
    · intro c hcm d hd
      rw [dynamics_same hs] at hd
      exact hv.line c (hmem c hcm) d hd
    · intro c hcm v hvm d hd
      rw [formFactor_same hs] at hd
      exact hv.form c (hmem c hcm) v hvm d hd
  refine full_of_values hm hm' h0 href href' hs h h' ι η ?_ (fun c hcm k hk => ⟨c, hmem c hcm, hk⟩) ?_
  · intro k l hl hl'
    rw [C60_amplitude_value hm h hv η k hl, C60_amplitude_value hm' h' hv' η k hl', (hc.map _).sum_eq]
    have key : ∀ cs : List ChainDefinition, (∀ c ∈ cs, c ∈ D.chains) →
        ((cs.filter keep).map fun c => if IsSpectator c.topology k then
          serialValue ι tl (lineValue m tl none ι) (formValue m ι) (byId l) c (rd c) else 0).sum =
        (cs.map fun c => if IsSpectator c.topology k then
          serialValue ι tl (lineValue m tl none ι) (formValue m ι) (byId l) c (rd c) else 0).sum := by
      intro cs
      induction cs with
      | nil => intro _; rfl
      | cons c cs ih =>
        intro hcs
        have hcm := hcs c (List.mem_cons_self ..)
        have ih := ih fun x hx => hcs x (List.mem_cons_of_mem _ hx)
        cases hk : keep c with
        | true => rw [List.filter_cons_of_pos hk, List.map_cons, List.map_cons, List.sum_cons, List.sum_cons, ih]
        | false =>
          rw [List.filter_cons_of_neg (by simp [hk]), List.map_cons, List.sum_cons, ih]
          have : serialValue ι tl (lineValue m tl none ι) (formValue m ι) (byId l) c (rd c) = 0 := by
            unfold serialValue
            rw [hoff c hcm hk]
            ring
          rw [this, ite_self, zero_add]
    exact key D.chains fun _ h => h
  · intro k hk hk' l hl
    rw [C60_amplitude_value hm h hv η k hl]
    apply List.sum_eq_zero
    intro x hx
    obtain ⟨c, hcm, rfl⟩ := List.mem_map.1 hx
    split
    · rename_i hsp
      by_cases hkc : keep c = true
      · exfalso
        apply hk'
        unfold topologySubsystems at hk ⊢
        rw [Finset.mem_filter] at hk ⊢
        exact ⟨hk.1, c, hc.mem_iff.2 (List.mem_filter.2 ⟨hcm, hkc⟩), hsp⟩
      · unfold serialValue
        rw [hoff c hcm (by simpa using hkc)]
        ring
    · rfl

/-! ### Weights in the file -/

theorem reads_unique {c : ChainDefinition} {r r' : Reading} (h : Reads c r) (h' : Reads c r') : r = r' := by
  obtain ⟨p, q, ho, ⟨x, y, hp⟩, hq⟩ := h
  obtain ⟨p', q', ho', ⟨x', y', hp'⟩, hq'⟩ := h'
  have hne : ∀ {p q : Vertex} {r r' : Reading} {x y}, ((p.node = [.seq [x, y], .id r.k] ∧
      p.helicities = some [some r.lR, some r.lk]) ∨ (p.node = [.id r.k, .seq [x, y]] ∧
      p.helicities = some [some r.lk, some r.lR])) → ReadsDecay q r' → p ≠ q := by
    rintro p q r r' x y hp ⟨hq, -⟩ rfl
    rcases hp with ⟨hp, -⟩ | ⟨hp, -⟩ <;> rw [hp] at hq <;> simp at hq
  have e : p' = p ∧ q' = q := by
    rcases ho with ho | ho <;> rcases ho' with ho' | ho' <;> rw [ho] at ho' <;>
      simp only [List.cons.injEq, and_true] at ho'
    · exact ⟨ho'.1.symm, ho'.2.symm⟩
    · exact absurd ho'.1 (hne hp hq')
    · exact absurd ho'.1.symm (hne hp' hq)
    · exact ⟨ho'.2.symm, ho'.1.symm⟩
  obtain ⟨rfl, rfl⟩ := e
  obtain ⟨q1, q2⟩ := hq
  obtain ⟨q1', q2'⟩ := hq'
  rw [q1] at q1'
  rw [q2] at q2'
  cases r
  cases r'
  simp only [List.cons.injEq, Tree.id.injEq, and_true, Option.some.injEq] at q1' q2'
  rcases hp with ⟨p1, p2⟩ | ⟨p1, p2⟩ <;> rcases hp' with ⟨p1', p2'⟩ | ⟨p1', p2'⟩ <;> rw [p1] at p1' <;>
    rw [p2] at p2' <;> simp_all

/-- C86: multiplying the weights in the file changes no other parameter. -/
theorem C86_defaults (x y : ℚ) (hm : ReadsModel m D rd) (hm' : ReadsModel m' D' rd)
    (hs : SameSetup m m' D D') (hc : D'.chains = D.chains.map (rescale x y))
    (h : formulate m cl tl none = .ok a) (h' : formulate m' cl' tl none = .ok a') (k : Key)
    (hk : ∀ c ∈ D.chains, k ≠ .sym (weightSymbol tl c (rd c))) :
    PyDict.get? a'.parameterDefaults k = PyDict.get? a.parameterDefaults k := by
  obtain ⟨K, E, P, Θ, ref1, ids, zetas, terms, hf⟩ := formulate_inv hm.head hm.kinematics h
  obtain ⟨K', E', P', Θ', ref1', ids', zetas', terms', hf'⟩ := formulate_inv hm'.head hm'.kinematics h'
  have hst : a'.decay.states = a.decay.states := by
    have e1 := (toDecay_standard hm.head hm.kinematics hf.decay).2.1
    have e2 := (toDecay_standard hm'.head hm'.kinematics hf'.decay).2.1
    rw [states_same hs, e1] at e2
    exact (Except.ok.inj e2).symm
  have hmass : massDict a'.decay = massDict a.decay := by
    unfold massDict Decay.st
    rw [hst]
  have hpairs : serialPairs D' a'.decay = serialPairs D a.decay := by
    unfold serialPairs spins Decay.spin Decay.st
    rw [hst, hc, List.length_map]
  have hP : ∀ p ∈ serialPairs D a.decay, ∀ d : PyDict Key Val,
      PyDict.get? (PyDict.update d (P' p.2)) k = PyDict.get? (PyDict.update d (P p.2)) k := by
    intro p hp d
    obtain ⟨c, hcn, hcm, -, e, es, w, h1, h2, h3, h4⟩ := pair_chain hm hf hp
    obtain ⟨c', hcn', -, -, e', es', w', h1', h2', h3', h4'⟩ := pair_chain hm' hf' (x := p) (by rw [hpairs]; exact hp)
    rw [hc, List.getElem?_map, hcn] at hcn'
    cases hcn'
    have hrd : rd (rescale x y c) = rd c := reads_unique
      (hm'.reads (rescale x y c) (by rw [hc]; exact List.mem_map.2 ⟨c, hcm, rfl⟩)).1 (hm.reads c hcm).1
    have he : e' = e := by
      rw [dynamics_same hs] at h1'
      exact Except.ok.inj (h1'.symm.trans h1)
    have hes : es' = es := by
      have key : ∀ {vs : List Vertex} {es es' : List DefExpr},
          List.Forall₂ (fun v x => formulateFormFactor v m' = .ok x) vs es' →
          List.Forall₂ (fun v x => formulateFormFactor v m = .ok x) vs es → es' = es := by
        intro vs es es' g' g
        induction g generalizing es' with
        | nil => cases g'; rfl
        | cons g1 g2 ih =>
          cases g' with
          | cons g1' g2' =>
            rw [formFactor_same hs, g1] at g1'
            cases g1'
            rw [ih g2']
      exact key h2' h2
    subst he hes
    have hd : ∀ (v : Val) (Q d : PyDict Key Val), PyDict.get? (PyDict.update d
        (PyDict.update [(.sym (weightSymbol tl c (rd c)), v)] Q)) k = PyDict.get? (PyDict.update d Q) k := by
      intro v Q d
      have : PyDict.update [(Key.sym (weightSymbol tl c (rd c)), v)] Q =
          PyDict.ofItems ((Key.sym (weightSymbol tl c (rd c)), v) :: Q) := rfl
      rw [this, get?_update_ofItems, PyDict.get?_update, PyDict.get?_update, List.reverse_cons,
        PyDict.get?_append, PyDict.get?_cons, if_neg (fun e => hk c hcm e.symm), PyDict.get?_nil, Option.or_none]
    rw [h4, h4', hrd, hd]
    exact hd _ _ _
  have key : ∀ (ps : List ((ℚ × ℚ × ℚ × ℚ) × ℕ)) (d d' : PyDict Key Val), (∀ p ∈ ps, p ∈ serialPairs D a.decay) →
      PyDict.get? d' k = PyDict.get? d k →
      PyDict.get? (PyDict.update d' (ps.flatMap fun y => P' y.2)) k =
        PyDict.get? (PyDict.update d (ps.flatMap fun y => P y.2)) k := by
    intro ps
    induction ps with
    | nil => intro d d' _ e; exact e
    | cons p ps ih =>
      intro d d' hps e
      rw [List.flatMap_cons, List.flatMap_cons, update_append, update_append]
      refine ih _ _ (fun q hq => hps q (List.mem_cons_of_mem _ hq)) ?_
      rw [hP p (hps p (List.mem_cons_self ..)), PyDict.get?_update, PyDict.get?_update, e]
  rw [hf.parameters, hf'.parameters, hmass, hpairs, PyDict.get?_update,
    PyDict.get?_update (PyDict.update [] ((serialPairs D a.decay).flatMap fun y => P y.2)),
    key _ [] [] (fun _ h => h) rfl]

/-- C86: if the weights of all chains in the file are multiplied by `x + i y`, and weights with the same
name have the same value, the intensity at the default values is multiplied by `x² + y²`. -/
theorem C86_file (x y : ℚ) (hm : ReadsModel m D rd) (hm' : ReadsModel m' D' rd)
    (h0 : NonnegativeSpins D) (href : IsSpectator D.referenceTopology ref)
    (href' : ref ∈ ([1, 2, 3] : List ℤ)) (hs : SameSetup m m' D D')
    (hc : D'.chains = D.chains.map (rescale x y)) {W : Sym → ℚ × ℚ}
    (hW : ∀ c ∈ D.chains, c.weight = some (W (weightSymbol tl c (rd c))))
    (h : formulate m cl tl none = .ok a) (h' : formulate m' cl' tl none = .ok a')
    (hsame : SameExceptWeights tl D rd ι ι') (hι : AtDefaults a ι) (hι' : AtDefaults a' ι') (η : Sym → ℚ) :
    a'.fullExpression.eval ι' η = ((x ^ 2 + y ^ 2 : ℚ) : ℂ) * a.fullExpression.eval ι η := by
  classical
  have hrd : ∀ c ∈ D.chains, rd (rescale x y c) = rd c := by
    intro c hcm
    have h1 := (hm'.reads (rescale x y c) (by rw [hc]; exact List.mem_map.2 ⟨c, hcm, rfl⟩)).1
    have h2 : Reads (rescale x y c) (rd c) := (hm.reads c hcm).1
    exact reads_unique h1 h2
  have hsym : ∀ c ∈ D.chains, weightSymbol tl (rescale x y c) (rd (rescale x y c)) = weightSymbol tl c (rd c) := by
    intro c hcm
    rw [hrd c hcm]
    rfl
  have h0' : NonnegativeSpins D' := by
    unfold NonnegativeSpins
    rw [hs.kinematics]
    exact h0
  have hval : ∀ w : ℚ × ℚ, (if w.2 = 0 then Val.real w.1 else Val.cplx w.1 w.2).toC =
      (w.1 : ℂ) + w.2 * Complex.I := by
    intro w
    split
    · rename_i e
      simp [Val.toC, e]
    · rfl
  have w1 : ∀ c ∈ D.chains, ι.sym (weightSymbol tl c (rd c)) =
      ((W (weightSymbol tl c (rd c))).1 : ℂ) + (W (weightSymbol tl c (rd c))).2 * Complex.I := by
    intro c hcm
    obtain ⟨g1, g2⟩ := C60_weight_values (fun _ h => by cases h) hm h0 h hcm (re := (W (weightSymbol tl c (rd c))).1)
      (im := (W (weightSymbol tl c (rd c))).2) (fun c' hc' e => by rw [hW c' hc', e])
    rw [← hval]
    refine hι _ _ ?_
    split
    · exact g1 ‹_›
    · exact g2 ‹_›
  have w2 : ∀ c ∈ D.chains, ι'.sym (weightSymbol tl c (rd c)) =
      ((x : ℂ) + y * Complex.I) * ι.sym (weightSymbol tl c (rd c)) := by
    intro c hcm
    set w := W (weightSymbol tl c (rd c)) with hw
    obtain ⟨g1, g2⟩ := C60_weight_values (fun _ h => by cases h) hm' h0' h' (c := rescale x y c)
      (by rw [hc]; exact List.mem_map.2 ⟨c, hcm, rfl⟩) (re := x * w.1 - y * w.2) (im := x * w.2 + y * w.1)
      (fun c' hc' e => by
        rw [hc] at hc'
        obtain ⟨c1, hc1, rfl⟩ := List.mem_map.1 hc'
        rw [hsym c1 hc1, hsym c hcm] at e
        simp only [rescale, hW c1 hc1, e, Option.map_some, ← hw])
    rw [hsym c hcm] at g1 g2
    have := hval (x * w.1 - y * w.2, x * w.2 + y * w.1)
    rw [w1 c hcm, ← hw]
    have e : ι'.sym (weightSymbol tl c (rd c)) = (if (x * w.2 + y * w.1) = 0 then Val.real (x * w.1 - y * w.2)
        else Val.cplx (x * w.1 - y * w.2) (x * w.2 + y * w.1)).toC := by
      refine hι' _ _ ?_
      split
      · exact g1 ‹_›
      · exact g2 ‹_›
    rw [e, this]
    push_cast
    linear_combination -(y : ℂ) * w.2 * Complex.I_sq
  have e1 : a'.fullExpression.eval ι' η = a.fullExpression.eval ι' η := by
    have hv := dynamics_values (m := m) (tl := tl) (add := none) (fun _ h => by cases h) D.chains ι'
    have hv' := dynamics_values (m := m') (tl := tl) (add := none) (fun _ h => by cases h) D'.chains ι'
    refine (full_of_values hm hm' h0 href href' hs h h' ι' η ?_ ?_ ?_).symm
    · intro k l hl hl'
      rw [C60_amplitude_value hm h hv η k hl, C60_amplitude_value hm' h' hv' η k hl', hc, List.map_map]
      refine congrArg List.sum (List.map_congr_left fun c hcm => ?_)
      show (if IsSpectator c.topology k then _ else 0) = _
      refine if_congr Iff.rfl ?_ rfl
      unfold serialValue
      have hf : formValue m' ι' = formValue m ι' := by
        funext v
        unfold formValue
        rw [formFactor_same hs]
      have hl : lineValue m' tl none ι' (rescale x y c) = lineValue m tl none ι' c := by
        unfold lineValue
        rw [dynamics_same hs]
        rfl
      rw [hsym c hcm, hrd c hcm, hf, hl]
      rfl
    · intro c hcm k hk
      rw [hc] at hcm
      obtain ⟨c1, hc1, rfl⟩ := List.mem_map.1 hcm
      exact ⟨c1, hc1, hk⟩
    · intro k hk hk'
      exfalso
      apply hk'
      unfold topologySubsystems at hk ⊢
      rw [Finset.mem_filter] at hk ⊢
      obtain ⟨h1, c, h2, h3⟩ := hk
      exact ⟨h1, rescale x y c, by rw [hc]; exact List.mem_map.2 ⟨c, h2, rfl⟩, h3⟩
  rw [e1, C86_scale hm h0 href href' h (C86_builtin hm ι) hsame _ w2 η]
  congr 1
  have : ‖(x : ℂ) + y * Complex.I‖ ^ 2 = ((x ^ 2 + y ^ 2 : ℚ) : ℝ) := by
    rw [← Complex.normSq_eq_norm_sq]
    have := Complex.normSq_add_mul_I (x : ℝ) (y : ℝ)
    push_cast at this ⊢
    exact this
  rw [this]
  push_cast
  rfl

/-! ### Examples -/

/-- The example with all weights multiplied by `1 + 2 i`. -/
def exRescaled : Distribution := { exDistribution with chains := exDistribution.chains.map (rescale 1 2) }

def exModelRescaled : ModelDefinition := { exModel with distributions := [exRescaled] }

theorem exRescaled_reads : ReadsModel exModelRescaled exRescaled exReading where
  head := ⟨[], rfl⟩
  kinematics := exKinematics_wf
  reads := by
    intro c hc
    obtain ⟨c', hc', rfl⟩ := List.mem_map.1 hc
    exact exModel_reads.reads c' hc'

theorem exRescaled_ok (tl : String → String) (cl : Bool) :
    ∃ a, formulate exModelRescaled cl tl none = .ok a := by
  refine C60_returns exRescaled_reads (ref := 1) exModel_reference (by simp) ?_ cl
  intro c hc
  obtain ⟨c', hc', rfl⟩ := List.mem_map.1 hc
  have hs : SameSetup exModel exModelRescaled exDistribution exRescaled := ⟨⟨[], rfl⟩, ⟨[], rfl⟩, rfl, rfl, rfl⟩
  have key : ∀ c, CompleteChain exModel tl none c → CompleteChain exModelRescaled tl none (rescale 1 2 c) := by
    intro c h
    refine ⟨h.vertices, ?_, h.spin, h.topology, ?_, ?_⟩
    · have := h.weight
      unfold rescale
      simpa using this
    · have := h.lineshape
      rw [dynamics_same hs]
      exact this
    · intro v hv
      rw [formFactor_same hs]
      exact h.formFactors v hv
  simp only [exDistribution, List.mem_cons, List.not_mem_nil, or_false] at hc'
  rcases hc' with rfl | rfl | rfl
  · exact key _ exLambda_complete
  · exact key _ exKstar_complete
  · exact key _ exKstar_complete

/-- An evaluation at the defaults. -/
noncomputable def atDefaults (a : AmplitudeModel) (ι : Interp) : Interp :=
  { ι with sym := fun s => ((PyDict.get? a.parameterDefaults (.sym s)).map Val.toC).getD (ι.sym s) }

theorem atDefaults_spec (a : AmplitudeModel) (ι : Interp) : AtDefaults a (atDefaults a ι) := by
  intro s v h
  simp [atDefaults, h]

/-- All intensities of the example are five times as large if the weights in the file are multiplied by
`1 + 2 i`. -/
example : ∃ a a', formulate exModel true id none = .ok a ∧ formulate exModelRescaled false id none = .ok a' ∧
    ∀ ι η, a'.fullExpression.eval (atDefaults a' ι) η = 5 * a.fullExpression.eval (atDefaults a ι) η := by
  obtain ⟨a, ha⟩ := exModel_ok id true
  obtain ⟨a', ha'⟩ := exRescaled_ok id false
  have hs : SameSetup exModel exModelRescaled exDistribution exRescaled := ⟨⟨[], rfl⟩, ⟨[], rfl⟩, rfl, rfl, rfl⟩
  refine ⟨a, a', ha, ha', fun ι η => ?_⟩
  have := C86_file (ref := 1) 1 2 exModel_reads exRescaled_reads exDistribution_nonneg exModel_reference (by simp) hs rfl
    (W := fun s => if s = weightSymbol id exKstar (exReading exKstar) then (1, 0) else (1 / 2, -3)) ?_ ha ha'
    (ι := atDefaults a ι) (ι' := atDefaults a' ι) ?_ (atDefaults_spec _ _) (atDefaults_spec _ _) η
  · rw [this]
    norm_num
  · intro c hc
    simp only [exDistribution, List.mem_cons, List.not_mem_nil, or_false] at hc
    rcases hc with rfl | rfl | rfl
    · rw [if_neg (by decide)]; rfl
    · rw [if_pos rfl]; rfl
    · rw [if_pos rfl]; rfl
  · refine ⟨⟨rfl, rfl, rfl, rfl, rfl⟩, fun s hs' => ?_⟩
    have := C86_defaults 1 2 exModel_reads exRescaled_reads hs rfl ha ha' (.sym s) fun c hc e =>
      hs' c hc (Key.sym.inj e)
    simp only [atDefaults, this]

/-- The weights of the example can be changed freely. -/
example : ∃ a, formulate exModel true id none = .ok a ∧ ∀ (ι : Interp) (z : ℂ) (η : Sym → ℚ),
    a.fullExpression.eval { ι with sym := fun s =>
      if ∃ c ∈ exDistribution.chains, s = weightSymbol id c (exReading c) then z * ι.sym s else ι.sym s } η =
      (‖z‖ ^ 2 : ℝ) * a.fullExpression.eval ι η := by
  obtain ⟨a, ha⟩ := exModel_ok id true
  refine ⟨a, ha, fun ι z η => ?_⟩
  refine C86_scale exModel_reads exDistribution_nonneg exModel_reference (by simp) ha
    (C86_builtin exModel_reads ι) (ι' := { ι with sym := fun s =>
      if ∃ c ∈ exDistribution.chains, s = weightSymbol id c (exReading c) then z * ι.sym s else ι.sym s })
    ⟨⟨rfl, rfl, rfl, rfl, rfl⟩, ?_⟩ z ?_ η
  · intro s hs
    exact (if_neg fun ⟨c, hc, e⟩ => hs c hc e).symm
  · intro c hc
    exact if_pos ⟨c, hc, rfl⟩

/-- The example with the two `K*` chains only. -/
def exKept : Distribution := { exDistribution with chains := [exKstar, exKstar] }

theorem exKept_reads : ReadsModel { exModel with distributions := [exKept] } exKept exReading where
  head := ⟨[], rfl⟩
  kinematics := exKinematics_wf
  reads := by
    intro c hc
    exact exModel_reads.reads c (List.mem_cons_of_mem _ hc)

example : ∃ a a', formulate exModel true id none = .ok a ∧
    formulate { exModel with distributions := [exKept] } true id none = .ok a' ∧ ∀ ι η,
      ι.sym (weightSymbol id exLambda (exReading exLambda)) = 0 →
        a.fullExpression.eval ι η = a'.fullExpression.eval ι η := by
  obtain ⟨a, ha⟩ := exModel_ok id true
  have hs : SameSetup exModel { exModel with distributions := [exKept] } exDistribution exKept :=
    ⟨⟨[], rfl⟩, ⟨[], rfl⟩, rfl, rfl, rfl⟩
  have hk : CompleteChain { exModel with distributions := [exKept] } id none exKstar := by
    have h := exKstar_complete (tl := id)
    refine ⟨h.vertices, h.weight, h.spin, h.topology, ?_, ?_⟩
    · rw [dynamics_same hs]
      exact h.lineshape
    · intro v hv
      rw [formFactor_same hs]
      exact h.formFactors v hv
  obtain ⟨a', ha'⟩ := C60_returns (ref := 1) exKept_reads exModel_reference (by simp) (tl := id) (add := none) (by
    intro c hc
    simp only [exKept, List.mem_cons, List.not_mem_nil, or_false, or_self] at hc
    exact hc ▸ hk) true
  refine ⟨a, a', ha, ha', fun ι η h0 => C86_switch_off (fun c => c.name == "K892") exModel_reads exKept_reads
    exDistribution_nonneg exModel_reference (by simp) hs (.refl _) ha ha' ι ?_ η⟩
  intro c hc hn
  simp only [exDistribution, List.mem_cons, List.not_mem_nil, or_false] at hc
  rcases hc with rfl | rfl | rfl
  · exact h0
  · cases hn
  · cases hn

end Verif.Serialization
