import Verif.Proofs.Interference
import Verif.Spec.Interference
import Verif.Props.SerialWeights

/-! Property C108 for serialized models: interference of the parts of a model. -/
namespace Verif.Serialization
open Verif Verif.Spec Verif.ThreeBody Verif.Interference

variable {m m' : ModelDefinition} {D D' : Distribution} {rd : ChainDefinition → Reading} {ref : ℤ}
  {cl cl' : Bool} {tl : String → String} {a a' : AmplitudeModel} {ι : Interp}
  {κ : Type*} [DecidableEq κ] {label : ChainDefinition → κ}

/-- The value of a model in terms of another one for the same decay. -/
theorem full_of_amplitudes (hm : ReadsModel m D rd) (hm' : ReadsModel m' D' rd)
    (h0 : NonnegativeSpins D) (href : IsSpectator D.referenceTopology ref)
    (href' : ref ∈ ([1, 2, 3] : List ℤ)) (hs : SameSetup m m' D D')
    (h : formulate m cl tl none = .ok a) (h' : formulate m' cl' tl none = .ok a') (ι : Interp) (η : Sym → ℚ)
    {A : ℤ → (Fin 4 → ℚ) → ℂ}
    (hA : ∀ k l, l ∈ helicities a.decay → l ∈ helicities a'.decay → definedValue a' ι η k l = A k l)
    (hsub : ∀ c ∈ D'.chains, ∀ k, IsSpectator c.topology k → ∃ c' ∈ D.chains, IsSpectator c'.topology k)
    (hzero : ∀ k ∈ topologySubsystems D.chains, k ∉ topologySubsystems D'.chains →
      ∀ l ∈ helicities a.decay, A k l = 0) :
    a'.fullExpression.eval ι η = (intensityOver ι a.decay (topologySubsystems D.chains) ref A : ℂ) := by
  classical
  have h0' : NonnegativeSpins D' := by
    unfold NonnegativeSpins
    rw [hs.kinematics]
    exact h0
  obtain ⟨K, E, P, Θ, ref1, ids, zetas, terms, hf⟩ := formulate_inv hm.head hm.kinematics h
  obtain ⟨K', E', P', Θ', ref1', ids', zetas', terms', hf'⟩ := formulate_inv hm'.head hm'.kinematics h'
  have hst : a'.decay.states = a.decay.states := by
    have e1 := (toDecay_standard hm.head hm.kinematics hf.decay).2.1
    have e2 := (toDecay_standard hm'.head hm'.kinematics hf'.decay).2.1
    rw [states_same hs, e1] at e2
    exact (Except.ok.inj e2).symm
  have hspin : a'.decay.spin = a.decay.spin := by
    funext i
    unfold Decay.spin Decay.st
    rw [hst]
  have hhel : helicities a'.decay = helicities a.decay := by
    unfold helicities
    rw [hspin]
  rw [(C70_intensity_value hm' h0' (by rw [hs.reference]; exact href) href' h' ι η).2]
  refine congrArg _ ?_
  unfold intensityOver
  rw [hhel]
  refine Finset.sum_congr rfl fun l _ => ?_
  refine congrArg (fun x : ℂ => ‖x‖ ^ 2) ?_
  unfold alignedOver
  rw [hhel]
  refine Finset.sum_congr rfl fun l' hl' => ?_
  have hrot : ∀ k i x y, rotation ι a'.decay ref k i x y = rotation ι a.decay ref k i x y := by
    intro k i x y
    unfold rotation
    rw [hspin]
  have hA' : ∀ k, definedValue a' ι η k l' = A k l' := fun k => hA k l' hl' (hhel ▸ hl')
  simp only [hrot, hA']
  apply Finset.sum_subset
  · intro k hk
    unfold topologySubsystems at hk ⊢
    rw [Finset.mem_filter] at hk ⊢
    obtain ⟨h1, c, h2, h3⟩ := hk
    exact ⟨h1, hsub c h2 k h3⟩
  · intro k hk hk'
    rw [hzero k hk hk' l' hl']
    ring

theorem alignedOver_sum {d : Decay} {T : Finset ℤ} {S : Finset κ} (A : κ → ℤ → (Fin 4 → ℚ) → ℂ) (l : Fin 4 → ℚ) :
    alignedOver ι d T ref (fun k l => ∑ x ∈ S, A x k l) l = ∑ x ∈ S, alignedOver ι d T ref (A x) l := by
  unfold alignedOver
  conv_rhs => rw [Finset.sum_comm]
  apply Finset.sum_congr rfl
  intro l' _
  conv_rhs => rw [Finset.sum_comm]
  apply Finset.sum_congr rfl
  intro k _
  simp only [Finset.sum_mul]

open Classical in
/-- The part of an amplitude with label `x`. -/
noncomputable def serialPart (m : ModelDefinition) (D : Distribution) (rd : ChainDefinition → Reading) (tl : String → String)
    (ι : Interp) (label : ChainDefinition → κ) (x : κ) (k : ℤ) (l : Fin 4 → ℚ) : ℂ :=
  (D.chains.map fun c => if label c = x then (if IsSpectator c.topology k then
    serialValue ι tl (lineValue m tl none ι) (formValue m ι) (byId l) c (rd c) else 0) else 0).sum

theorem sum_filter {α : Type*} (l : List α) (label : α → κ) (S : Finset κ) (f : α → ℂ) :
    ∑ x ∈ S, (l.map fun c => if label c = x then f c else 0).sum = ((l.filter fun c => label c ∈ S).map f).sum := by
  induction l with
  | nil => simp
  | cons c l ih =>
    simp only [List.map_cons, List.sum_cons, Finset.sum_add_distrib, ih, Finset.sum_ite_eq]
    by_cases hc : label c ∈ S
    · rw [if_pos hc, List.filter_cons_of_pos (by simpa using hc), List.map_cons, List.sum_cons]
    · rw [if_neg hc, List.filter_cons_of_neg (by simpa using hc), zero_add]

/-- The value of a model for a part of the chains. -/
theorem serial_part_value (hm : ReadsModel m D rd) (hm' : ReadsModel m' D' rd)
    (h0 : NonnegativeSpins D) (href : IsSpectator D.referenceTopology ref)
    (href' : ref ∈ ([1, 2, 3] : List ℤ)) (hs : SameSetup m m' D D') {S : Finset κ}
    (hc : D'.chains.Perm (D.chains.filter fun c => label c ∈ S))
    (h : formulate m cl tl none = .ok a) (h' : formulate m' cl' tl none = .ok a') (ι : Interp) (η : Sym → ℚ) :
    a'.fullExpression.eval ι η = (total (helicities a.decay) (fun x => alignedOver ι a.decay
      (topologySubsystems D.chains) ref (serialPart m D rd tl ι label x)) S : ℂ) := by
  classical
  have hmem : ∀ c ∈ D'.chains, c ∈ D.chains := fun c h => (List.mem_filter.1 (hc.subset h)).1
  have hv := dynamics_values (m := m) (tl := tl) (add := none) (fun _ h => by cases h) D.chains ι
  have hv' : DynamicsValues m' D'.chains tl none ι (lineValue m tl none ι) (formValue m ι) := by
    constructor
    · intro c hcm d hd
      rw [dynamics_same hs] at hd
      exact hv.line c (hmem c hcm) d hd
    · intro c hcm v hvm d hd
      rw [formFactor_same hs] at hd
      exact hv.form c (hmem c hcm) v hvm d hd
  have hsum : ∀ k l, ∑ x ∈ S, serialPart m D rd tl ι label x k l =
      (D'.chains.map fun c => if IsSpectator c.topology k then
        serialValue ι tl (lineValue m tl none ι) (formValue m ι) (byId l) c (rd c) else 0).sum := by
    intro k l
    rw [(hc.map _).sum_eq, ← sum_filter]
    rfl
  rw [full_of_amplitudes (A := fun k l => ∑ x ∈ S, serialPart m D rd tl ι label x k l) hm hm' h0 href href' hs h h' ι η ?_
    (fun c hcm k hk => ⟨c, hmem c hcm, hk⟩) ?_]
  · unfold intensityOver total
    simp only [alignedOver_sum]
  · intro k l _ hl'
    rw [C60_amplitude_value hm' h' hv' η k hl', hsum]
  · intro k hk hk' l hl
    rw [hsum]
    apply List.sum_eq_zero
    intro x hx
    obtain ⟨c, hcm, rfl⟩ := List.mem_map.1 hx
    rw [if_neg]
    intro hsp
    apply hk'
    unfold topologySubsystems at hk ⊢
    rw [Finset.mem_filter] at hk ⊢
    exact ⟨hk.1, c, hcm, hsp⟩

theorem serial_self (hm : ReadsModel m D rd) : SameSetup m m D D := ⟨hm.head, hm.head, rfl, rfl, rfl⟩

/-- C108 for serialized models: the value of a model is the sum of the values of the models for single parts and of the
interference of all pairs of parts. The parts may list their chains in any order. -/
theorem C108_serial_pairs (hm : ReadsModel m D rd) (h0 : NonnegativeSpins D) (href : IsSpectator D.referenceTopology ref)
    (href' : ref ∈ ([1, 2, 3] : List ℤ)) (h : formulate m cl tl none = .ok a)
    {S : Finset κ} (hS : ∀ c ∈ D.chains, label c ∈ S)
    {sub : Finset κ → ModelDefinition} {DS : Finset κ → Distribution} {as : Finset κ → AmplitudeModel}
    (hm' : ∀ T ⊆ S, ReadsModel (sub T) (DS T) rd) (hs : ∀ T ⊆ S, SameSetup m (sub T) D (DS T))
    (hc : ∀ T ⊆ S, (DS T).chains.Perm (D.chains.filter fun c => label c ∈ T))
    (h' : ∀ T ⊆ S, formulate (sub T) cl' tl none = .ok (as T)) (ι : Interp) (η : Sym → ℚ) :
    SumOfPairs S (a.fullExpression.eval ι η) fun T => (as T).fullExpression.eval ι η := by
  have hv := fun T hT => serial_part_value hm (hm' T hT) h0 href href' (hs T hT) (hc T hT) h (h' T hT) ι η
  have h1 : ∀ x ∈ S, {x} ⊆ S := fun x hx => by simpa using hx
  unfold SumOfPairs
  rw [serial_part_value hm hm h0 href href' (serial_self hm) (label := label) (S := S)
      (by rw [List.filter_eq_self.2 (by simpa using hS)]) h h ι η, total_pairs,
    Finset.sum_congr rfl fun x hx => hv {x} (h1 x hx)]
  push_cast
  congr 1
  apply Finset.sum_congr rfl
  intro P hP'
  have hPS := (Finset.mem_powersetCard.1 hP').1
  rw [hv P hPS, Finset.sum_congr rfl fun x hx => hv {x} (h1 x (hPS hx))]

/-- C108 for serialized models: bounds. -/
theorem C108_serial_bounds (hm : ReadsModel m D rd) (h0 : NonnegativeSpins D) (href : IsSpectator D.referenceTopology ref)
    (href' : ref ∈ ([1, 2, 3] : List ℤ)) (h : formulate m cl tl none = .ok a)
    {S : Finset κ} (hS : ∀ c ∈ D.chains, label c ∈ S)
    {sub : κ → ModelDefinition} {DS : κ → Distribution} {as : κ → AmplitudeModel}
    (hm' : ∀ x ∈ S, ReadsModel (sub x) (DS x) rd) (hs : ∀ x ∈ S, SameSetup m (sub x) D (DS x))
    (hc : ∀ x ∈ S, (DS x).chains.Perm (D.chains.filter fun c => label c = x))
    (h' : ∀ x ∈ S, formulate (sub x) cl' tl none = .ok (as x)) (ι : Interp) (η : Sym → ℚ) :
    √(a.fullExpression.eval ι η).re ≤ ∑ x ∈ S, √((as x).fullExpression.eval ι η).re ∧
    (a.fullExpression.eval ι η).re ≤ S.card * ∑ x ∈ S, ((as x).fullExpression.eval ι η).re := by
  have hv := fun x hx => congrArg Complex.re (serial_part_value hm (hm' x hx) h0 href href' (hs x hx) (S := {x})
    (by simpa using hc x hx) h (h' x hx) ι η)
  simp only [Complex.ofReal_re] at hv
  rw [serial_part_value hm hm h0 href href' (serial_self hm) (label := label) (S := S)
      (by rw [List.filter_eq_self.2 (by simpa using hS)]) h h ι η, Complex.ofReal_re,
    Finset.sum_congr rfl hv, Finset.sum_congr rfl fun x hx => congrArg Real.sqrt (hv x hx)]
  exact ⟨sqrt_total_le _ _ _, total_le _ _ _⟩

/-- C108 for serialized models: two parts. -/
theorem C108_serial_two_parts {m₁ m₂ : ModelDefinition} {D₁ D₂ : Distribution} {a₁ a₂ : AmplitudeModel} {cl₁ cl₂ : Bool}
    (keep : ChainDefinition → Bool) (hm : ReadsModel m D rd) (h0 : NonnegativeSpins D)
    (href : IsSpectator D.referenceTopology ref) (href' : ref ∈ ([1, 2, 3] : List ℤ)) (h : formulate m cl tl none = .ok a)
    (hm₁ : ReadsModel m₁ D₁ rd) (hs₁ : SameSetup m m₁ D D₁) (hc₁ : D₁.chains.Perm (D.chains.filter keep))
    (h₁ : formulate m₁ cl₁ tl none = .ok a₁) (hm₂ : ReadsModel m₂ D₂ rd) (hs₂ : SameSetup m m₂ D D₂)
    (hc₂ : D₂.chains.Perm (D.chains.filter fun c => !keep c)) (h₂ : formulate m₂ cl₂ tl none = .ok a₂)
    (ι : Interp) (η : Sym → ℚ) :
    |√(a₁.fullExpression.eval ι η).re - √(a₂.fullExpression.eval ι η).re| ≤ √(a.fullExpression.eval ι η).re ∧
    √(a.fullExpression.eval ι η).re ≤ √(a₁.fullExpression.eval ι η).re + √(a₂.fullExpression.eval ι η).re := by
  rw [serial_part_value (label := keep) (S := {true}) hm hm₁ h0 href href' hs₁ (by simpa using hc₁) h h₁ ι η,
    serial_part_value (label := keep) (S := {false}) hm hm₂ h0 href href' hs₂ (by simpa using hc₂) h h₂ ι η,
    serial_part_value (label := keep) (S := {true} ∪ {false}) hm hm h0 href href' (serial_self hm) (by simp) h h ι η]
  simp only [Complex.ofReal_re]
  exact abs_sub_le _ _ (by simp)

/-! ### A concrete case: the resonances of `exModel` -/

/-- The chains of `exModel` with a name in `T`. -/
def exNames (T : Finset String) : Distribution :=
  { exDistribution with chains := exDistribution.chains.filter fun c => c.name ∈ T }

theorem exNames_setup (T : Finset String) :
    SameSetup exModel { exModel with distributions := [exNames T] } exDistribution (exNames T) :=
  ⟨⟨[], rfl⟩, ⟨[], rfl⟩, rfl, rfl, rfl⟩

theorem exNames_reads (T : Finset String) : ReadsModel { exModel with distributions := [exNames T] } (exNames T) exReading where
  head := ⟨[], rfl⟩
  kinematics := exKinematics_wf
  reads := fun c hc => exModel_reads.reads c (List.mem_filter.1 hc).1

theorem exNames_ok (T : Finset String) : ∃ a, formulate { exModel with distributions := [exNames T] } true id none = .ok a := by
  refine C60_returns (ref := 1) (exNames_reads T) exModel_reference (by simp) (tl := id) (add := none) (fun c hc => ?_) true
  have hk : CompleteChain exModel id none c := by
    have hc := (List.mem_filter.1 hc).1
    simp only [exDistribution, List.mem_cons, List.not_mem_nil, or_false] at hc
    rcases hc with rfl | rfl | rfl
    · exact exLambda_complete
    · exact exKstar_complete
    · exact exKstar_complete
  refine ⟨hk.vertices, hk.weight, hk.spin, hk.topology, ?_, ?_⟩
  · rw [dynamics_same (exNames_setup T)]
    exact hk.lineshape
  · intro v hv
    rw [formFactor_same (exNames_setup T)]
    exact hk.formFactors v hv

/-- The hypotheses of `C108_serial_pairs`, and with single names those of `C108_serial_bounds`, hold. -/
example : ∃ (a : AmplitudeModel) (as : Finset String → AmplitudeModel), formulate exModel true id none = .ok a ∧
    (∀ T, formulate { exModel with distributions := [exNames T] } true id none = .ok (as T)) ∧ ∀ ι η,
      SumOfPairs {exLambda.name, exKstar.name} (a.fullExpression.eval ι η) fun T => (as T).fullExpression.eval ι η := by
  obtain ⟨a, ha⟩ := exModel_ok id true
  choose as has using exNames_ok
  refine ⟨a, as, ha, has, C108_serial_pairs (label := fun c => c.name) exModel_reads exDistribution_nonneg exModel_reference
    (by simp) ha ?_ (fun T _ => exNames_reads T) (fun T _ => exNames_setup T) (fun _ _ => .refl _) fun T _ => has T⟩
  intro c hc
  simp only [exDistribution, List.mem_cons, List.not_mem_nil, or_false] at hc
  rcases hc with rfl | rfl | rfl <;> simp

/-- The hypotheses of `C108_serial_two_parts` hold for the `K*` chains and the others. -/
example : ∃ a₁ a₂, formulate { exModel with distributions := [exNames {"K892"}] } true id none = .ok a₁ ∧
    formulate { exModel with distributions := [exNames {exLambda.name}] } true id none = .ok a₂ ∧
    (exNames {"K892"}).chains.Perm (exDistribution.chains.filter fun c => c.name == "K892") ∧
    (exNames {exLambda.name}).chains.Perm (exDistribution.chains.filter fun c => !(c.name == "K892")) := by
  obtain ⟨a₁, h₁⟩ := exNames_ok {"K892"}
  obtain ⟨a₂, h₂⟩ := exNames_ok {exLambda.name}
  refine ⟨a₁, a₂, h₁, h₂, ?_, ?_⟩ <;> apply List.Perm.of_eq <;> apply List.filter_congr <;> intro c hc <;>
    simp only [exDistribution, List.mem_cons, List.not_mem_nil, or_false] at hc <;>
    rcases hc with rfl | rfl | rfl <;> decide

end Verif.Serialization
