import Verif.Proofs.Interference
import Verif.Spec.Interference
import Verif.Props.Superposition
import Verif.Props.Projection

/-! Property C108: interference of the parts of a model. -/
namespace Verif.ThreeBody
open Verif Verif.Spec Verif.Spin Verif.Angles Verif.Interference

variable {b b' : Builder} {dyn : Chain → DefExpr} {cl cl' uc : Bool} {m m' : AmplitudeModel} {ι : Interp}
  {κ : Type*} [DecidableEq κ] {label : Chain → κ}

/-- The part of a subsystem amplitude with label `x`. -/
noncomputable def partValue (ι : Interp) (b : Builder) (uc : Bool) (L : Chain → ℂ) (label : Chain → κ) (x : κ) (k : ℤ)
    (l : Fin 4 → ℚ) : ℂ :=
  ((b.decay.chains.filter fun c => c.spectator.index = k).map fun c =>
    if label c = x then chainValue ι b uc L (prodIds k).1 (prodIds k).2 k (byId l) c else 0).sum

theorem sum_partValue {L : Chain → ℂ} {S : Finset κ} (hP : PartOf b label S b') (k : ℤ) (l : Fin 4 → ℚ) :
    ∑ x ∈ S, partValue ι b uc L label x k l = subsystemValue ι b' uc L k l := by
  unfold subsystemValue partValue
  rw [hP.chains, show chainValue ι b' uc L (prodIds k).1 (prodIds k).2 k (byId l) =
    chainValue ι b uc L (prodIds k).1 (prodIds k).2 k (byId l) from
    funext fun c => chainValue_builder hP.states hP.production hP.decay]
  generalize chainValue ι b uc L (prodIds k).1 (prodIds k).2 k (byId l) = f
  generalize b.decay.chains = cs
  induction cs with
  | nil => simp
  | cons c cs ih =>
    by_cases hk : c.spectator.index = k
    · rw [List.filter_cons_of_pos (by simpa using hk)]
      simp only [List.map_cons, List.sum_cons, Finset.sum_add_distrib, ih, Finset.sum_ite_eq]
      by_cases hc : label c ∈ S
      · rw [if_pos hc, List.filter_cons_of_pos (p := fun c => decide (label c ∈ S)) (by simpa using hc),
          List.filter_cons_of_pos (by simpa using hk), List.map_cons, List.sum_cons]
      · rw [if_neg hc, List.filter_cons_of_neg (p := fun c => decide (label c ∈ S)) (by simpa using hc), zero_add]
    · rw [List.filter_cons_of_neg (by simpa using hk), ih]
      by_cases hc : label c ∈ S
      · rw [List.filter_cons_of_pos (p := fun c => decide (label c ∈ S)) (by simpa using hc),
          List.filter_cons_of_neg (by simpa using hk)]
      · rw [List.filter_cons_of_neg (p := fun c => decide (label c ∈ S)) (by simpa using hc)]

theorem aligned_sum {d : Decay} {ref : ℤ} {S : Finset κ} (A : κ → ℤ → (Fin 4 → ℚ) → ℂ) (l : Fin 4 → ℚ) :
    aligned ι d ref (fun k l => ∑ x ∈ S, A x k l) l = ∑ x ∈ S, aligned ι d ref (A x) l := by
  unfold aligned
  conv_rhs => rw [Finset.sum_comm]
  apply Finset.sum_congr rfl
  intro l' _
  conv_rhs => rw [Finset.sum_comm]
  apply Finset.sum_congr rfl
  intro k _
  simp only [Finset.sum_mul]

/-- The value of a model for a part of the chains. -/
theorem part_value (hd : Standard b.decay) (hfree : ∀ c ∈ b.decay.chains, HelicityFree (dyn c).expression)
    (hres : b.useProdHel = false → ∀ c ∈ b.decay.chains, c.resonance ≠ .state c.spectator)
    {r : ℤ} (hr : r = 1 ∨ r = 2 ∨ r = 3) {S : Finset κ} (hP : PartOf b label S b') (hdyn : Lineshapes b' dyn)
    (h : b'.formulate (some r) cl' uc = .ok m') (η : Sym → ℚ) :
    m'.fullExpression.eval ι η = (total (helicities b.decay) (fun x => aligned ι b.decay r
      (partValue ι b uc (fun c => (dyn c).expression.eval ι η) label x)) S : ℂ) := by
  have hd' : Standard b'.decay := standard_filter hd hP.states hP.chains
  have hrr : RefOk (some r) := by rintro x ⟨⟩; exact hr
  have hsub : ∀ c ∈ b'.decay.chains, c ∈ b.decay.chains := by
    intro c h; rw [hP.chains] at h; exact (List.mem_filter.1 h).1
  obtain ⟨x, hx, hv⟩ := full_value hd' hdyn hrr h (fun c h => hfree c (hsub c h))
    (fun g c h => hres (hP.production.symm.trans g) c (hsub c h)) η
  obtain rfl : r = x := hx
  rw [hv]
  congr 1
  rw [← intensity_states (ι := ι) (ref := r) (d := b.decay)
    (A := fun k l => ∑ x ∈ S, partValue ι b uc (fun c => (dyn c).expression.eval ι η) label x k l) hP.states ?_
    (fun k l _ => sum_partValue hP k l) fun k l => subsystemValue_zero l]
  · unfold Spec.intensity total
    apply Finset.sum_congr rfl
    intro l _
    rw [aligned_sum]
  · intro k hk
    unfold subsystems at hk ⊢
    rw [List.mem_toFinset] at hk ⊢
    obtain ⟨c, hc', rfl⟩ := List.mem_map.1 hk
    exact List.mem_map.2 ⟨c, hsub c hc', rfl⟩

theorem part_self {S : Finset κ} (h : ∀ c ∈ b.decay.chains, label c ∈ S) : PartOf b label S b :=
  ⟨rfl, (List.filter_eq_self.2 (by simpa using h)).symm, rfl, rfl⟩

/-- C108: the value of a model is the sum of the values of the models for single parts (for example, single resonances)
and of the interference of all pairs of parts. -/
theorem C108_pairs (hd : Standard b.decay) (hdyn : Lineshapes b dyn)
    (hfree : ∀ c ∈ b.decay.chains, HelicityFree (dyn c).expression)
    (hres : b.useProdHel = false → ∀ c ∈ b.decay.chains, c.resonance ≠ .state c.spectator)
    {r : ℤ} (hr : r = 1 ∨ r = 2 ∨ r = 3) (h : b.formulate (some r) cl uc = .ok m)
    {S : Finset κ} (hS : ∀ c ∈ b.decay.chains, label c ∈ S)
    {sub : Finset κ → Builder} {ms : Finset κ → AmplitudeModel} (hP : ∀ T ⊆ S, PartOf b label T (sub T))
    (hdyn' : ∀ T ⊆ S, Lineshapes (sub T) dyn) (h' : ∀ T ⊆ S, (sub T).formulate (some r) cl' uc = .ok (ms T))
    (ι : Interp) (η : Sym → ℚ) :
    SumOfPairs S (m.fullExpression.eval ι η) fun T => (ms T).fullExpression.eval ι η := by
  have hv := fun T hT => part_value (ι := ι) hd hfree hres hr (hP T hT) (hdyn' T hT) (h' T hT) η
  have h1 : ∀ x ∈ S, {x} ⊆ S := fun x hx => by simpa using hx
  unfold SumOfPairs
  rw [part_value hd hfree hres hr (part_self hS) hdyn h η, total_pairs, Finset.sum_congr rfl fun x hx => hv {x} (h1 x hx)]
  push_cast
  congr 1
  apply Finset.sum_congr rfl
  intro P hP'
  have hPS := (Finset.mem_powersetCard.1 hP').1
  rw [hv P hPS, Finset.sum_congr rfl fun x hx => hv {x} (h1 x (hPS hx))]

/-- C108: bounds. The square root of the value of a model is at most the sum of the square roots of the values of the
models for single parts, and the value is at most the number of parts times the sum of these values. -/
theorem C108_bounds (hd : Standard b.decay) (hdyn : Lineshapes b dyn)
    (hfree : ∀ c ∈ b.decay.chains, HelicityFree (dyn c).expression)
    (hres : b.useProdHel = false → ∀ c ∈ b.decay.chains, c.resonance ≠ .state c.spectator)
    {r : ℤ} (hr : r = 1 ∨ r = 2 ∨ r = 3) (h : b.formulate (some r) cl uc = .ok m)
    {S : Finset κ} (hS : ∀ c ∈ b.decay.chains, label c ∈ S)
    {sub : κ → Builder} {ms : κ → AmplitudeModel} (hP : ∀ x ∈ S, PartOf b label {x} (sub x))
    (hdyn' : ∀ x ∈ S, Lineshapes (sub x) dyn) (h' : ∀ x ∈ S, (sub x).formulate (some r) cl' uc = .ok (ms x))
    (ι : Interp) (η : Sym → ℚ) :
    √(m.fullExpression.eval ι η).re ≤ ∑ x ∈ S, √((ms x).fullExpression.eval ι η).re ∧
    (m.fullExpression.eval ι η).re ≤ S.card * ∑ x ∈ S, ((ms x).fullExpression.eval ι η).re := by
  have hv := fun x hx => congrArg Complex.re (part_value (ι := ι) hd hfree hres hr (hP x hx) (hdyn' x hx) (h' x hx) η)
  simp only [Complex.ofReal_re] at hv
  rw [part_value hd hfree hres hr (part_self hS) hdyn h η, Complex.ofReal_re,
    Finset.sum_congr rfl hv, Finset.sum_congr rfl fun x hx => congrArg Real.sqrt (hv x hx)]
  exact ⟨sqrt_total_le _ _ _, total_le _ _ _⟩

/-- C108: two parts. The square root of the value lies between difference and sum of the square roots for the two parts,
so one part cannot be cancelled by a much smaller one. -/
theorem C108_two_parts {b₁ b₂ : Builder} {m₁ m₂ : AmplitudeModel} {cl₁ cl₂ : Bool} (keep : Chain → Bool)
    (hd : Standard b.decay) (hdyn : Lineshapes b dyn)
    (hfree : ∀ c ∈ b.decay.chains, HelicityFree (dyn c).expression)
    (hres : b.useProdHel = false → ∀ c ∈ b.decay.chains, c.resonance ≠ .state c.spectator)
    {r : ℤ} (hr : r = 1 ∨ r = 2 ∨ r = 3) (h : b.formulate (some r) cl uc = .ok m)
    (h₁ : PartOf b keep {true} b₁) (h₂ : PartOf b keep {false} b₂) (hdyn₁ : Lineshapes b₁ dyn) (hdyn₂ : Lineshapes b₂ dyn)
    (hm₁ : b₁.formulate (some r) cl₁ uc = .ok m₁) (hm₂ : b₂.formulate (some r) cl₂ uc = .ok m₂)
    (ι : Interp) (η : Sym → ℚ) :
    |√(m₁.fullExpression.eval ι η).re - √(m₂.fullExpression.eval ι η).re| ≤ √(m.fullExpression.eval ι η).re ∧
    √(m.fullExpression.eval ι η).re ≤ √(m₁.fullExpression.eval ι η).re + √(m₂.fullExpression.eval ι η).re := by
  rw [part_value hd hfree hres hr h₁ hdyn₁ hm₁ η, part_value hd hfree hres hr h₂ hdyn₂ hm₂ η,
    part_value hd hfree hres hr (part_self (label := keep) (S := {true} ∪ {false}) (by simp)) hdyn h η]
  simp only [Complex.ofReal_re]
  exact abs_sub_le _ _ (by simp)

/-! ### A concrete case: the resonances of spin 1 and 0 of `exTwo` -/

/-- The builder for the chains of `exTwo` with a spin in `T`. -/
def exBySpin (T : Finset ℚ) : Builder :=
  let d : Decay := ⟨exStates, exTwo.decay.chains.filter fun c => c.resonance.toP.spin ∈ T⟩
  ⟨d, Configurator.init d, true, true, false⟩

theorem exBySpin_part (T : Finset ℚ) : PartOf exTwo (fun c => c.resonance.toP.spin) T (exBySpin T) := ⟨rfl, rfl, rfl, rfl⟩

/-- The hypotheses of `C108_pairs`, and with `fun x => exBySpin {x}` those of `C108_bounds`, hold. -/
example : ∃ (m : AmplitudeModel) (ms : Finset ℚ → AmplitudeModel),
    exTwo.formulate (some 2) true false = .ok m ∧ (∀ c ∈ exTwo.decay.chains, c.resonance.toP.spin ∈ ({0, 1} : Finset ℚ)) ∧
    (∀ T, Lineshapes (exBySpin T) fun _ => {}) ∧ (∀ T, (exBySpin T).formulate (some 2) true false = .ok (ms T)) ∧
    ∀ ι η, SumOfPairs {0, 1} (m.fullExpression.eval ι η) fun T => (ms T).fullExpression.eval ι η := by
  obtain ⟨m, hm, -⟩ := ex_formulate exTwo_standard (unit_lineshapes _ _ _ _) rfl rfl 2 (by simp)
  choose ms hms _ using fun T => ex_formulate (b := exBySpin T)
    (standard_filter exTwo_standard (exBySpin_part T).states (exBySpin_part T).chains) (unit_lineshapes _ _ _ _) rfl rfl 2 (by simp)
  have hS : ∀ c ∈ exTwo.decay.chains, c.resonance.toP.spin ∈ ({0, 1} : Finset ℚ) := by
    intro c hc
    simp only [exTwo, List.mem_cons, List.not_mem_nil, or_false] at hc
    rcases hc with rfl | rfl <;> simp [exChainK, exChainS, Obj.toP]
  exact ⟨m, ms, hm, hS, fun _ => unit_lineshapes _ _ _ _, hms, C108_pairs exTwo_standard (unit_lineshapes _ _ _ _)
    (fun _ _ _ _ _ => rfl) (fun h => by cases h) (by simp) hm hS (fun T _ => exBySpin_part T)
    (fun _ _ => unit_lineshapes _ _ _ _) fun T _ => hms T⟩

/-- The hypotheses of `C108_two_parts` hold for the resonance of spin 1 and that of spin 0. -/
example : ∃ b₁ b₂ : Builder, PartOf exTwo (fun c => decide (c.resonance.toP.spin = 1)) {true} b₁ ∧
    PartOf exTwo (fun c => decide (c.resonance.toP.spin = 1)) {false} b₂ ∧
    (∃ m₁, b₁.formulate (some 2) true false = .ok m₁) ∧ ∃ m₂, b₂.formulate (some 2) true false = .ok m₂ := by
  have h1 : PartOf exTwo (fun c => decide (c.resonance.toP.spin = 1)) {true} (exBySpin {1}) := ⟨rfl, by
    rw [(exBySpin_part {1}).chains]
    simp, rfl, rfl⟩
  have h2 : PartOf exTwo (fun c => decide (c.resonance.toP.spin = 1)) {false} (exBySpin {0}) := ⟨rfl, by
    rw [(exBySpin_part {0}).chains]
    apply List.filter_congr
    intro c hc
    simp only [exTwo, List.mem_cons, List.not_mem_nil, or_false] at hc
    rcases hc with rfl | rfl <;> simp [exChainK, exChainS, Obj.toP], rfl, rfl⟩
  refine ⟨_, _, h1, h2, ?_, ?_⟩
  · obtain ⟨m, hm, -⟩ := ex_formulate (b := exBySpin {1}) (standard_filter exTwo_standard h1.states h1.chains)
      (unit_lineshapes _ _ _ _) rfl rfl 2 (by simp)
    exact ⟨m, hm⟩
  · obtain ⟨m, hm, -⟩ := ex_formulate (b := exBySpin {0}) (standard_filter exTwo_standard h2.states h2.chains)
      (unit_lineshapes _ _ _ _) rfl rfl 2 (by simp)
    exact ⟨m, hm⟩

end Verif.ThreeBody
