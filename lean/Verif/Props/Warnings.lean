import Verif.Proofs.Warnings
import Verif.Proofs.ExampleBuilder

/-! C109: which warnings a builder emits, and what muting them does. -/
namespace Verif.ThreeBody
open Verif Verif.Spec Verif.Spin

variable {b : Builder} {d : Decay} {reference : Option ℤ} {cl uc : Bool} {m : AmplitudeModel}

/-- C109: warnings do not influence the result of `formulate`. -/
theorem C109_result (hd : Standard b.decay) (reference : Option ℤ) (cl uc : Bool) :
    (b.formulateW reference cl uc).result = b.formulate reference cl uc :=
  formulateW_result hd reference cl uc

/-- C109: `get_subsystem` returns the chains of the subsystem, and warns if and only if there are none. -/
theorem C109_get_subsystem (hd : Standard d) (k : ℤ) :
    (d.getSubsystemW k).result = (d.getSubsystem k).map Prod.fst ∧
    (HasSubsystem d k → (d.getSubsystemW k).warnings = []) ∧
    (¬ HasSubsystem d k → (d.getSubsystemW k).warnings = [missingWarning d k]) :=
  ⟨getSubsystemW_result hd k, fun h => by rw [(getSubsystemW_eq hd k).1 h],
    fun h => by rw [(getSubsystemW_eq hd k).2 h]⟩

/-- C109: every warning of `formulate`, also of a call that raises, is about a requested reference subsystem
without chains or, if all subsystems are requested, about a subsystem without chains. -/
theorem C109_only (hd : Standard b.decay) {w : Warning} (h : w ∈ (b.formulateW reference cl uc).warnings) :
    (∃ r, reference = some r ∧ ¬ HasSubsystem b.decay r ∧ w = referenceWarning b.decay r) ∨
    (b.allSubsystems = true ∧ ∃ k ∈ ([1, 2, 3] : List ℤ), ¬ HasSubsystem b.decay k ∧ w = missingWarning b.decay k) := by
  classical
  rcases formulateW_all hd reference cl uc w h with h | h
  · unfold referenceWarnings at h
    obtain ⟨r, hr, rfl⟩ := List.mem_map.1 h
    obtain ⟨h1, h2⟩ := List.mem_filter.1 hr
    exact .inl ⟨r, by simpa using h1, by simpa using h2, rfl⟩
  · unfold missingWarnings at h
    split at h
    · rename_i ha
      obtain ⟨k, hk, rfl⟩ := List.mem_map.1 h
      obtain ⟨h1, h2⟩ := List.mem_filter.1 hk
      exact .inr ⟨ha, k, h1, by simpa using h2, rfl⟩
    · cases h

private theorem spinRange_length {j : ℚ} (hj : IsHalfInteger j) (h0 : 0 ≤ j) :
    ((createSpinRange j).length : ℚ) = 2 * j + 1 := by
  obtain ⟨z, hz⟩ := hj
  have hz0 : (0 : ℚ) ≤ z := by linarith
  have hz0' : 0 ≤ z := by exact_mod_cast hz0
  obtain ⟨n, rfl⟩ := Int.eq_ofNat_of_zero_le hz0'
  rw [(C01_spin_range n j (by rw [hz]; simp)).2.1, hz]
  push_cast
  ring

private theorem tuples_length (s : ℤ → ℚ) : (helicityTuples s).length =
    (createSpinRange (s 0)).length * (createSpinRange (s 1)).length * (createSpinRange (s 2)).length *
      (createSpinRange (s 3)).length := by
  unfold helicityTuples
  simp only [List.length_flatMap, List.length_map, List.map_const', List.sum_replicate, smul_eq_mul]
  ring

/-- C109: the warnings of a successful call of `formulate` in the order in which they are emitted. A reference
subsystem without chains is reported twice, a subsystem without chains once for every combination of the
helicities of the four states. -/
theorem C109_warnings (hd : Standard b.decay) (h0 : NonnegSpins b.decay) (h : b.formulate reference cl uc = .ok m) :
    ∃ N : ℕ, (N : ℚ) = (2 * b.decay.spin 0 + 1) * (2 * b.decay.spin 1 + 1) * (2 * b.decay.spin 2 + 1) *
        (2 * b.decay.spin 3 + 1) ∧
      (b.formulateW reference cl uc).warnings = referenceWarnings b.decay reference ++
        (List.replicate N (missingWarnings b)).flatten ++ referenceWarnings b.decay reference := by
  refine ⟨_, ?_, formulateW_warnings hd ((formulateW_result hd reference cl uc).trans h)⟩
  rw [tuples_length]
  have hl : ∀ i ∈ ([0, 1, 2, 3] : List ℤ), ((createSpinRange (spins b.decay i)).length : ℚ) = 2 * b.decay.spin i + 1 := by
    intro i hi
    rw [spins_eq _ hi]
    exact spinRange_length (Standard.half hd hi) (h0 _ (Standard.mem hd hi))
  push_cast
  rw [hl 0 (by simp), hl 1 (by simp), hl 2 (by simp), hl 3 (by simp)]

private theorem pos_of_prod (hd : Standard b.decay) (h0 : NonnegSpins b.decay) {N : ℕ}
    (hN : (N : ℚ) = (2 * b.decay.spin 0 + 1) * (2 * b.decay.spin 1 + 1) * (2 * b.decay.spin 2 + 1) *
        (2 * b.decay.spin 3 + 1)) : 0 < N := by
  have hp : ∀ i ∈ ([0, 1, 2, 3] : List ℤ), 0 < 2 * b.decay.spin i + 1 := by
    intro i hi
    have : 0 ≤ b.decay.spin i := h0 _ (Standard.mem hd hi)
    linarith
  have : (0 : ℚ) < N := by
    rw [hN]
    exact mul_pos (mul_pos (mul_pos (hp 0 (by simp)) (hp 1 (by simp))) (hp 2 (by simp))) (hp 3 (by simp))
  exact_mod_cast this

private theorem referenceWarnings_nil : referenceWarnings d reference = [] ↔
    ∀ r, reference = some r → HasSubsystem d r := by
  classical
  cases reference with
  | none => simp [referenceWarnings]
  | some r => by_cases h : HasSubsystem d r <;> simp [referenceWarnings, h]

private theorem missingWarnings_nil : missingWarnings b = [] ↔
    (b.allSubsystems = true → ∀ k ∈ ([1, 2, 3] : List ℤ), HasSubsystem b.decay k) := by
  classical
  unfold missingWarnings
  cases b.allSubsystems
  · simp
  · simp [List.filter_eq_nil_iff]

/-- C109: a successful call of `formulate` is silent if and only if the requested reference subsystem, if any,
has chains and, if all subsystems are requested, all three of them have chains. -/
theorem C109_silent (hd : Standard b.decay) (h0 : NonnegSpins b.decay) (h : b.formulate reference cl uc = .ok m) :
    (b.formulateW reference cl uc).warnings = [] ↔
      (∀ r, reference = some r → HasSubsystem b.decay r) ∧
      (b.allSubsystems = true → ∀ k ∈ ([1, 2, 3] : List ℤ), HasSubsystem b.decay k) := by
  obtain ⟨N, hN, hw⟩ := C109_warnings hd h0 h
  have hpos := pos_of_prod hd h0 hN
  rw [hw, List.append_eq_nil_iff, List.append_eq_nil_iff, referenceWarnings_nil]
  have : (List.replicate N (missingWarnings b)).flatten = [] ↔ missingWarnings b = [] := by
    rw [List.flatten_eq_nil_iff]
    constructor
    · intro h; exact h _ (List.mem_replicate.2 ⟨by omega, rfl⟩)
    · intro h l hl; rw [(List.mem_replicate.1 hl).2, h]
  rw [this, missingWarnings_nil]
  tauto

/-! ### Filters -/

/-- The modules of AmpForm-DPD that warn. -/
def warningModules : List String := ["ampform_dpd", "ampform_dpd.decay", "ampform_dpd.io.serialization.format"]

private theorem applies_mute {w : Warning} (h : w.module ∈ warningModules) :
    (Filter.mk .ignore (some "ampform_dpd.decay")).applies w = decide (w.module = "ampform_dpd.decay") := by
  have key : ∀ s ∈ warningModules, matchPrefix "ampform_dpd.decay".toList s.toList = decide (s = "ampform_dpd.decay") := by
    decide +kernel
  exact key _ h

private theorem find?_erase {α : Type} [DecidableEq α] (p : α → Bool) (a : α) (h : p a = false) :
    ∀ l : List α, (l.erase a).find? p = l.find? p
  | [] => rfl
  | x :: t => by
    by_cases hx : x = a
    · subst hx
      rw [List.erase_cons_head, List.find?_cons, h]
    · rw [List.erase_cons_tail (by simpa using hx), List.find?_cons, List.find?_cons, find?_erase p a h t]

private theorem actionFor_mute {F : List Filter} {w : Warning} (h : w.module ∈ warningModules) :
    actionFor (muteAmpformWarnings F) w = if w.module = "ampform_dpd.decay" then .ignore else actionFor F w := by
  unfold actionFor muteAmpformWarnings filterwarnings
  rw [List.find?_cons, applies_mute h]
  by_cases hw : w.module = "ampform_dpd.decay"
  · simp [hw]
  · simp only [hw, decide_false, if_false]
    rw [find?_erase _ _ (by rw [applies_mute h]; simp [hw])]

/-- C109: after `mute_ampform_warnings()`, whatever the filters were before, warnings about subsystems without
chains are neither shown nor raised as exceptions. All other warnings are treated as before. -/
theorem C109_mute (F : List Filter) : ∀ (seen ws : List Warning), (∀ w ∈ ws, w.module ∈ warningModules) →
    process (muteAmpformWarnings F) seen ws = process F seen (ws.filter fun w => w.module ≠ "ampform_dpd.decay") := by
  intro seen ws
  induction ws generalizing seen with
  | nil => intro _; rfl
  | cons w t ih =>
    intro h
    have ih := fun seen => ih seen fun x hx => h x (List.mem_cons_of_mem _ hx)
    have ha := actionFor_mute (F := F) (h w List.mem_cons_self)
    by_cases hw : w.module = "ampform_dpd.decay"
    · rw [if_pos hw] at ha
      rw [List.filter_cons_of_neg (by simpa using hw), process, ha]
      exact ih seen
    · rw [if_neg hw] at ha
      rw [List.filter_cons_of_pos (by simpa using hw), process, process, ha]
      simp only [ih]

private theorem formulate_modules (hd : Standard b.decay) :
    ∀ w ∈ (b.formulateW reference cl uc).warnings, w.module ∈ warningModules := by
  intro w hw
  rcases C109_only hd hw with ⟨r, -, -, rfl⟩ | ⟨-, k, -, -, rfl⟩ <;> simp [warningModules, referenceWarning, missingWarning]

/-- C109: after `mute_ampform_warnings()` nothing is shown or raised during `formulate` unless a reference
subsystem without chains is requested. -/
theorem C109_muted_formulate (hd : Standard b.decay) (hr : ∀ r, reference = some r → HasSubsystem b.decay r)
    (F : List Filter) (seen : List Warning) :
    process (muteAmpformWarnings F) seen (b.formulateW reference cl uc).warnings = ([], false) := by
  rw [C109_mute F seen _ (formulate_modules hd)]
  have : (b.formulateW reference cl uc).warnings.filter (fun w => w.module ≠ "ampform_dpd.decay") = [] := by
    rw [List.filter_eq_nil_iff]
    intro w hw
    rcases C109_only hd hw with ⟨r, h1, h2, -⟩ | ⟨-, k, -, -, rfl⟩
    · exact absurd (hr r h1) h2
    · simp [missingWarning]
  rw [this]
  rfl

/-- C109: the warning about the reference subsystem is not muted: if warnings are turned into exceptions,
`formulate` raises it after `mute_ampform_warnings()` as before. -/
theorem C109_reference_not_muted (hd : Standard b.decay) (h0 : NonnegSpins b.decay) {r : ℤ}
    (hr : ¬ HasSubsystem b.decay r) (h : b.formulate (some r) cl uc = .ok m) (seen : List Warning) :
    process (muteAmpformWarnings [⟨.error, none⟩]) seen (b.formulateW (some r) cl uc).warnings = ([], true) ∧
    process (muteAmpformWarnings []) [] (b.formulateW (some r) cl uc).warnings =
      ([referenceWarning b.decay r], false) := by
  classical
  obtain ⟨N, -, hw⟩ := C109_warnings hd h0 h
  have hR : referenceWarnings b.decay (some r) = [referenceWarning b.decay r] := by simp [referenceWarnings, hr]
  have hf : (b.formulateW (some r) cl uc).warnings.filter (fun w => w.module ≠ "ampform_dpd.decay") =
      [referenceWarning b.decay r, referenceWarning b.decay r] := by
    have hM : ((List.replicate N (missingWarnings b)).flatten).filter (fun w => w.module ≠ "ampform_dpd.decay") = [] := by
      rw [List.filter_eq_nil_iff]
      intro w hw
      obtain ⟨l, hl, hw⟩ := List.mem_flatten.1 hw
      rw [(List.mem_replicate.1 hl).2, missingWarnings] at hw
      split at hw
      · obtain ⟨k, -, rfl⟩ := List.mem_map.1 hw
        simp [missingWarning]
      · cases hw
    rw [hw, hR, List.filter_append, List.filter_append, hM]
    simp [referenceWarning]
  rw [C109_mute _ seen _ (formulate_modules hd), C109_mute _ [] _ (formulate_modules hd), hf]
  constructor
  · rfl
  · simp [process, actionFor]

/-- C109: if all warnings are turned into exceptions, a successful `formulate` becomes an exception if and only
if it would warn. -/
theorem C109_error (seen ws : List Warning) :
    process [⟨.error, none⟩] seen ws = ([], decide (ws ≠ [])) := by
  cases ws <;> rfl

private theorem process_seen : ∀ (seen ws : List Warning), (∀ w ∈ ws, w ∈ seen) → process [] seen ws = ([], false) := by
  intro seen ws
  induction ws with
  | nil => intro _; rfl
  | cons w t ih =>
    intro h
    simp only [process, actionFor, List.find?_nil, if_pos (h w List.mem_cons_self)]
    exact ih fun x hx => h x (List.mem_cons_of_mem _ hx)

private theorem process_new : ∀ (ws seen t : List Warning), ws.Nodup → (∀ w ∈ ws, w ∉ seen) →
    process [] seen (ws ++ t) = (ws ++ (process [] (ws.reverse ++ seen) t).1, (process [] (ws.reverse ++ seen) t).2) := by
  intro ws
  induction ws with
  | nil => intro seen t _ _; simp
  | cons w s ih =>
    intro seen t hn hs
    rw [List.nodup_cons] at hn
    have := ih (w :: seen) t hn.2 (by
      intro x hx hm
      rcases List.mem_cons.1 hm with rfl | hm
      · exact hn.1 hx
      · exact hs x (List.mem_cons_of_mem _ hx) hm)
    simp only [List.cons_append, process, actionFor, List.find?_nil, if_neg (hs w List.mem_cons_self), this,
      List.reverse_cons, List.append_assoc, List.nil_append]

private theorem missingWarning_inj {k l : ℤ} (hk : k ∈ ([1, 2, 3] : List ℤ)) (hl : l ∈ ([1, 2, 3] : List ℤ))
    (h : missingWarning d k = missingWarning d l) : k = l := by
  have h := congrArg Warning.message h
  simp only [missingWarning] at h
  have h' := congrArg String.toList h
  simp only [String.toList_append, List.append_cancel_left_eq] at h'
  simp only [List.mem_cons, List.not_mem_nil, or_false] at hk hl
  rcases hk with rfl | rfl | rfl <;> rcases hl with rfl | rfl | rfl <;> first | rfl | exact absurd h' (by decide)

/-- C109: with the default filters of Python each warning is shown once: first that about the reference
subsystem, then those about the subsystems without chains in ascending order. -/
theorem C109_default (hd : Standard b.decay) (h0 : NonnegSpins b.decay) (h : b.formulate reference cl uc = .ok m) :
    process [] [] (b.formulateW reference cl uc).warnings =
      (referenceWarnings b.decay reference ++ missingWarnings b, false) := by
  classical
  obtain ⟨N, hN, hw⟩ := C109_warnings hd h0 h
  have hpos := pos_of_prod hd h0 hN
  obtain ⟨n, rfl⟩ : ∃ n, N = n + 1 := ⟨N - 1, by omega⟩
  rw [hw, List.replicate_succ, List.flatten_cons, ← List.append_assoc, List.append_assoc _ _ (referenceWarnings _ _)]
  have hM : (missingWarnings b).Nodup := by
    unfold missingWarnings
    split
    · refine List.Nodup.map_on ?_ (List.Nodup.filter _ (by decide))
      intro k hk l hl e
      exact missingWarning_inj (List.mem_filter.1 hk).1 (List.mem_filter.1 hl).1 e
    · exact List.nodup_nil
  have hR : (referenceWarnings b.decay reference).Nodup := by
    unfold referenceWarnings
    cases reference with
    | none => simp
    | some r => by_cases hr : HasSubsystem b.decay r <;> simp [hr]
  have hdis : (referenceWarnings b.decay reference).Disjoint (missingWarnings b) := by
    intro w h1 h2
    unfold referenceWarnings at h1
    unfold missingWarnings at h2
    obtain ⟨r, -, rfl⟩ := List.mem_map.1 h1
    split at h2
    · obtain ⟨k, -, e⟩ := List.mem_map.1 h2
      exact absurd (congrArg Warning.module e) (by simp [missingWarning, referenceWarning])
    · cases h2
  rw [process_new _ _ _ (hR.append hM hdis) (by simp), process_seen]
  · simp
  · intro w hw
    simp only [List.reverse_append, List.append_nil, List.mem_append, List.mem_reverse]
    rcases List.mem_append.1 hw with hw | hw
    · obtain ⟨l, hl, hw⟩ := List.mem_flatten.1 hw
      rw [(List.mem_replicate.1 hl).2] at hw
      exact .inl hw
    · exact .inr hw

/-! ### Example: chains in the subsystems 1 and 2 only -/

theorem exDecay_no3 : ¬ HasSubsystem exDecay 3 := by
  rintro ⟨c, hc, h⟩
  simp only [exDecay, List.mem_cons, List.not_mem_nil, or_false] at hc
  rcases hc with rfl | rfl <;> exact absurd h (by decide)

theorem exDecay_has1 : HasSubsystem exDecay 1 := ⟨exChainK, by simp [exDecay], rfl⟩

theorem exDecay_has2 : HasSubsystem exDecay 2 := ⟨exChainL, by simp [exDecay], rfl⟩

theorem exBuilder_any (p q a : Bool) (cl uc : Bool) {r : ℤ} (hr : r ∈ ([1, 2, 3] : List ℤ)) :
    ∃ m, (exBuilder p q a).formulate (some r) cl uc = .ok m := by
  obtain ⟨P, h, -⟩ := formulate_ok (b := exBuilder p q a) (reference := some r) (ref := r)
    exDecay_standard (exBuilder_lineshapes p q a) rfl hr cl uc (by
      rw [missing_iff (b := exBuilder p q a) exDecay_standard]
      rintro ⟨-, c, hc, h⟩
      exact h (exBuilder_ls p q a hc))
  exact ⟨_, h⟩

/-- The text of a warning. -/
example : (missingWarning exDecay 3).message = "Decay Lc → 1: p, 2: pi, 3: K only has subsystems 1, 2, not 3" := by
  classical
  have : existingText exDecay = "1, 2" := by
    simp only [existingText, List.zip_cons_cons, List.zip_nil_right, List.filter_cons, List.filter_nil, exDecay_has1,
      exDecay_has2, exDecay_no3, decide_true, decide_false, if_true, Bool.false_eq_true, if_false, List.map_cons,
      List.map_nil]
    rfl
  simp only [missingWarning, this]
  decide +kernel

/-- With reference subsystem 3 and all subsystems, two warnings are shown. -/
example : process [] [] ((exBuilder true true true).formulateW (some 3) false false).warnings =
    ([referenceWarning exDecay 3, missingWarning exDecay 3], false) := by
  classical
  obtain ⟨m, hm⟩ := exBuilder_any true true true false false (r := 3) (by simp)
  rw [C109_default (b := exBuilder true true true) exDecay_standard exDecay_nonneg hm]
  simp [referenceWarnings, missingWarnings, exBuilder, exDecay_no3, exDecay_has1, exDecay_has2]

/-- After muting only the first remains. -/
example : process (muteAmpformWarnings []) [] ((exBuilder true true true).formulateW (some 3) false false).warnings =
    ([referenceWarning exDecay 3], false) := by
  obtain ⟨m, hm⟩ := exBuilder_any true true true false false (r := 3) (by simp)
  exact (C109_reference_not_muted (b := exBuilder true true true) exDecay_standard exDecay_nonneg exDecay_no3 hm []).2

/-- With reference subsystem 1 and only the existing subsystems there are none. -/
example : ((exBuilder true true false).formulateW (some 1) false false).warnings = [] := by
  obtain ⟨m, hm⟩ := exBuilder_any true true false false false (r := 1) (by simp)
  rw [C109_silent (b := exBuilder true true false) exDecay_standard exDecay_nonneg hm]
  exact ⟨by rintro r ⟨⟩; exact exDecay_has1, by simp [exBuilder]⟩

end Verif.ThreeBody
