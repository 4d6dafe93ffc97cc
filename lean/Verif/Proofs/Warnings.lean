import Verif.Spec.Warnings
import Verif.Props.Spin
import Verif.Props.Decay
import Verif.Proofs.Formulate
import Verif.Proofs.QrulesReturns
import Mathlib.Data.List.Sort

/-! Lemmas about the model of warnings. -/
namespace Verif.ThreeBody
open Verif Verif.Spec Verif.Spin

theorem Warned.bind_result {α β : Type} (x : Warned α) (f : α → Warned β) :
    (x >>= f).result = x.result >>= fun a => (f a).result := by
  rcases x with ⟨ws, _ | a⟩ <;> rfl

theorem Warned.pure_result {α : Type} (a : α) : (pure a : Warned α).result = .ok a := rfl
theorem Warned.pure_warnings {α : Type} (a : α) : (pure a : Warned α).warnings = [] := rfl
theorem Warned.lift_result {α : Type} (x : Py α) : (Warned.lift x).result = x := rfl
theorem Warned.lift_warnings {α : Type} (x : Py α) : (Warned.lift x).warnings = [] := rfl

/-- Warnings of a sequence that succeeds. -/
theorem Warned.bind_ok {α β : Type} {x : Warned α} {f : α → Warned β} {b : β} (h : (x >>= f).result = .ok b) :
    ∃ a, x.result = .ok a ∧ (f a).result = .ok b ∧ (x >>= f).warnings = x.warnings ++ (f a).warnings := by
  rcases x with ⟨ws, _ | a⟩
  · cases h
  · exact ⟨a, rfl, h, rfl⟩

theorem Warned.lift_bind_warnings {α β : Type} {x : Py α} {f : α → Warned β} {b : β}
    (h : (Warned.lift x >>= f).result = .ok b) :
    ∃ a, x = .ok a ∧ (f a).result = .ok b ∧ (Warned.lift x >>= f).warnings = (f a).warnings := by
  obtain ⟨a, h1, h2, h3⟩ := Warned.bind_ok h
  exact ⟨a, h1, h2, by rw [h3]; rfl⟩

/-- All warnings satisfy `P`. -/
def Warned.All {α : Type} (P : Warning → Prop) (x : Warned α) : Prop := ∀ w ∈ x.warnings, P w

theorem Warned.All.bind {α β : Type} {P : Warning → Prop} {x : Warned α} {f : α → Warned β} (hx : x.All P)
    (hf : ∀ a, x.result = .ok a → (f a).All P) : (x >>= f).All P := by
  rcases x with ⟨ws, e | a⟩
  · exact hx
  · intro w hw
    rcases List.mem_append.1 hw with hw | hw
    · exact hx w hw
    · exact hf a rfl w hw

theorem Warned.All.lift {α : Type} {P : Warning → Prop} (x : Py α) : (Warned.lift x).All P := by
  intro w hw; cases hw

theorem Warned.All.pure {α : Type} {P : Warning → Prop} (a : α) : (Pure.pure a : Warned α).All P := by
  intro w hw; cases hw

variable {d : Decay} {b : Builder}

theorem mem_subsystemIds (d : Decay) (k : ℤ) : k ∈ d.subsystemIds ↔ HasSubsystem d k := by
  rw [Decay.subsystemIds, sortedSet_mem, List.mem_map]; rfl

theorem ofItems_index (l : PyDict ℤ State) (h : (PyDict.keys l).Nodup) : PyDict.ofItems l = l := by
  have key : ∀ (l acc : PyDict ℤ State), (PyDict.keys (acc ++ l)).Nodup → PyDict.update acc l = acc ++ l := by
    intro l
    induction l with
    | nil => intro acc _; simp [PyDict.update]
    | cons x t ih =>
      intro acc hn
      have hset : PyDict.set acc x.1 x.2 = acc ++ [x] := by
        have hx : x.1 ∉ PyDict.keys acc := by
          simp only [PyDict.keys, List.map_append, List.map_cons, List.nodup_append, List.mem_map,
            List.mem_cons] at hn ⊢
          intro hm
          exact hn.2.2 _ hm _ (.inl rfl) rfl
        clear hn ih
        induction acc with
        | nil => rfl
        | cons y s ihs =>
          have h1 : y.1 ≠ x.1 := fun e => hx (by simp [PyDict.keys, e])
          have h2 : x.1 ∉ PyDict.keys s := fun e => hx (by simp only [PyDict.keys, List.map_cons] at e ⊢; exact List.mem_cons_of_mem _ e)
          simp only [PyDict.set, if_neg h1, List.cons_append, ihs h2]
      have : PyDict.update acc (x :: t) = PyDict.update (PyDict.set acc x.1 x.2) t := rfl
      rw [this, hset, ih (acc ++ [x]) (by simpa using hn)]
      simp
  exact key l [] h

theorem finalStateDict_eq (hd : Standard d) : finalStateDict d.states = d.states.filter (·.1 ≠ 0) := by
  have hl : ∀ l : PyDict ℤ State, (∀ x ∈ l, x.2.index = x.1) →
      (((l.map Prod.snd).filter (·.index ≠ 0)).map fun s => (s.index, s)) = l.filter (·.1 ≠ 0) := by
    intro l
    induction l with
    | nil => intro _; rfl
    | cons x t ih =>
      intro h
      have hx := h x List.mem_cons_self
      have ih := ih fun y hy => h y (List.mem_cons_of_mem _ hy)
      by_cases h0 : x.1 = 0
      · simp only [List.map_cons, List.filter_cons, hx, h0, ne_eq, not_true, decide_false]
        exact ih
      · simp only [List.map_cons, List.filter_cons, hx, ne_eq, h0, not_false_eq_true, decide_true, if_true,
          List.map_cons]
        refine List.cons_eq_cons.2 ⟨Prod.ext rfl rfl, ?_⟩
        simpa using ih
  unfold finalStateDict
  rw [hl _ hd.index]
  refine ofItems_index _ ?_
  exact (Standard.nodup hd).sublist (List.Sublist.map _ List.filter_sublist)

theorem decayDescription_eq (hd : Standard d) : decayDescription d = .ok (decayText d) := by
  unfold decayDescription
  rw [Standard.init hd, finalStateDict_eq hd]
  rfl

theorem subsystemText_eq (hd : Standard d) : subsystemText d = existingText d := by
  classical
  have h3 : d.subsystemIds = ([1, 2, 3] : List ℤ).filter fun k => HasSubsystem d k := by
    refine Qrules.sortedSet_eq ?_ ?_
    · exact List.Pairwise.sublist List.filter_sublist (by decide)
    · intro k
      constructor
      · intro h
        refine List.mem_filter.2 ⟨Standard.subsystem hd h, ?_⟩
        simpa using (mem_subsystemIds d k).1 h
      · intro h
        exact (mem_subsystemIds d k).2 (by simpa using (List.mem_filter.1 h).2)
  unfold subsystemText existingText
  rw [h3]
  by_cases h1 : HasSubsystem d 1 <;> by_cases h2 : HasSubsystem d 2 <;> by_cases h3 : HasSubsystem d 3 <;>
    simp only [h1, h2, h3, List.filter_cons, List.filter_nil, decide_true, decide_false, if_true, List.zip_cons_cons,
      List.zip_nil_right, List.map_cons, List.map_nil, Bool.false_eq_true, if_false] <;>
    exact congrArg _ (List.mergeSort_eq_self (r := fun a b : String => a ≤ b) (by decide +kernel))

theorem getSubsystemW_eq (hd : Standard d) (k : ℤ) :
    (HasSubsystem d k → d.getSubsystemW k = ⟨[], .ok ⟨d.states, d.chains.filter (fun c => c.spectator.index = k)⟩⟩) ∧
    (¬ HasSubsystem d k → d.getSubsystemW k = ⟨[missingWarning d k],
      .ok ⟨d.states, d.chains.filter (fun c => c.spectator.index = k)⟩⟩) := by
  have hn := decayNew_filter hd.valid.1 (fun c => decide (c.spectator.index = k))
  have he : (d.chains.filter (fun c => decide (c.spectator.index = k))).isEmpty = true ↔ ¬ HasSubsystem d k := by
    rw [List.isEmpty_iff, List.filter_eq_nil_iff]
    simp [HasSubsystem]
  unfold Decay.getSubsystemW
  constructor
  · intro h
    rw [if_neg (fun h' => he.1 h' h), hn]
    rfl
  · intro h
    rw [if_pos (he.2 h), hn, decayDescription_eq hd, subsystemText_eq hd]
    rfl

theorem getSubsystemW_result (hd : Standard d) (k : ℤ) :
    (d.getSubsystemW k).result = (d.getSubsystem k).map Prod.fst := by
  rw [getSubsystem_eq hd.valid]
  by_cases h : HasSubsystem d k
  · rw [(getSubsystemW_eq hd k).1 h]; rfl
  · rw [(getSubsystemW_eq hd k).2 h]; rfl

theorem countLoop_eq (hd : Standard d) : ∀ l : List ℤ, (∀ k ∈ l, HasSubsystem d k) →
    countLoop d l = ⟨[], .ok (l.map fun k => (k, chainCount d k))⟩
  | [], _ => rfl
  | k :: t, h => by
    unfold countLoop
    rw [(getSubsystemW_eq hd k).1 (h k List.mem_cons_self), countLoop_eq hd t fun x hx => h x (List.mem_cons_of_mem _ hx)]
    rfl

theorem bestReferenceW_eq (hd : Standard d) : d.bestReferenceW = .lift d.bestReference := by
  unfold Decay.bestReferenceW Decay.bestReference bestReferenceFrom
  split
  · rfl
  · rw [countLoop_eq hd _ fun k hk => (mem_subsystemIds d k).1 hk,
      mapM_ok _ (fun k => (k, chainCount d k)) _ (by intro k _; rw [getSubsystem_eq hd.valid]; rfl)]
    simp only [bind, Except.bind, List.nil_append]
    cases maxBySnd (d.subsystemIds.map fun k => (k, chainCount d k)) <;> rfl

theorem checkReferenceW_eq (hd : Standard d) (r : ℤ) :
    d.checkReferenceW r = ⟨referenceWarnings d (some r), .ok ()⟩ := by
  classical
  unfold Decay.checkReferenceW referenceWarnings
  by_cases h : HasSubsystem d r
  · rw [if_neg (by simpa [mem_subsystemIds] using h)]
    simp [h, Warned.lift]
  · rw [if_pos (by simpa [mem_subsystemIds] using h), decayDescription_eq hd, subsystemText_eq hd]
    simp only [Option.toList_some, List.filter_cons, h, not_false_eq_true, decide_true, if_true, List.filter_nil,
      List.map_cons, List.map_nil, referenceWarning]
    have : ∀ x y z : String, x ++ ". Are you" ++ " sure you want to use subsystem " ++ y ++ z =
        x ++ ". Are you sure you want to use subsystem " ++ y ++ z := by
      intro x y z
      rw [String.append_assoc (s₁ := x)]
      rfl
    simp only [warn, bind, Warned.lift, List.nil_append, this]

theorem referenceW_eq (hd : Standard d) (reference : Option ℤ) :
    d.referenceW reference = ⟨referenceWarnings d reference,
      match reference with
      | none => d.bestReference
      | some r => .ok r⟩ := by
  cases reference with
  | none => simp only [Decay.referenceW, bestReferenceW_eq hd]; rfl
  | some r =>
    simp only [Decay.referenceW, checkReferenceW_eq hd]
    simp [bind, pure, Warned.lift]

theorem subsystemAmplitudeW_result (hd : Standard b.decay) (l0 l1 l2 l3 : ℚ) (k : ℤ) (uc : Bool) :
    (b.subsystemAmplitudeW l0 l1 l2 l3 k uc).result = b.subsystemAmplitude l0 l1 l2 l3 k uc := by
  unfold Builder.subsystemAmplitudeW Builder.subsystemAmplitude
  simp only [Warned.bind_result, Warned.lift_result, Warned.pure_result, getSubsystemW_result hd,
    getSubsystem_eq hd.valid]
  rfl

theorem subsystemLoopW_result (hd : Standard b.decay) (uc : Bool) :
    ∀ (l : List ((ℚ × ℚ × ℚ × ℚ) × ℤ)) (acc : Acc), (subsystemLoopW b uc l acc).result = subsystemLoop b uc l acc
  | [], _ => rfl
  | (l, k) :: t, acc => by
    unfold subsystemLoopW subsystemLoop
    simp only [Warned.bind_result, subsystemAmplitudeW_result hd, subsystemLoopW_result hd uc t]

open Classical in
/-- The warnings for one subsystem. -/
noncomputable def missingOne (d : Decay) (k : ℤ) : List Warning :=
  if HasSubsystem d k then [] else [missingWarning d k]

theorem subsystemAmplitudeW_all {P : Warning → Prop} (hd : Standard b.decay) (l0 l1 l2 l3 : ℚ) (k : ℤ) (uc : Bool)
    (hP : ∀ w ∈ missingOne b.decay k, P w) : (b.subsystemAmplitudeW l0 l1 l2 l3 k uc).All P := by
  unfold Builder.subsystemAmplitudeW
  refine .bind (.lift _) fun _ _ => .bind (.lift _) fun _ _ => .bind (.lift _) fun _ _ => .bind (.lift _) fun _ _ =>
    .bind (.lift _) fun _ _ => .bind (.lift _) fun _ _ => .bind ?_ fun _ _ => .bind (.lift _) fun _ _ => .pure _
  unfold missingOne at hP
  by_cases h : HasSubsystem b.decay k
  · rw [(getSubsystemW_eq hd k).1 h]; intro w hw; cases hw
  · rw [(getSubsystemW_eq hd k).2 h]
    rw [if_neg h] at hP
    exact hP

theorem subsystemAmplitudeW_warnings (hd : Standard b.decay) {l0 l1 l2 l3 : ℚ} {k : ℤ} {uc : Bool}
    {m : AmplitudeModel} (h : (b.subsystemAmplitudeW l0 l1 l2 l3 k uc).result = .ok m) :
    (b.subsystemAmplitudeW l0 l1 l2 l3 k uc).warnings = missingOne b.decay k := by
  unfold Builder.subsystemAmplitudeW at h ⊢
  obtain ⟨_, -, h, e1⟩ := Warned.lift_bind_warnings h
  obtain ⟨_, -, h, e2⟩ := Warned.lift_bind_warnings h
  obtain ⟨_, -, h, e3⟩ := Warned.lift_bind_warnings h
  obtain ⟨_, -, h, e4⟩ := Warned.lift_bind_warnings h
  obtain ⟨_, -, h, e5⟩ := Warned.lift_bind_warnings h
  obtain ⟨_, -, h, e6⟩ := Warned.lift_bind_warnings h
  obtain ⟨_, -, h, e7⟩ := Warned.bind_ok h
  obtain ⟨_, -, h, e8⟩ := Warned.lift_bind_warnings h
  rw [e1, e2, e3, e4, e5, e6, e7, e8, Warned.pure_warnings, List.append_nil]
  unfold missingOne
  by_cases hk : HasSubsystem b.decay k
  · rw [(getSubsystemW_eq hd k).1 hk, if_pos hk]
  · rw [(getSubsystemW_eq hd k).2 hk, if_neg hk]

theorem subsystemLoopW_all {P : Warning → Prop} (hd : Standard b.decay) (uc : Bool) :
    ∀ (l : List ((ℚ × ℚ × ℚ × ℚ) × ℤ)) (acc : Acc), (∀ x ∈ l, ∀ w ∈ missingOne b.decay x.2, P w) →
      (subsystemLoopW b uc l acc).All P
  | [], _, _ => .lift _
  | (l, k) :: t, acc, h => by
    unfold subsystemLoopW
    exact .bind (subsystemAmplitudeW_all hd _ _ _ _ _ _ (h _ List.mem_cons_self)) fun _ _ =>
      subsystemLoopW_all hd uc t _ fun x hx => h x (List.mem_cons_of_mem _ hx)

theorem subsystemLoopW_warnings (hd : Standard b.decay) (uc : Bool) :
    ∀ (l : List ((ℚ × ℚ × ℚ × ℚ) × ℤ)) (acc : Acc) {r : Acc}, (subsystemLoopW b uc l acc).result = .ok r →
      (subsystemLoopW b uc l acc).warnings = l.flatMap fun x => missingOne b.decay x.2
  | [], _, _, _ => rfl
  | (l, k) :: t, acc, r, h => by
    unfold subsystemLoopW at h ⊢
    obtain ⟨a, h1, h2, e⟩ := Warned.bind_ok h
    rw [e, subsystemAmplitudeW_warnings hd h1, subsystemLoopW_warnings hd uc t _ h2, List.flatMap_cons]

theorem product_missing (hd : Standard b.decay) {α : Type} (l : List α) :
    ((l.product b.subsystems).flatMap fun x => missingOne b.decay x.2) =
      (List.replicate l.length (missingWarnings b)).flatten := by
  classical
  have h1 : b.subsystems.flatMap (missingOne b.decay) = missingWarnings b := by
    unfold Builder.subsystems missingWarnings
    split
    · simp only [missingOne, List.flatMap_cons, List.flatMap_nil, List.filter_cons, List.filter_nil]
      by_cases h1 : HasSubsystem b.decay 1 <;> by_cases h2 : HasSubsystem b.decay 2 <;>
        by_cases h3 : HasSubsystem b.decay 3 <;> simp [h1, h2, h3]
    · rw [List.flatMap_eq_nil_iff]
      intro k hk
      rw [missingOne, if_pos ((mem_subsystemIds _ _).1 hk)]
  induction l with
  | nil => rfl
  | cons a t ih =>
    rw [show (a :: t).product b.subsystems = b.subsystems.map (fun k => (a, k)) ++ t.product b.subsystems from rfl,
      List.flatMap_append, ih, List.length_cons, List.replicate_succ, List.flatten_cons, ← h1]
    congr 1
    rw [List.flatMap_map]

theorem alignedAmplitudeW_eq (hd : Standard b.decay) (h : ℤ → Hel) (r : ℤ) :
    b.alignedAmplitudeW h (some r) = ⟨referenceWarnings b.decay (some r), b.alignedAmplitude h r⟩ := by
  unfold Builder.alignedAmplitudeW
  rw [referenceW_eq hd]
  simp [bind, Warned.lift]

theorem formulateW_result (hd : Standard b.decay) (reference : Option ℤ) (cl uc : Bool) :
    (b.formulateW reference cl uc).result = b.formulate reference cl uc := by
  unfold Builder.formulateW Builder.formulate
  simp only [Warned.bind_result, Warned.lift_result, Warned.pure_result, subsystemLoopW_result hd,
    referenceW_eq hd, alignedAmplitudeW_eq hd]
  cases reference <;> rfl

theorem formulateW_warnings (hd : Standard b.decay) {reference : Option ℤ} {cl uc : Bool} {m : AmplitudeModel}
    (h : (b.formulateW reference cl uc).result = .ok m) :
    (b.formulateW reference cl uc).warnings = referenceWarnings b.decay reference ++
      (List.replicate (helicityTuples (spins b.decay)).length (missingWarnings b)).flatten ++
      referenceWarnings b.decay reference := by
  have href : ∀ r, b.decay.bestReference = .ok r → referenceWarnings b.decay (some r) = [] := by
    classical
    intro r hr
    have := (C21_best_reference_any_order hd.valid (List.Perm.refl _)).1 r hr
    simp [referenceWarnings, (mem_subsystemIds _ _).1 this.1]
  unfold Builder.formulateW at h ⊢
  rw [referenceW_eq hd] at h ⊢
  obtain ⟨r, h0, h, e0⟩ := Warned.bind_ok h
  obtain ⟨s0, hs0, h, e1⟩ := Warned.lift_bind_warnings h
  obtain ⟨s1, hs1, h, e2⟩ := Warned.lift_bind_warnings h
  obtain ⟨s2, hs2, h, e3⟩ := Warned.lift_bind_warnings h
  obtain ⟨s3, hs3, h, e4⟩ := Warned.lift_bind_warnings h
  rw [e0, e1, e2, e3, e4]
  obtain ⟨acc, hacc, h, e5⟩ := Warned.bind_ok h
  rw [e5, subsystemLoopW_warnings hd uc _ _ hacc, product_missing hd]
  rw [alignedAmplitudeW_eq hd] at h ⊢
  obtain ⟨al, hal, h, e6⟩ := Warned.bind_ok h
  obtain ⟨ms, hms, h, e7⟩ := Warned.lift_bind_warnings h
  obtain ⟨inv, hinv, h, e8⟩ := Warned.lift_bind_warnings h
  rw [e6, e7, e8, Warned.pure_warnings, List.append_nil]
  have hs : tup s0.spin s1.spin s2.spin s3.spin = spins b.decay := by
    rw [Standard.get hd (by simp)] at hs0 hs1 hs2 hs3
    cases hs0; cases hs1; cases hs2; cases hs3
    rfl
  rw [hs, List.append_assoc]
  congr 2
  cases reference with
  | some r' => cases h0; rfl
  | none => rw [href r h0]; rfl

theorem formulateW_all (hd : Standard b.decay) (reference : Option ℤ) (cl uc : Bool) :
    ∀ w ∈ (b.formulateW reference cl uc).warnings,
      w ∈ referenceWarnings b.decay reference ∨ w ∈ missingWarnings b := by
  have href : ∀ r, b.decay.bestReference = .ok r → referenceWarnings b.decay (some r) = [] := by
    classical
    intro r hr
    have := (C21_best_reference_any_order hd.valid (List.Perm.refl _)).1 r hr
    simp [referenceWarnings, (mem_subsystemIds _ _).1 this.1]
  have key : (b.formulateW reference cl uc).All fun w =>
      w ∈ referenceWarnings b.decay reference ∨ w ∈ missingWarnings b := by
    unfold Builder.formulateW
    rw [referenceW_eq hd]
    refine .bind (fun w hw => .inl hw) fun r hr => .bind (.lift _) fun _ _ => .bind (.lift _) fun _ _ =>
      .bind (.lift _) fun _ _ => .bind (.lift _) fun _ _ => .bind ?_ fun _ _ => .bind ?_ fun _ _ =>
      .bind (.lift _) fun _ _ => .bind (.lift _) fun _ _ => .pure _
    · refine subsystemLoopW_all hd uc _ _ fun x hx w hw => .inr ?_
      have : w ∈ ([x].flatMap fun y => missingOne b.decay y.2) := by simpa using hw
      have h2 := product_missing hd [x.1]
      have h3 : x.2 ∈ b.subsystems := (List.mem_product.1 hx).2
      have h4 : w ∈ (([x.1].product b.subsystems).flatMap fun x => missingOne b.decay x.2) :=
        List.mem_flatMap.2 ⟨x, List.mem_product.2 ⟨by simp, h3⟩, hw⟩
      rw [h2] at h4
      simpa using h4
    · rw [alignedAmplitudeW_eq hd]
      intro w hw
      cases reference with
      | some r' => cases hr; exact .inl hw
      | none => rw [href r hr] at hw; cases hw
  exact key

end Verif.ThreeBody
