import Verif.Spec.QrulesIterables
import Verif.Props.QrulesMinLs

/-!
Property C123: iterators as arguments.
-/
namespace Verif.Qrules
open Verif Verif.ThreeBody

theorem calls_fixed {α β : Type} {f : Iterable α → Py β × Iterable α} {x : Iterable α} (h : (f x).2 = x) (n : ℕ) :
    calls f n x = List.replicate n (f x).1 := by
  induction n with
  | zero => rfl
  | succ n ih => rw [calls, h, ih, List.replicate_succ]

/-- C123: calls with a sequence do not depend on earlier calls with the same sequence. -/
theorem C123_sequence (ts : List (Transition QObj QNode)) (minLs : MinLsArg) (n : ℕ) :
    calls (fun x => toThreeBodyDecayI x minLs) n (.sequence ts) = List.replicate n (toThreeBodyDecay ts minLs) ∧
    calls convertTransitionsI n (.sequence ts) = List.replicate n (convertTransitions ts) :=
  ⟨calls_fixed rfl n, calls_fixed rfl n⟩

/-- C123: `to_three_body_decay` gives the same for an iterator as for the sequence of its elements; all
later calls with that iterator raise `ValueError`. -/
theorem C123_decay (ts : List (Transition QObj QNode)) (minLs : MinLsArg) (n : ℕ) :
    calls (fun x => toThreeBodyDecayI x minLs) (n + 1) (.iterator ts) =
      toThreeBodyDecay ts minLs :: List.replicate n (.error .valueError) := by
  rw [calls]
  congr 1
  exact calls_fixed rfl n

theorem dropWhile_all {α : Type} {p : α → Bool} {l : List α} (h : ∀ x ∈ l, p x = true) : l.dropWhile p = [] := by
  induction l with
  | nil => rfl
  | cons x xs ih => rw [List.dropWhile_cons_of_pos (h x (.head _)), ih fun y hy => h y (.tail _ hy)]

theorem convert_nil : convertTransitions [] = .ok [] := by
  unfold convertTransitions pySorted
  simp [pySet]

theorem mapM_error {α β : Type} {f : α → Py β} {pre post : List α} {t : α} {e : PyErr}
    (h : ∀ x ∈ pre, ∃ u, f x = .ok u) (ht : f t = .error e) : (pre ++ t :: post).mapM f = .error e := by
  induction pre with
  | nil =>
    rw [List.nil_append, List.mapM_cons, ht]
    rfl
  | cons x xs ih =>
    obtain ⟨u, hu⟩ := h x (.head _)
    rw [List.cons_append, List.mapM_cons, hu, ih fun t ht => h t (.tail _ ht)]
    rfl

/-- C123: so does `convert_transitions`; if all transitions can be converted, later calls return an empty
tuple. -/
theorem C123_convert (ts : List (Transition QObj QNode)) (h : ∀ t ∈ ts, ∃ u, convertTransition t = .ok u) (n : ℕ) :
    calls convertTransitionsI (n + 1) (.iterator ts) = convertTransitions ts :: List.replicate n (.ok []) := by
  rw [calls]
  congr 1
  have : (convertTransitionsI (.iterator ts)).2 = .iterator [] := by
    change Iterable.iterator _ = _
    rw [dropWhile_all]
    · rfl
    intro t ht
    obtain ⟨u, hu⟩ := h t ht
    rw [hu]
    rfl
  rw [this, calls_fixed (f := convertTransitionsI) (x := .iterator []) rfl n]
  exact congrArg (List.replicate n) convert_nil

/-- C123: after an exception, the next call of `convert_transitions` with the same iterator only sees the
transitions after the one that could not be converted. -/
theorem C123_convert_resumes {pre post : List (Transition QObj QNode)} {t : Transition QObj QNode}
    (h : ∀ t ∈ pre, ∃ u, convertTransition t = .ok u) {e : PyErr} (ht : convertTransition t = .error e) :
    calls convertTransitionsI 2 (.iterator (pre ++ t :: post)) = [.error e, convertTransitions post] := by
  have h2 : (convertTransitionsI (.iterator (pre ++ t :: post))).2 = .iterator post := by
    change Iterable.iterator _ = _
    rw [List.dropWhile_append_of_pos, List.dropWhile_cons_of_neg]
    · rfl
    · rw [ht]
      exact Bool.false_ne_true
    · intro t ht
      obtain ⟨u, hu⟩ := h t ht
      rw [hu]
      rfl
  have h1 : convertTransitions (pre ++ t :: post) = .error e := by
    unfold convertTransitions
    rw [mapM_error h ht]
    rfl
  rw [calls, calls, calls, h2]
  change [convertTransitions (pre ++ t :: post), convertTransitions post] = _
  rw [h1]

variable {E : Type} [DecidableEq E]

/-- With a sequence, all three loops see the same transitions. -/
theorem filter_sequence (ts : List (Transition E (Option LS))) (nodeIds : Option (List ℤ)) :
    filterMinLsI (.sequence ts) nodeIds = (filterMinLs ts nodeIds, .sequence ts) := by
  unfold filterMinLsI filterMinLs
  cases hs : setEq (ts.flatMap fun t => PyDict.keys t.interactions) [0, 1]
  · simp only [Iterable.items, Iterable.after, hs, Bool.false_eq_true, not_false_eq_true, if_true]
  · cases h : ts.mapM Transition.intermediateStates with
    | error e =>
      simp only [Iterable.items, Iterable.after, Iterable.afterFirst, hs, h, not_true_eq_false, if_false]
      rfl
    | ok s =>
      cases ha : s.any fun x => decide (x.length ≠ 1) <;>
      · simp only [Iterable.items, Iterable.after, Iterable.afterFirst, hs, h, ha, not_true_eq_false, if_false,
          if_true, Bool.false_eq_true, bind, Except.bind]

/-- C123: calls of `filter_min_ls` with a sequence do not depend on earlier calls with the same sequence. -/
theorem C123_filter_sequence (ts : List (Transition E (Option LS))) (nodeIds : Option (List ℤ)) (n : ℕ) :
    calls (fun x => filterMinLsI x nodeIds) n (.sequence ts) = List.replicate n (filterMinLs ts nodeIds) := by
  rw [calls_fixed] <;> simp only [filter_sequence]

/-- With an iterator, only the first loop sees the transitions. -/
theorem filter_iterator (ts : List (Transition E (Option LS))) (nodeIds : Option (List ℤ)) :
    filterMinLsI (.iterator ts) nodeIds =
      (if setEq (ts.flatMap fun t => PyDict.keys t.interactions) [0, 1] then .ok [] else .error .valueError, .iterator []) := by
  unfold filterMinLsI
  cases hs : setEq (ts.flatMap fun t => PyDict.keys t.interactions) [0, 1]
  · simp only [Iterable.items, Iterable.after, hs, Bool.false_eq_true, not_false_eq_true, if_true, if_false]
  · simp only [Iterable.items, Iterable.after, hs, not_true_eq_false, if_true, if_false]
    rfl

/-- C123 (full statement: `filter_min_ls` gives the same for an iterator as for the sequence of its elements).
What is missing: the transitions have to have other node IDs than 0 and 1, so that both raise `ValueError`. -/
theorem C123_filter_partial (ts : List (Transition E (Option LS))) (nodeIds : Option (List ℤ))
    (h : ¬ ∀ i, (∃ t ∈ ts, i ∈ PyDict.keys t.interactions) ↔ i = 0 ∨ i = 1) :
    (filterMinLsI (.iterator ts) nodeIds).1 = (filterMinLsI (.sequence ts) nodeIds).1 := by
  rw [filter_sequence, C46_node_ids_error ts nodeIds h, filter_iterator, if_neg]
  rw [setEq_iff]
  simpa using h

/-- C123: in all other cases the statement is false, and there is no exception: for an iterator over any
transitions with one resonance, `filter_min_ls` returns an empty tuple, although it does not for the same
transitions in a sequence. -/
theorem C123_filter_fails (ts : List (Transition E (Option LS))) (nodeIds : Option (List ℤ)) (sel : List ℤ)
    (hsel : sel = nodeIds.getD [0, 1]) (hts : ∀ t ∈ ts, ∃ r m n, OneResonance t r m n) (hne : ts ≠ [])
    (hk : (0 ∈ sel ∨ 1 ∈ sel) ∨ ∀ t ∈ ts, ∀ i, PyDict.get? t.interactions i ≠ some none) :
    (filterMinLsI (.iterator ts) nodeIds).1 = .ok [] ∧
    ∃ rs, (filterMinLsI (.sequence ts) nodeIds).1 = .ok rs ∧ rs ≠ [] := by
  obtain ⟨fs, rs, hr, hfs, hmin⟩ := C46_minimum_per_group_partial ts nodeIds sel hsel hts hne hk
  constructor
  · rw [filter_iterator, if_pos]
    by_contra h
    have : filterMinLs ts nodeIds = .error .valueError := by
      unfold filterMinLs
      simp only [h]
      rfl
    rw [hr] at this
    cases this
  · rw [filter_sequence]
    refine ⟨rs, hr, fun h => ?_⟩
    subst h
    cases hmin
    obtain ⟨t, ht⟩ := List.exists_mem_of_ne_nil ts hne
    obtain ⟨f, hf, -⟩ := hfs.all t ht
    cases hf

/-- Two transitions that differ in one coupling: one is returned for a list, none for a generator. -/
example (x y : LS) : (filterMinLsI (.iterator [exConv (some x) (some x), exConv (some y) (some x)]) none).1 = .ok [] ∧
    ∃ rs, (filterMinLsI (.sequence [exConv (some x) (some x), exConv (some y) (some x)]) none).1 = .ok rs ∧ rs ≠ [] :=
  C123_filter_fails _ none [0, 1] rfl (by
    intro t ht
    simp only [List.mem_cons, List.not_mem_nil, or_false] at ht
    rcases ht with rfl | rfl <;> exact ⟨3, 0, 1, exConv_oneResonance _ _⟩) (by simp) (.inl (.inl (by simp)))

/-- A transition with something else than a coupling at a node cannot be converted. -/
theorem exTransition_other : convertTransition (exTransition .other .none) = .error .notImplementedError := by
  have h := exTransition_convert none none
  unfold convertTransition at h ⊢
  revert h
  change Except.bind ?M _ = _ → Except.bind ?M _ = _
  cases ?M with
  | error e => intro h; cases h
  | ok s => intro _; rfl

/-- The example transition can be converted; a transition with something else at a node cannot. -/
example (x : LS) : calls convertTransitionsI 2 (.iterator [exTransition (.ls x) .none, exTransition .other .none,
    exTransition .none .none]) = [.error .notImplementedError, convertTransitions [exTransition .none .none]] :=
  C123_convert_resumes (pre := [exTransition (.ls x) .none]) (post := [exTransition .none .none])
    (by
      intro t ht
      simp only [List.mem_cons, List.not_mem_nil, or_false] at ht
      subst ht
      exact ⟨_, exTransition_convert (some x) none⟩) exTransition_other

end Verif.Qrules
