import Verif.Proofs.QrulesContainers
import Verif.Props.QrulesPermute

/-!
# C88: normalisation of the IDs commutes with the permutation of equal final states
-/
namespace Verif.Qrules
open Verif

/-- C88 for one transition: permuting the equal final states after normalisation of the IDs gives the
same list as normalising the IDs of each permuted transition, and raises the same error. -/
theorem C88_transition {N : Type} (t : Transition QObj N) (hv : Valid t) :
    ∃ t', normalizeTransition t = .ok t' ∧
      permuteEqualFinalStates t' = (permuteEqualFinalStates t >>= normalizeTransitions) := by
  refine ⟨normT t, normalizeTransition_eq t hv, ?_⟩
  rw [permute_normT t hv]
  cases h : permuteEqualFinalStates t with
  | error e => rfl
  | ok us =>
    symm
    show us.mapM normalizeTransition = .ok (us.map normT)
    rw [mapM_ok_iff, List.forall₂_map_right_iff, List.forall₂_same]
    exact fun u hu => normalizeTransition_eq u (permute_valid hv h u hu)

/-- C88 for iterables of transitions. -/
theorem C88_iterable {N : Type} (ts : List (Transition QObj N)) (hv : ∀ t ∈ ts, Valid t) :
    ∃ ts', normalizeTransitions ts = .ok ts' ∧
      permuteAll ts' = (permuteAll ts >>= normalizeTransitions) := by
  induction ts with
  | nil => exact ⟨[], rfl, rfl⟩
  | cons t ts ih =>
    obtain ⟨t', h1, h2⟩ := C88_transition t (hv t (.head _))
    obtain ⟨ts', h3, h4⟩ := ih fun u hu => hv u (.tail _ hu)
    refine ⟨t' :: ts', ?_, ?_⟩
    · unfold normalizeTransitions at h3 ⊢
      rw [List.mapM_cons, h1, h3]
      rfl
    · have hcons : ∀ (u : Transition QObj N) us, permuteAll (u :: us) = (do
          let a ← permuteEqualFinalStates u
          let b ← permuteAll us
          return a ++ b) := by
        intro u us
        unfold permuteAll
        rw [List.mapM_cons]
        cases permuteEqualFinalStates u with
        | error e => rfl
        | ok a => cases us.mapM permuteEqualFinalStates <;> rfl
      have happ : ∀ a b : List (Transition QObj N), normalizeTransitions (a ++ b) = (do
          let x ← normalizeTransitions a
          let y ← normalizeTransitions b
          return x ++ y) := by
        intro a b
        unfold normalizeTransitions
        rw [List.mapM_append]
      rw [hcons, hcons, h2, h4]
      cases ha : permuteEqualFinalStates t with
      | error e => rfl
      | ok a =>
        have hna : ∃ x, normalizeTransitions a = .ok x := by
          refine ⟨a.map normT, ?_⟩
          show a.mapM normalizeTransition = _
          rw [mapM_ok_iff, List.forall₂_map_right_iff, List.forall₂_same]
          exact fun u hu => normalizeTransition_eq u (permute_valid (hv t (.head _)) ha u hu)
        obtain ⟨x, hx⟩ := hna
        simp only [bind, Except.bind, hx]
        cases hb : permuteAll ts with
        | error e => rfl
        | ok b =>
          simp only [pure, Except.pure, happ, bind, Except.bind, hx]

/-- With two equal pions, IDs -1, ..., 3 and two permuted transitions. -/
example : ∃ t' us, normalizeTransition (exEqual "rho") = .ok t' ∧
    permuteEqualFinalStates (exEqual "rho") = .ok us ∧
    permuteEqualFinalStates t' = normalizeTransitions us ∧ 2 ≤ us.length ∧
    t'.topology.outgoing ≠ (exEqual "rho").topology.outgoing := by
  have hb := exEqual_threeBody "rho"
  obtain ⟨t', h1, h2⟩ := C88_transition (exEqual "rho") hb.valid
  obtain ⟨us, h3, hex, -⟩ := C48_orbit (exEqual "rho") _ _ _ _ _ hb
    (fun k => if k = 2 then "rho" else "pi0") (by
      rintro k (rfl | rfl | rfl)
      · exact ⟨_, _, rfl, rfl, rfl⟩
      · exact ⟨_, _, rfl, rfl, rfl⟩
      · exact ⟨_, _, rfl, rfl, rfl⟩)
  refine ⟨t', us, h1, h3, ?_, ?_, ?_⟩
  · rw [h2, h3]; rfl
  · obtain ⟨u, ⟨hu, hux⟩, -⟩ := hex 0 (.inl rfl) rfl
    obtain ⟨v, ⟨hv, hvx⟩, -⟩ := hex 1 (.inr (.inl rfl)) rfl
    have hne : u ≠ v := by
      rintro rfl
      have e1 := hux.edges 0
      have e2 := hvx.edges 0
      rw [e1] at e2
      simp [exEqual, exTopology, PyDict.get?_cons] at e2
    have : [u, v].Subperm us := by
      apply List.subperm_of_subset (by simp [hne])
      intro z hz
      simp only [List.mem_cons, List.not_mem_nil, or_false] at hz
      rcases hz with rfl | rfl <;> assumption
    simpa using this.length_le
  · have hv := hb.valid
    rw [normalizeTransition_eq _ hv] at h1
    injection h1 with h1
    intro h
    have h0 : (0 : ℤ) ∈ (exEqual "rho").topology.outgoing := (hb.outgoing_mem 0).2 (.inl rfl)
    rw [← h, ← h1] at h0
    have := select_normalize (exEqual "rho").topology hv.edges (fun e => e.dest.isNone)
    rw [show (normalizeTopology (exEqual "rho").topology).outgoing = _ from this, List.mem_map] at h0
    obtain ⟨k, hk, hk0⟩ := h0
    have hk' : k ∈ (exEqual "rho").topology.outgoing := hk
    have hk1 := outgoing_sub _ hk'
    have hneg : -1 < k := by
      rcases (hb.outgoing_mem k).1 hk' with rfl | rfl | rfl <;> decide
    have h2 := rank_lt (ids := PyDict.keys (exEqual "rho").topology.edges) (k := -1) (by decide) hneg
    rw [hk0] at h2
    exact absurd (rank_nonneg _ _) (not_le_of_gt h2)

end Verif.Qrules
