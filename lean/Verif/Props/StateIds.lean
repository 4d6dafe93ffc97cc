import Verif.Spec.StateIds
import Verif.Props.SerialComplete
import Verif.Props.Decay
import Verif.Props.Spin

/-!
Property C124: models are formulated for three-body decays only.
-/
namespace Verif
open ThreeBody Serialization Verif.Spec

/-- The IDs of a three-body decay. -/
local notation "threeBodyIds" => ({0, 1, 2, 3} : Finset ℤ)

theorem get_ok_mem {ν : Type} {d : PyDict ℤ ν} {k : ℤ} {v : ν} (h : PyDict.get d k = .ok v) : k ∈ PyDict.keys d := by
  rw [PyDict.mem_keys_iff]
  unfold PyDict.get at h
  cases hg : PyDict.get? d k with
  | none => rw [hg] at h; cases h
  | some v => exact ⟨v, rfl⟩

theorem get_missing {ν : Type} {d : PyDict ℤ ν} {k : ℤ} (h : k ∉ PyDict.keys d) :
    PyDict.get d k = .error .keyError := by
  unfold PyDict.get
  rw [PyDict.get?_eq_none.2 h]

theorem get_present {ν : Type} {d : PyDict ℤ ν} {k : ℤ} (h : k ∈ PyDict.keys d) : ∃ v, PyDict.get d k = .ok v := by
  obtain ⟨v, hv⟩ := PyDict.mem_keys_iff.1 h
  exact ⟨v, by unfold PyDict.get; rw [hv]⟩

/-- The four-fold unpacking of the spins. -/
theorem spins_of_keys (states : PyDict ℤ State) : ∃ l : List State,
    ((sortedSet (PyDict.keys states)).mapM fun i => PyDict.get states i) = .ok l ∧
    l.length = (PyDict.keys states).toFinset.card := by
  have hl : (sortedSet (PyDict.keys states)).length = (PyDict.keys states).toFinset.card := by
    rw [← List.toFinset_card_of_nodup (sortedSet_nodup _)]
    congr 1
    ext x
    simp [sortedSet_mem]
  have : ∀ ids : List ℤ, (∀ i ∈ ids, i ∈ PyDict.keys states) → ∃ l : List State,
      (ids.mapM fun i => PyDict.get states i) = .ok l ∧ l.length = ids.length := by
    intro ids
    induction ids with
    | nil => intro _; exact ⟨[], rfl, rfl⟩
    | cons i t ih =>
      intro h
      obtain ⟨v, hv⟩ := get_present (h i (.head _))
      obtain ⟨l, h1, h2⟩ := ih fun j hj => h j (.tail _ hj)
      exact ⟨v :: l, by rw [List.mapM_cons, hv, h1]; rfl, by simp [h2]⟩
  obtain ⟨l, h1, h2⟩ := this _ fun i hi => (sortedSet_mem _ _).1 hi
  exact ⟨l, h1, h2.trans hl⟩

theorem fourSpins_error {d : Decay} (h : (decayIds d).card ≠ 4) : ThreeBody.fourSpins d = .error .valueError := by
  obtain ⟨l, h1, h2⟩ := spins_of_keys d.states
  unfold ThreeBody.fourSpins
  rw [h1]
  have hl : (l.map fun x => x.spin).length ≠ 4 := by rw [List.length_map, h2]; exact h
  simp only [bind, Except.bind]
  generalize (l.map fun x => x.spin) = l' at hl ⊢
  match l', hl with
  | [_, _, _, _], h => exact absurd rfl h
  | [], _ | [_], _ | [_, _], _ | [_, _, _], _ | _ :: _ :: _ :: _ :: _ :: _, _ => rfl

theorem serialFourSpins_error {states : PyDict ℤ State} (h : (PyDict.keys states).toFinset.card ≠ 4) :
    Serialization.fourSpins states = .error .valueError := by
  obtain ⟨l, h1, h2⟩ := spins_of_keys states
  unfold Serialization.fourSpins
  rw [h1]
  have hl : (l.map fun x => x.spin).length ≠ 4 := by rw [List.length_map, h2]; exact h
  simp only [bind, Except.bind]
  generalize (l.map fun x => x.spin) = l' at hl ⊢
  match l', hl with
  | [_, _, _, _], h => exact absurd rfl h
  | [], _ | [_], _ | [_, _], _ | [_, _, _], _ | _ :: _ :: _ :: _ :: _ :: _, _ => rfl

theorem ids_eq {s : Finset ℤ} (h0 : 0 ∈ s) (h1 : 1 ∈ s) (h2 : 2 ∈ s) (h3 : 3 ∈ s) (hc : s.card = 4) :
    s = threeBodyIds := by
  symm
  apply Finset.eq_of_subset_of_card_le
  · intro x hx
    simp only [Finset.mem_insert, Finset.mem_singleton] at hx
    rcases hx with rfl | rfl | rfl | rfl <;> assumption
  · rw [hc]
    decide

theorem mem_decayIds {d : Decay} {i : ℤ} : i ∈ decayIds d ↔ i ∈ PyDict.keys d.states := by
  unfold decayIds PyDict.keys
  exact List.mem_toFinset

/-! ### The builder -/

/-- C124: `formulate_aligned_amplitude` raises `ValueError` for a decay with more or fewer than four states. -/
theorem C124_aligned_error (b : Builder) (h : ℤ → Hel) (ref : ℤ) (hc : (decayIds b.decay).card ≠ 4) :
    b.alignedAmplitude h ref = .error .valueError := by
  unfold Builder.alignedAmplitude
  rw [fourSpins_error hc]
  rfl

/-- C124: if `formulate` returns a model, the states of the decay are 0, 1, 2 and 3. -/
theorem C124_builder {b : Builder} {reference : Option ℤ} {cl uc : Bool} {a : ThreeBody.AmplitudeModel}
    (h : b.formulate reference cl uc = .ok a) : decayIds b.decay = threeBodyIds := by
  have h' : ∃ ref, (do
      let s0 ← b.decay.states.get 0
      let s1 ← b.decay.states.get 1
      let s2 ← b.decay.states.get 2
      let s3 ← b.decay.states.get 3
      let spin := tup s0.spin s1.spin s2.spin s3.spin
      let _ ← subsystemLoop b uc ((helicityTuples spin).product b.subsystems) {}
      let _ ← b.alignedAmplitude (fun i => .sym (lambdaSym i)) ref
      return ()) = Except.ok () := by
    have key : ∀ ref : ℤ, b.formulate (some ref) cl uc = .ok a → (do
      let s0 ← b.decay.states.get 0
      let s1 ← b.decay.states.get 1
      let s2 ← b.decay.states.get 2
      let s3 ← b.decay.states.get 3
      let spin := tup s0.spin s1.spin s2.spin s3.spin
      let _ ← subsystemLoop b uc ((helicityTuples spin).product b.subsystems) {}
      let _ ← b.alignedAmplitude (fun i => .sym (lambdaSym i)) ref
      return ()) = Except.ok () := by
      intro ref h
      unfold Builder.formulate at h
      simp only [Serialization.bind_ok] at h ⊢
      obtain ⟨r, hr, s0, g0, s1, g1, s2, g2, s3, g3, acc, h3, al, h4, -⟩ := h
      cases hr
      exact ⟨s0, g0, s1, g1, s2, g2, s3, g3, acc, h3, al, h4, rfl⟩
    cases reference with
    | some r => exact ⟨r, key r h⟩
    | none =>
      unfold Builder.formulate at h
      simp only [Serialization.bind_ok] at h
      obtain ⟨ref, h0, s0, g0, s1, g1, s2, g2, s3, g3, acc, h3, al, h4, -⟩ := h
      refine ⟨ref, ?_⟩
      simp only [Serialization.bind_ok]
      exact ⟨s0, g0, s1, g1, s2, g2, s3, g3, acc, h3, al, h4, rfl⟩
  obtain ⟨ref, h⟩ := h'
  simp only [Serialization.bind_ok] at h
  obtain ⟨s0, g0, s1, g1, s2, g2, s3, g3, acc, -, al, h4, -⟩ := h
  refine ids_eq (mem_decayIds.2 (get_ok_mem g0)) (mem_decayIds.2 (get_ok_mem g1)) (mem_decayIds.2 (get_ok_mem g2))
    (mem_decayIds.2 (get_ok_mem g3)) ?_
  by_contra hc
  rw [C124_aligned_error b _ _ hc] at h4
  cases h4

theorem four_gets {α ν : Type} {d : PyDict ℤ ν} {i : ℤ} (hi : i ∈ threeBodyIds) (h : i ∉ PyDict.keys d)
    (f : ν → ν → ν → ν → Py α) :
    (do
      let s0 ← PyDict.get d 0
      let s1 ← PyDict.get d 1
      let s2 ← PyDict.get d 2
      let s3 ← PyDict.get d 3
      f s0 s1 s2 s3) = .error .keyError := by
  have key : ∀ k : ℤ, PyDict.get d k = .error .keyError ∨ k ∈ PyDict.keys d ∧ ∃ v, PyDict.get d k = .ok v := by
    intro k
    by_cases hk : k ∈ PyDict.keys d
    · exact .inr ⟨hk, get_present hk⟩
    · exact .inl (get_missing hk)
  rcases key 0 with h0 | ⟨h0, v0, e0⟩
  · rw [h0]; rfl
  rw [e0]
  rcases key 1 with h1 | ⟨h1, v1, e1⟩
  · rw [h1]; rfl
  rw [e1]
  rcases key 2 with h2 | ⟨h2, v2, e2⟩
  · rw [h2]; rfl
  rw [e2]
  rcases key 3 with h3 | ⟨h3, v3, e3⟩
  · rw [h3]; rfl
  simp only [Finset.mem_insert, Finset.mem_singleton] at hi
  rcases hi with rfl | rfl | rfl | rfl <;> contradiction

/-- C124: if one of these states is missing, `formulate` raises `KeyError`. -/
theorem C124_builder_missing (b : Builder) {reference : Option ℤ} (cl uc : Bool)
    (href : reference ≠ none ∨ ∃ r, b.decay.bestReference = .ok r) {i : ℤ} (hi : i ∈ threeBodyIds) (hm : i ∉ decayIds b.decay) :
    b.formulate reference cl uc = .error .keyError := by
  rw [mem_decayIds] at hm
  unfold Builder.formulate
  cases reference with
  | some r => exact four_gets hi hm _
  | none =>
    rcases href with h | ⟨r, hr⟩
    · exact absurd rfl h
    · simp only [hr]
      exact four_gets hi hm _

/-- C124: `formulate` raises an exception for all other decays. -/
theorem C124_builder_error (b : Builder) (reference : Option ℤ) (cl uc : Bool)
    (h : decayIds b.decay ≠ threeBodyIds) : ∃ e, b.formulate reference cl uc = .error e := by
  cases hf : b.formulate reference cl uc with
  | error e => exact ⟨e, rfl⟩
  | ok a => exact absurd (C124_builder hf) h

example : decayIds (exBuilder true true false).decay = threeBodyIds :=
  C124_builder (exBuilder_ok true true false true false).choose_spec

/-- A decay with a fourth particle in the final state, and one without the third. -/
example (h : ℤ → Hel) :
    (Builder.mk ⟨PyDict.set exStates 4 (exState "pi" 0 (1/7) 4), []⟩ (Configurator.init exDecay) true true false).alignedAmplitude h 1
      = .error .valueError :=
  C124_aligned_error _ h 1 (by decide)

example (cl uc : Bool) :
    (Builder.mk ⟨exStates.take 3, []⟩ (Configurator.init exDecay) true true false).formulate (some 1) cl uc
      = .error .keyError :=
  C124_builder_missing _ cl uc (.inl (by simp)) (i := 3) (by decide) (by decide)

/-! ### Serialized models -/

variable {m : ModelDefinition} {D : Distribution} {tl : String → String} {add : Option (PyDict String PropagatorBuilder)}

theorem toParticle_index {s : StateDefinition} {f : String → String} {p : State} (h : Serialization.toParticle s f = .ok p) :
    p.index = s.index := by
  unfold Serialization.toParticle State.new at h
  simp only [Serialization.bind_ok] at h
  obtain ⟨_, -, _, -, h⟩ := h
  cases h
  rfl

theorem keys_getStates {states : PyDict ℤ State} {rest : List Distribution} (hD : m.distributions = D :: rest) {f : String → String}
    (h : getStates m f = .ok states) : (PyDict.keys states).toFinset = kinematicsIds D.kinematics := by
  have hd : getDistributionDef m = .ok (D, decide (m.distributions.length > 1)) := by
    unfold getDistributionDef
    rw [hD]
  unfold getStates getInitialState getFinalState at h
  simp only [Serialization.bind_ok, hd] at h
  obtain ⟨s0, ⟨x, hx, h0⟩, fs, ⟨y, hy, ps, h1, h2⟩, h3⟩ := h
  cases hx
  cases hy
  cases h2
  cases h3
  have hi : ps.map (·.index) = D.kinematics.finalState.map (·.index) := by
    rw [mapM_ok_iff] at h1
    generalize D.kinematics.finalState = l at h1
    induction h1 with
    | nil => rfl
    | cons h _ ih => rw [List.map_cons, List.map_cons, ih, toParticle_index h]
  ext i
  rw [List.mem_toFinset, PyDict.mem_keys_update, kinematicsIds, Finset.mem_insert, List.mem_toFinset, ← hi]
  unfold PyDict.ofItems
  rw [PyDict.mem_keys_update]
  simp only [PyDict.keys, List.map_cons, List.map_nil, List.mem_singleton, List.not_mem_nil, false_or, List.map_map,
    toParticle_index h0]
  rfl

/-- The states can be read if all spins are half-integers. -/
theorem getStates_returns {rest : List Distribution} (hD : m.distributions = D :: rest)
    (hs : ∀ s ∈ D.kinematics.initialState :: D.kinematics.finalState, ∃ q, s.spin = some q ∧ IsHalfInteger q)
    (f : String → String) : ∃ states, getStates m f = .ok states := by
  have hp : ∀ s ∈ D.kinematics.initialState :: D.kinematics.finalState, ∃ p, Serialization.toParticle s f = .ok p := by
    intro s h
    obtain ⟨q, h1, h2⟩ := hs s h
    refine ⟨⟨⟨s.name, f s.name, q, none, s.mass, 0⟩, s.index⟩, ?_⟩
    unfold Serialization.toParticle State.new
    rw [h1]
    simp only [toRational, bind, Except.bind, (Spin.C07_spin_validation q).1.2 h2]
    rfl
  have hd : getDistributionDef m = .ok (D, decide (m.distributions.length > 1)) := by
    unfold getDistributionDef
    rw [hD]
  obtain ⟨p0, h0⟩ := hp _ (.head _)
  have hl : ∃ ps, (D.kinematics.finalState.mapM fun p => Serialization.toParticle p f) = .ok ps := by
    have := fun s h => hp s (.tail _ h)
    generalize D.kinematics.finalState = l at this
    induction l with
    | nil => exact ⟨[], rfl⟩
    | cons s t ih =>
      obtain ⟨p, h1⟩ := this s (.head _)
      obtain ⟨ps, h2⟩ := ih fun s h => this s (.tail _ h)
      exact ⟨p :: ps, by rw [List.mapM_cons, h1, h2]; rfl⟩
  obtain ⟨ps, hl⟩ := hl
  unfold getStates getInitialState getFinalState
  simp only [hd, bind, Except.bind, pure, Except.pure, h0, hl]
  exact ⟨_, rfl⟩

/-- C124: if `formulate` returns a model, the kinematics of the (first) distribution are for the states 0, 1, 2 and 3. -/
theorem C124_serialized {rest : List Distribution} (hD : m.distributions = D :: rest) {cl : Bool}
    {a : ThreeBody.AmplitudeModel} (h : formulate m cl tl add = .ok a) : kinematicsIds D.kinematics = threeBodyIds := by
  unfold formulate at h
  simp only [Serialization.bind_ok] at h
  obtain ⟨states, h1, s0, g0, s1, g1, s2, g2, s3, g3, cs, h2, acc, h3, al, h4, -⟩ := h
  rw [← keys_getStates hD h1]
  have e : ∀ {i : ℤ} {s : State}, PyDict.get states i = .ok s → i ∈ (PyDict.keys states).toFinset :=
    fun h => List.mem_toFinset.2 (get_ok_mem h)
  refine ids_eq (e g0) (e g1) (e g2) (e g3) ?_
  by_contra hc
  unfold formulateAlignedAmplitude at h4
  simp only [Serialization.bind_ok] at h4
  obtain ⟨t, -, r, -, st, h5, j, h6, -⟩ := h4
  rw [h1] at h5
  cases h5
  rw [serialFourSpins_error hc] at h6
  cases h6

/-- C124: if one of these states is missing, `formulate` raises `KeyError`. -/
theorem C124_serialized_missing {rest : List Distribution} (hD : m.distributions = D :: rest) {i : ℤ}
    (hi : i ∈ threeBodyIds) (hm : i ∉ kinematicsIds D.kinematics)
    (hs : ∀ s ∈ D.kinematics.initialState :: D.kinematics.finalState, ∃ q, s.spin = some q ∧ IsHalfInteger q) (cl : Bool) :
    formulate m cl tl add = .error .keyError := by
  obtain ⟨states, h1⟩ := getStates_returns hD hs identityFunction
  rw [← keys_getStates hD h1, List.mem_toFinset] at hm
  unfold formulate
  rw [h1]
  exact four_gets hi hm _

/-- C124: if there are more or fewer states, `formulate_aligned_amplitude` raises `ValueError`. -/
theorem C124_serialized_aligned_error {rest : List Distribution} (hD : m.distributions = D :: rest)
    (hs : ∀ s ∈ D.kinematics.initialState :: D.kinematics.finalState, ∃ q, s.spin = some q ∧ IsHalfInteger q)
    (hc : (kinematicsIds D.kinematics).card ≠ 4) (h : ℤ → Hel) :
    formulateAlignedAmplitude m h = .error .valueError := by
  obtain ⟨states, h1⟩ := getStates_returns hD hs identityFunction
  rw [← keys_getStates hD h1] at hc
  have hd : getDistributionDef m = .ok (D, decide (m.distributions.length > 1)) := by
    unfold getDistributionDef
    rw [hD]
  unfold formulateAlignedAmplitude getReferenceTopology
  rw [hd]
  simp only [bind, Except.bind, pure, Except.pure]
  cases hr : getSpectatorId D.referenceTopology with
  | ok ref =>
    rw [h1]
    simp only
    rw [serialFourSpins_error hc]
  | error e =>
    have : getSpectatorId D.referenceTopology = .error .valueError := by
      rw [(C52_spectator _).2]
      rintro ⟨k, hk⟩
      rw [((C52_spectator _).1 k).2 hk] at hr
      cases hr
    rw [this] at hr
    cases hr
    rfl

/-- C124: `formulate` raises an exception for all other kinematics. -/
theorem C124_serialized_error {rest : List Distribution} (hD : m.distributions = D :: rest) (cl : Bool)
    (h : kinematicsIds D.kinematics ≠ threeBodyIds) : ∃ e, formulate m cl tl add = .error e := by
  cases hf : formulate m cl tl add with
  | error e => exact ⟨e, rfl⟩
  | ok a => exact absurd (C124_serialized hD hf) h

/-- The kinematics of the example with other final states. -/
def exOtherModel (final : List StateDefinition) : ModelDefinition :=
  { exModel with distributions := [{ exDistribution with kinematics := { exKinematics with finalState := final } }] }

theorem exOther_spins : ∀ s ∈ exKinematics.initialState :: (exKinematics.finalState ++ [⟨4, "pi0", some 0, 135 / 1000⟩]),
    ∃ q, s.spin = some q ∧ IsHalfInteger q := by
  intro s hs
  simp only [exKinematics, List.cons_append, List.nil_append, List.mem_cons, List.not_mem_nil, or_false] at hs
  rcases hs with rfl | rfl | rfl | rfl | rfl
  · exact ⟨_, rfl, 1, by norm_num⟩
  · exact ⟨_, rfl, 0, by norm_num⟩
  · exact ⟨_, rfl, 1, by norm_num⟩
  · exact ⟨_, rfl, 0, by norm_num⟩
  · exact ⟨_, rfl, 0, by norm_num⟩

/-- Two final states. -/
example (cl : Bool) : formulate (exOtherModel (exKinematics.finalState.take 2)) cl tl add = .error .keyError :=
  C124_serialized_missing (rest := []) rfl (i := 2) (by decide) (by decide)
    (fun s hs => exOther_spins s (by
      rcases List.mem_cons.1 hs with h | h
      · exact h ▸ .head _
      · exact .tail _ (List.mem_append_left _ (List.mem_of_mem_take h)))) cl

/-- Four final states. -/
example (h : ℤ → Hel) :
    formulateAlignedAmplitude (exOtherModel (exKinematics.finalState ++ [⟨4, "pi0", some 0, 135 / 1000⟩])) h
      = .error .valueError :=
  C124_serialized_aligned_error (rest := []) rfl exOther_spins (by decide) h

end Verif
