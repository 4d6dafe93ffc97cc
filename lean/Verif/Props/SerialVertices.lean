import Verif.Props.Serialization
import Verif.Spec.SerialVertices

/-! Property C52 for chain definitions with any vertices: which of them count, and what is raised if the chain cannot
be read. -/
namespace Verif.Serialization
open Verif Verif.ThreeBody Verif.Spec

private theorem firstWith_cons {α β : Type} {P : α → β → Prop} {x : α} {t : List α} {y : β}
    (hx : ∀ w, ¬ P x w) : FirstWith P (x :: t) y ↔ FirstWith P t y := by
  constructor
  · rintro ⟨pre, z, post, he, hz, hpre⟩
    cases pre with
    | nil =>
      simp only [List.nil_append, List.cons.injEq] at he
      exact absurd (he.1 ▸ hz) (hx y)
    | cons a pre =>
      simp only [List.cons_append, List.cons.injEq] at he
      exact ⟨pre, z, post, he.2, hz, fun w hw => hpre w (List.mem_cons_of_mem _ hw)⟩
  · rintro ⟨pre, z, post, rfl, hz, hpre⟩
    refine ⟨x :: pre, z, post, rfl, hz, fun w hw => ?_⟩
    rcases List.mem_cons.1 hw with rfl | hw
    · exact hx
    · exact hpre w hw

private theorem firstWith_head {α β : Type} {P : α → β → Prop} {x : α} {t : List α} {y w : β}
    (hx : P x y) (hu : ∀ y', P x y' → y' = y) : FirstWith P (x :: t) w ↔ w = y := by
  constructor
  · rintro ⟨pre, z, post, he, hz, hpre⟩
    cases pre with
    | nil =>
      simp only [List.nil_append, List.cons.injEq] at he
      exact hu w (he.1 ▸ hz)
    | cons a pre =>
      simp only [List.cons_append, List.cons.injEq] at he
      exact absurd (he.1 ▸ hx) (hpre a (by simp) y)
  · rintro rfl
    exact ⟨[], x, t, rfl, hx, by simp⟩

private theorem firstWith_nil {α β : Type} {P : α → β → Prop} {y : β} : ¬ FirstWith P [] y := by
  rintro ⟨pre, z, post, he, -⟩
  simp at he

private theorem firstInt_iff : ∀ (l : List Tree) (k : ℤ), firstInt l = some k ↔ FirstWith IsId l k
  | [], k => by simpa [firstInt] using firstWith_nil
  | .id i :: t, k => by
    rw [firstWith_head (P := IsId) (y := i) rfl (by rintro y' h; cases h; rfl)]
    simp only [firstInt, Option.some.injEq]
    exact eq_comm
  | .seq s :: t, k => by
    rw [firstWith_cons (by rintro w h; cases h)]
    exact firstInt_iff t k

private theorem findDecay_iff : ∀ (vs : List Vertex),
    (∀ ids, findDecayProductIds vs = .ok ids ↔ FirstWith DecayVertex vs ids) ∧
    ∀ e, findDecayProductIds vs = .error e → e = .valueError
  | [] => ⟨fun ids => by simpa [findDecayProductIds] using firstWith_nil, fun e h => by
      simp only [findDecayProductIds, Except.error.injEq] at h; exact h.symm⟩
  | v :: t => by
    obtain ⟨h1, h2⟩ := findDecay_iff t
    by_cases hv : ∃ i j, v.node = [.id i, .id j]
    · obtain ⟨i, j, hv⟩ := hv
      have he : findDecayProductIds (v :: t) = .ok (i, j) := by unfold findDecayProductIds; rw [hv]
      rw [he]
      refine ⟨fun ids => ?_, fun e h => by cases h⟩
      rw [firstWith_head (P := DecayVertex) (y := (i, j)) hv]
      · rw [Except.ok.injEq]
        exact eq_comm
      · rintro ⟨a, b⟩ h
        unfold DecayVertex at h
        rw [hv] at h
        simp only [List.cons.injEq, Tree.id.injEq, and_true] at h
        rw [h.1, h.2]
    · have he : findDecayProductIds (v :: t) = findDecayProductIds t := by
        conv_lhs => unfold findDecayProductIds
        split
        · next i j h => exact absurd ⟨i, j, h⟩ hv
        · rfl
      rw [he]
      refine ⟨fun ids => ?_, h2⟩
      rw [firstWith_cons (fun w hw => hv ⟨_, _, hw⟩)]
      exact h1 ids

private theorem any_seq (l : List Tree) : (l.any fun i => !i.isInt) = true ↔ ∃ s, Tree.seq s ∈ l := by
  rw [List.any_eq_true]
  constructor
  · rintro ⟨x, hx, h⟩
    cases x with
    | id i => simp [Tree.isInt] at h
    | seq s => exact ⟨s, hx⟩
  · rintro ⟨s, hs⟩
    exact ⟨_, hs, rfl⟩

private theorem findSpectator_iff : ∀ (vs : List Vertex),
    (∀ k, findSpectatorId vs = .ok k ↔ FirstWith ProductionVertex vs k) ∧
    ∀ e, findSpectatorId vs = .error e → e = .valueError
  | [] => ⟨fun ids => by simpa [findSpectatorId] using firstWith_nil, fun e h => by
      simp only [findSpectatorId, Except.error.injEq] at h; exact h.symm⟩
  | v :: t => by
    obtain ⟨h1, h2⟩ := findSpectator_iff t
    have skip : (∀ k, ¬ ProductionVertex v k) → findSpectatorId (v :: t) = findSpectatorId t →
        (∀ k, findSpectatorId (v :: t) = .ok k ↔ FirstWith ProductionVertex (v :: t) k) ∧
        ∀ e, findSpectatorId (v :: t) = .error e → e = .valueError := by
      intro hv he
      rw [he]
      exact ⟨fun k => by rw [firstWith_cons hv]; exact h1 k, h2⟩
    by_cases ha : (v.node.any fun i => !i.isInt) = true
    · cases hf : firstInt v.node with
      | none =>
        refine skip (fun k hk => ?_) (by conv_lhs => unfold findSpectatorId
                                         rw [if_pos ha, hf])
        rw [(firstInt_iff _ _).2 hk.2] at hf
        cases hf
      | some i =>
        have he : findSpectatorId (v :: t) = .ok i := by
          unfold findSpectatorId
          rw [if_pos ha, hf]
        rw [he]
        refine ⟨fun k => ?_, fun e h => by cases h⟩
        rw [firstWith_head (P := ProductionVertex) (y := i) ⟨(any_seq _).1 ha, (firstInt_iff _ _).1 hf⟩]
        · rw [Except.ok.injEq]
          exact eq_comm
        · rintro k ⟨-, hk⟩
          rw [(firstInt_iff _ _).2 hk] at hf
          exact Option.some.inj hf
    · refine skip (fun k hk => ha ((any_seq _).2 hk.1)) ?_
      conv_lhs => unfold findSpectatorId
      rw [if_neg ha]

/-- **C52** For any vertices: the decay products are those of the first vertex with exactly two final-state IDs, the
spectator is the first ID in the first vertex that has both a subsystem and an ID. The chain
`p0 → (R → p_i p_j) p_k` is returned iff there are such vertices, the spin is half-integer, the three IDs are in the
final state and the IDs of the states are different. -/
theorem C52_vertices (c : ChainDefinition) (p0 : State) (final : PyDict ℤ State) (f : String → String) (ch : Chain) :
    toDecayChain c p0 final f = .ok ch ↔ ∃ s i j k p1 p2 p3, HasSpin c s ∧ IsHalfInteger s ∧
      FirstWith DecayVertex c.vertices (i, j) ∧ FirstWith ProductionVertex c.vertices k ∧
      PyDict.get? final i = some p1 ∧ PyDict.get? final j = some p2 ∧ PyDict.get? final k = some p3 ∧
      [p0.index, p1.index, p2.index, p3.index].Nodup ∧
      ch = chainOf p0 ⟨c.name, f c.name, s, none, 0, 0⟩ p1 p2 p3 := by
  rw [toDecayChain_ok]
  simp only [(findDecay_iff c.vertices).1, (findSpectator_iff c.vertices).1]

/-- **C52** What is raised for a chain definition that cannot be read. Without a propagator it is an `IndexError`, for a
spin that is no number a `TypeError`, for a spin that is not half-integer a `ValueError`. For a half-integer spin it
is a `ValueError` if there is no decay vertex or no production vertex, a `KeyError` if one of their IDs is not in the
final state, and a `ValueError` if IDs of the states are equal. -/
theorem C52_errors (c : ChainDefinition) (p0 : State) (final : PyDict ℤ State) (f : String → String) :
    (c.propagators = [] → toDecayChain c p0 final f = .error .indexError) ∧
    (∀ p rest, c.propagators = p :: rest → p.spin = none → toDecayChain c p0 final f = .error .typeError) ∧
    (∀ s, HasSpin c s → ¬ IsHalfInteger s → toDecayChain c p0 final f = .error .valueError) ∧
    ∀ s, HasSpin c s → IsHalfInteger s →
      ((∀ v ∈ c.vertices, ∀ i j, v.node ≠ [.id i, .id j]) → toDecayChain c p0 final f = .error .valueError) ∧
      ((∀ v ∈ c.vertices, ∀ k l, .id k ∈ v.node → .seq l ∉ v.node) →
        toDecayChain c p0 final f = .error .valueError) ∧
      ∀ i j k, FirstWith DecayVertex c.vertices (i, j) → FirstWith ProductionVertex c.vertices k →
        ((∃ x ∈ [i, j, k], PyDict.get? final x = none) → toDecayChain c p0 final f = .error .keyError) ∧
        ∀ p1 p2 p3, PyDict.get? final i = some p1 → PyDict.get? final j = some p2 → PyDict.get? final k = some p3 →
          ¬ [p0.index, p1.index, p2.index, p3.index].Nodup → toDecayChain c p0 final f = .error .valueError := by
  refine ⟨fun h => ?_, fun p rest h hp => ?_, fun s hs hh => ?_, fun s hs hh => ?_⟩
  · unfold toDecayChain resonanceSpin
    rw [h]
    rfl
  · unfold toDecayChain resonanceSpin
    rw [h]
    show (toRational p.spin >>= _) = _
    rw [hp]
    rfl
  · unfold toDecayChain
    rw [resonanceSpin_ok.2 hs]
    show (Particle.new _ _ s _ _ _ >>= _) = _
    unfold Particle.new
    rw [assertSpin_err hh]
    rfl
  · have key : toDecayChain c p0 final f = (do
        let ids ← findDecayProductIds c.vertices
        let spectatorId ← findSpectatorId c.vertices
        let child1 ← PyDict.get final ids.1
        let child2 ← PyDict.get final ids.2
        let spectator ← PyDict.get final spectatorId
        Chain.new (.isobar (.state p0)
          (.isobar (.particle ⟨c.name, f c.name, s, none, 0, 0⟩) (.leaf (.state child1)) (.leaf (.state child2)) none)
          (.leaf (.state spectator)) none)) := by
      unfold toDecayChain
      rw [resonanceSpin_ok.2 hs]
      show (Particle.new _ _ s _ _ _ >>= _) = _
      unfold Particle.new
      rw [assertSpin_ok hh]
      rfl
    have nodecay : (∀ ids, ¬ FirstWith DecayVertex c.vertices ids) →
        findDecayProductIds c.vertices = .error .valueError := by
      intro h
      cases hd : findDecayProductIds c.vertices with
      | ok ids => exact absurd (((findDecay_iff _).1 ids).1 hd) (h ids)
      | error e => rw [(findDecay_iff _).2 e hd]
    have nospec : (∀ k, ¬ FirstWith ProductionVertex c.vertices k) →
        findSpectatorId c.vertices = .error .valueError := by
      intro h
      cases hd : findSpectatorId c.vertices with
      | ok ids => exact absurd (((findSpectator_iff _).1 ids).1 hd) (h ids)
      | error e => rw [(findSpectator_iff _).2 e hd]
    have getk : ∀ x, PyDict.get? final x = none → PyDict.get final x = .error .keyError := by
      intro x h; unfold PyDict.get; rw [h]
    have gets : ∀ x p, PyDict.get? final x = some p → PyDict.get final x = .ok p := by
      intro x p h; unfold PyDict.get; rw [h]
    rw [key]
    refine ⟨fun h => ?_, fun h => ?_, fun i j k hd hp => ⟨?_, fun p1 p2 p3 h1 h2 h3 hn => ?_⟩⟩
    · rw [nodecay]
      · rfl
      · rintro ⟨i, j⟩ ⟨pre, v, post, he, hv, -⟩
        exact h v (by rw [he]; simp) i j hv
    · have hs := nospec (by
        rintro k ⟨pre, v, post, he, ⟨⟨l, hl⟩, ⟨a, x, b, hx, hi, -⟩⟩, -⟩
        exact h v (by rw [he]; simp) k l (by rw [hx, ← hi]; simp) hl)
      cases hd : findDecayProductIds c.vertices with
      | error e => rw [(findDecay_iff _).2 e hd]; rfl
      | ok ids => rw [hs]; rfl
    · rw [((findDecay_iff _).1 _).2 hd, ((findSpectator_iff _).1 _).2 hp]
      rintro ⟨x, hx, hn⟩
      simp only [List.mem_cons, List.not_mem_nil, or_false] at hx
      show (PyDict.get final i >>= fun child1 => PyDict.get final j >>= fun child2 =>
        PyDict.get final k >>= fun spectator => _) = _
      have any : ∀ y, (∃ p, PyDict.get final y = .ok p) ∨ PyDict.get final y = .error .keyError := by
        intro y
        cases hy : PyDict.get? final y with
        | none => exact .inr (getk y hy)
        | some p => exact .inl ⟨p, gets y p hy⟩
      rcases any i with ⟨p, hi⟩ | hi
      · rw [hi]
        rcases any j with ⟨q, hj⟩ | hj
        · rw [hj]
          rcases any k with ⟨r, hk⟩ | hk
          · rcases hx with rfl | rfl | rfl
            · rw [getk _ hn] at hi; cases hi
            · rw [getk _ hn] at hj; cases hj
            · rw [getk _ hn] at hk; cases hk
          · rw [hk]; rfl
        · rw [hj]; rfl
      · rw [hi]; rfl
    · rw [((findDecay_iff _).1 _).2 hd, ((findSpectator_iff _).1 _).2 hp]
      show (PyDict.get final i >>= fun child1 => PyDict.get final j >>= fun child2 =>
        PyDict.get final k >>= fun spectator => _) = _
      rw [gets i p1 h1, gets j p2 h2, gets k p3 h3]
      have h := chainNew_shape (.state p0) (.particle ⟨c.name, f c.name, s, none, 0, 0⟩) (.leaf (.state p1))
        (.leaf (.state p2)) p3 none none _ (.inl rfl)
      exact h.trans (if_neg hn)
/-- A definition with four vertices: one with subsystems only, which is passed over, two decay vertices, of which the
first one counts, and a production vertex. -/
def exFourVertices : ChainDefinition where
  name := "K892"
  propagators := [⟨some 1, [.id 2, .id 3], "K892_BW"⟩]
  vertices := [
    { type := "helicity", node := [.seq [.id 2, .id 3], .seq [.id 1]] },
    { type := "helicity", node := [.id 2, .id 3] },
    { type := "helicity", node := [.id 1, .id 2] },
    { type := "helicity", node := [.seq [.id 2, .id 3], .id 1] }]
  topology := [.seq [.id 2, .id 3], .id 1]
  weight := some (1, 0)

example : HasSpin exFourVertices 1 ∧ IsHalfInteger 1 ∧ FirstWith DecayVertex exFourVertices.vertices (2, 3) ∧
    FirstWith ProductionVertex exFourVertices.vertices 1 := by
  refine ⟨⟨_, _, rfl, rfl⟩, ⟨2, by norm_num⟩, ⟨[_], _, _, rfl, rfl, ?_⟩, ⟨[_, _, _], _, _, rfl,
    ⟨⟨_, List.mem_cons_self ..⟩, ⟨[_], _, _, rfl, rfl, ?_⟩⟩, ?_⟩⟩
  · simp [DecayVertex]
  · simp [IsId]
  · have none_ : ∀ l : List Tree, (∀ t ∈ l, ∀ i, t ≠ .id i) → ∀ k, ¬ FirstWith IsId l k := by
      rintro l h k ⟨pre, x, post, rfl, hx, -⟩
      exact h x (by simp) k hx
    rintro z hz k ⟨⟨s, hs⟩, hk⟩
    simp only [List.mem_cons, List.not_mem_nil, or_false] at hz
    rcases hz with rfl | rfl | rfl
    · exact none_ _ (by simp) k hk
    · simp at hs
    · simp at hs

/-- The cases of `C52_errors`, for definitions that differ from this one in one place. -/
example (p0 : State) (final : PyDict ℤ State) (f : String → String) :
    toDecayChain { exFourVertices with propagators := [] } p0 final f = .error .indexError ∧
    toDecayChain { exFourVertices with propagators := [⟨none, [], ""⟩] } p0 final f = .error .typeError ∧
    toDecayChain { exFourVertices with vertices := [] } p0 final f = .error .valueError ∧
    toDecayChain { exFourVertices with vertices := [{ type := "helicity", node := [.id 2, .id 3] }] } p0 final f =
      .error .valueError := by
  have h1 : HasSpin { exFourVertices with vertices := [] } 1 := ⟨_, _, rfl, rfl⟩
  have h2 : HasSpin { exFourVertices with vertices := [{ type := "helicity", node := [.id 2, .id 3] }] } 1 :=
    ⟨_, _, rfl, rfl⟩
  have hh : IsHalfInteger 1 := ⟨2, by norm_num⟩
  exact ⟨(C52_errors _ _ _ _).1 rfl, (C52_errors _ _ _ _).2.1 _ _ rfl rfl,
    ((C52_errors _ _ _ _).2.2.2 _ h1 hh).1 (by simp), ((C52_errors _ _ _ _).2.2.2 _ h2 hh).2.1 (by simp)⟩

example (p0 p1 p2 : State) (f : String → String) :
    toDecayChain exKstar p0 [(1, p1), (2, p2)] f = .error .keyError ∧
    toDecayChain exKstar p0 [(1, p1), (2, p2), (3, p2)] f = .error .valueError := by
  have hd : FirstWith DecayVertex exKstar.vertices (2, 3) := ⟨[_], _, _, rfl, rfl, by simp [DecayVertex]⟩
  have hp : FirstWith ProductionVertex exKstar.vertices 1 :=
    ⟨[], _, _, rfl, ⟨⟨_, List.mem_cons_self ..⟩, ⟨[_], _, _, rfl, rfl, by simp [IsId]⟩⟩, by simp⟩
  have h := ((C52_errors exKstar p0 [(1, p1), (2, p2)] f).2.2.2 1 ⟨_, _, rfl, rfl⟩ ⟨2, by norm_num⟩).2.2 2 3 1 hd hp
  have h' := ((C52_errors exKstar p0 [(1, p1), (2, p2), (3, p2)] f).2.2.2 1 ⟨_, _, rfl, rfl⟩
    ⟨2, by norm_num⟩).2.2 2 3 1 hd hp
  exact ⟨h.1 ⟨3, by simp, rfl⟩, h'.2 p2 p2 p1 rfl rfl rfl (by simp)⟩
/-- The spin of a state definition cannot be used: `e` is `TypeError` if it is no number and `ValueError` if it is not
half-integer. -/
def BadSpin (d : StateDefinition) (e : PyErr) : Prop :=
  (d.spin = none ∧ e = .typeError) ∨ ∃ s, d.spin = some s ∧ ¬ IsHalfInteger s ∧ e = .valueError

private theorem toParticle_bad {d : StateDefinition} {e : PyErr} (h : BadSpin d e) (f : String → String) :
    toParticle d f = .error e := by
  unfold toParticle
  rcases h with ⟨h, rfl⟩ | ⟨s, h, hs, rfl⟩
  · rw [h]; rfl
  · rw [h]
    show State.new _ _ s _ _ _ _ = _
    unfold State.new
    rw [assertSpin_err hs]
    rfl

private theorem toParticle_good {d : StateDefinition} {s : ℚ} (h : d.spin = some s) (hs : IsHalfInteger s)
    (f : String → String) : ∃ p, toParticle d f = .ok p := by
  unfold toParticle
  rw [h]
  refine ⟨⟨⟨d.name, f d.name, s, none, d.mass, 0⟩, d.index⟩, ?_⟩
  show State.new _ _ s _ _ _ _ = _
  unfold State.new
  rw [assertSpin_ok hs]
  rfl

private theorem mapM_bad {f : String → String} {d : StateDefinition} {e : PyErr} {post : List StateDefinition}
    (h : BadSpin d e) : ∀ pre : List StateDefinition, (∀ x ∈ pre, ∃ s, x.spin = some s ∧ IsHalfInteger s) →
      (pre ++ d :: post).mapM (fun p => toParticle p f) = .error e
  | [], _ => by
    rw [List.nil_append, List.mapM_cons, toParticle_bad h]
    rfl
  | x :: pre, hp => by
    obtain ⟨s, h1, h2⟩ := hp x (by simp)
    obtain ⟨p, hx⟩ := toParticle_good h1 h2 f
    rw [List.cons_append, List.mapM_cons, hx]
    have ih := mapM_bad (f := f) (post := post) h pre (fun y hy => hp y (List.mem_cons_of_mem _ hy))
    simp only [bind, Except.bind, ih]

/-- **C53** What `to_decay` raises if the states cannot be read: without a distribution it is a `ValueError`; of the
initial state and the final states, in this order, the first one whose spin is no number (`TypeError`) or not
half-integer (`ValueError`) decides. -/
theorem C53_errors (m : ModelDefinition) (f : String → String) :
    (m.distributions = [] → toDecay m f = .error .valueError) ∧
    ∀ D rest, m.distributions = D :: rest → ∀ pre d post e,
      D.kinematics.initialState :: D.kinematics.finalState = pre ++ d :: post →
      (∀ x ∈ pre, ∃ s, x.spin = some s ∧ IsHalfInteger s) → BadSpin d e → toDecay m f = .error e := by
  refine ⟨fun h => ?_, fun D rest hD pre d post e he hpre hd => ?_⟩
  · unfold toDecay getInitialState getDistributionDef
    rw [h]
    rfl
  · have hdist : ∃ b, getDistributionDef m = .ok (D, b) := by
      unfold getDistributionDef
      rw [hD]
      exact ⟨_, rfl⟩
    obtain ⟨b, hdist⟩ := hdist
    cases pre with
    | nil =>
      simp only [List.nil_append, List.cons.injEq] at he
      unfold toDecay getInitialState
      rw [hdist]
      show ((toParticle D.kinematics.initialState f) >>= _) = _
      rw [he.1, toParticle_bad hd]
      rfl
    | cons x pre =>
      simp only [List.cons_append, List.cons.injEq] at he
      obtain ⟨s, h1, h2⟩ := hpre x (by simp)
      obtain ⟨p, hx⟩ := toParticle_good h1 h2 f
      unfold toDecay getInitialState getFinalState
      rw [hdist]
      have hl := mapM_bad (f := f) (post := post) hd pre (fun y hy => hpre y (List.mem_cons_of_mem _ hy))
      rw [← he.2] at hl
      rw [← he.1] at hx
      simp only [bind, Except.bind, hx, hl]

/-- A model whose proton has a spin that is no number, and one whose kaon has a spin that is not half-integer. -/
example (f : String → String) :
    toDecay { distributions := [⟨⟨⟨0, "Lc", some (1 / 2), 2⟩, [⟨1, "p", none, 1⟩, ⟨2, "K", some (1 / 3), 1⟩]⟩, [], []⟩],
              functions := [] } f = .error .typeError ∧
    toDecay { distributions := [⟨⟨⟨0, "Lc", some (1 / 2), 2⟩, [⟨1, "p", some 0, 1⟩, ⟨2, "K", some (1 / 3), 1⟩]⟩, [], []⟩],
              functions := [] } f = .error .valueError := by
  have half : IsHalfInteger (1 / 2) := ⟨1, by norm_num⟩
  have third : ¬ IsHalfInteger (1 / 3) := by
    rintro ⟨n, hn⟩
    have h : (2 : ℚ) = ((3 * n : ℤ) : ℚ) := by push_cast; linarith
    have h' : (2 : ℤ) = 3 * n := by exact_mod_cast h
    omega
  constructor
  · refine (C53_errors _ _).2 _ _ rfl [_] _ _ _ rfl ?_ (.inl ⟨rfl, rfl⟩)
    intro x hx
    rw [List.mem_singleton.1 hx]
    exact ⟨_, rfl, half⟩
  · refine (C53_errors _ _).2 _ _ rfl [_, _] _ _ _ rfl ?_ (.inr ⟨1 / 3, rfl, third, rfl⟩)
    intro x hx
    simp only [List.mem_cons, List.not_mem_nil, or_false] at hx
    rcases hx with rfl | rfl
    · exact ⟨_, rfl, half⟩
    · exact ⟨0, rfl, 0, by norm_num⟩

end Verif.Serialization
