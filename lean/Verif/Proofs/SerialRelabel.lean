import Verif.Spec.SerialRelabel
import Verif.Proofs.SerialModel
import Verif.Props.Relabel

/-! Cyclic renumbering of the final states of a serialized model: readings, states, vertices. -/
namespace Verif.Serialization
open Verif Verif.ThreeBody Verif.Spec Verif.Spin Verif.Angles

variable {m : ModelDefinition} {tl : String → String} {D : Distribution} {rd : ChainDefinition → Reading}
  {ι ι' : Interp}

theorem cyc3 (i : ℤ) : cyc (cyc (cyc i)) = i := by
  unfold cyc
  split_ifs <;> omega

mutual
theorem renumberTree3 : ∀ t : Tree, renumberTree (renumberTree (renumberTree t)) = t
  | .id i => by simp only [renumberTree, cyc3]
  | .seq l => by simp only [renumberTree, renumberTrees3 l]
theorem renumberTrees3 : ∀ l : List Tree, renumberTrees (renumberTrees (renumberTrees l)) = l
  | [] => rfl
  | t :: l => by simp only [renumberTrees, renumberTree3 t, renumberTrees3 l]
end

theorem renumberTrees_eq (l : List Tree) : renumberTrees l = l.map renumberTree := by
  induction l with
  | nil => rfl
  | cons t l ih => simp only [renumberTrees, List.map_cons, ih]

theorem renumberPropagator3 (p : Propagator) :
    renumberPropagator (renumberPropagator (renumberPropagator p)) = p := by
  unfold renumberPropagator
  simp only [renumberTrees3]

theorem renumberVertex3 (v : Vertex) : renumberVertex (renumberVertex (renumberVertex v)) = v := by
  unfold renumberVertex
  simp only [renumberTrees3]

theorem renumberChainDef3 (c : ChainDefinition) :
    renumberChainDef (renumberChainDef (renumberChainDef c)) = c := by
  unfold renumberChainDef
  simp only [renumberTrees3, List.map_map]
  have h1 : renumberPropagator ∘ renumberPropagator ∘ renumberPropagator = id := funext renumberPropagator3
  have h2 : renumberVertex ∘ renumberVertex ∘ renumberVertex = id := funext renumberVertex3
  rw [h1, h2, List.map_id, List.map_id]

/-- The readings of the renumbered chains. -/
def renumberedReadings (rd : ChainDefinition → Reading) (c : ChainDefinition) : Reading :=
  renumberReading (rd (renumberChainDef (renumberChainDef c)))

theorem renumberedReadings_eq (rd : ChainDefinition → Reading) (c : ChainDefinition) :
    renumberedReadings rd (renumberChainDef c) = renumberReading (rd c) := by
  unfold renumberedReadings
  rw [renumberChainDef3]

theorem id_mem_renumber {l : List Tree} {x : ℤ} :
    .id x ∈ renumberTrees l ↔ ∃ i, .id i ∈ l ∧ x = cyc i := by
  rw [renumberTrees_eq, List.mem_map]
  constructor
  · rintro ⟨t, ht, he⟩
    cases t with
    | id i =>
      simp only [renumberTree, Tree.id.injEq] at he
      exact ⟨i, ht, he.symm⟩
    | seq l => simp only [renumberTree] at he; cases he
  · rintro ⟨i, hi, rfl⟩
    exact ⟨_, hi, by simp only [renumberTree]⟩

theorem spectator_renumber {l : List Tree} {k : ℤ} :
    IsSpectator (renumberTrees l) (cyc k) ↔ IsSpectator l k := by
  unfold IsSpectator
  constructor
  · rintro ⟨h1, h2⟩
    obtain ⟨i, hi, he⟩ := id_mem_renumber.1 h1
    rw [cyc_inj he]
    exact ⟨hi, fun j hj => cyc_inj ((h2 _ (id_mem_renumber.2 ⟨j, hj, rfl⟩)).trans he)⟩
  · rintro ⟨h1, h2⟩
    refine ⟨id_mem_renumber.2 ⟨k, h1, rfl⟩, fun x hx => ?_⟩
    obtain ⟨i, hi, rfl⟩ := id_mem_renumber.1 hx
    rw [h2 i hi]

theorem reads_renumber {c : ChainDefinition} {r : Reading} (h : Reads c r) :
    Reads (renumberChainDef c) (renumberReading r) := by
  obtain ⟨p, q, ho, ⟨a, b, hp⟩, hq1, hq2⟩ := h
  refine ⟨renumberVertex p, renumberVertex q, ?_, ⟨renumberTree a, renumberTree b, ?_⟩, ?_, hq2⟩
  · rcases ho with ho | ho
    · exact .inl (by simp [renumberChainDef, ho])
    · exact .inr (by simp [renumberChainDef, ho])
  · rcases hp with ⟨h1, h2⟩ | ⟨h1, h2⟩
    · exact .inl ⟨by simp [renumberVertex, h1, renumberTrees, renumberTree, renumberReading], h2⟩
    · exact .inr ⟨by simp [renumberVertex, h1, renumberTrees, renumberTree, renumberReading], h2⟩
  · simp [renumberVertex, hq1, renumberTrees, renumberTree, renumberReading]

theorem standard_reading {r : Reading} (h : r.Standard) : (renumberReading r).Standard :=
  (List.Perm.map cyc h).trans (by decide)

theorem kinematics_renumber (h : WellFormedKinematics D.kinematics) :
    WellFormedKinematics (renumberDistribution D).kinematics where
  initial := by
    show cyc _ = 0
    rw [h.initial]
    rfl
  final := by
    show ((D.kinematics.finalState.map renumberStateDef).map (·.index)).Perm _
    rw [List.map_map]
    have := h.final.map cyc
    rw [List.map_map] at this
    exact this.trans (by decide)
  spins := by
    intro d hd
    rcases List.mem_cons.1 hd with rfl | hd
    · exact h.spins D.kinematics.initialState (List.mem_cons_self ..)
    · obtain ⟨x, hx, rfl⟩ := List.mem_map.1 hd
      exact h.spins x (List.mem_cons_of_mem _ hx)

theorem readsModel_renumber (h : ReadsModel m D rd) :
    ReadsModel (renumberModel m) (renumberDistribution D) (renumberedReadings rd) where
  head := by
    obtain ⟨rest, hr⟩ := h.head
    exact ⟨rest.map renumberDistribution, by simp [renumberModel, hr]⟩
  kinematics := kinematics_renumber h.kinematics
  reads := by
    intro c' hc'
    obtain ⟨c, hc, rfl⟩ := List.mem_map.1 hc'
    rw [renumberedReadings_eq]
    exact ⟨reads_renumber (h.reads c hc).1, standard_reading (h.reads c hc).2⟩

theorem nonneg_renumber (h : NonnegativeSpins D) : NonnegativeSpins (renumberDistribution D) := by
  intro d hd s hs
  rcases List.mem_cons.1 hd with rfl | hd
  · exact h D.kinematics.initialState (List.mem_cons_self ..) s hs
  · obtain ⟨x, hx, rfl⟩ := List.mem_map.1 hd
    exact h x (List.mem_cons_of_mem _ hx) s hs

/-! ### States -/

theorem toParticle_renumber {d : StateDefinition} {f : String → String} {s : State}
    (h : toParticle d f = .ok s) : toParticle (renumberStateDef d) f = .ok (renumberState s) := by
  unfold toParticle at h ⊢
  simp only [bind_ok] at h ⊢
  obtain ⟨q, hq, h⟩ := h
  refine ⟨q, hq, ?_⟩
  unfold State.new at h ⊢
  simp only [bind_ok] at h ⊢
  obtain ⟨p, hp, h⟩ := h
  exact ⟨p, hp, by cases h; rfl⟩

theorem spin_of_renumbered (hm : ReadsModel m D rd) {d d' : Decay} (h : toDecay m identityFunction = .ok d)
    (h' : toDecay (renumberModel m) identityFunction = .ok d') (i : ℤ) : d'.spin (cyc i) = d.spin i := by
  have hm' := readsModel_renumber hm
  obtain ⟨-, -, p0, ps, hs, hst⟩ := toDecay_standard hm.head hm.kinematics h
  obtain ⟨-, -, p0', ps', hs', hst'⟩ := toDecay_standard hm'.head hm'.kinematics h'
  have e0 : p0' = renumberState p0 := by
    have := toParticle_renumber hs.initial
    exact Except.ok.inj (hs'.initial.symm.trans this)
  have e1 : ps' = ps.map renumberState := by
    have key : ∀ {l : List StateDefinition} {ps ps' : List State},
        List.Forall₂ (fun d s => toParticle d identityFunction = .ok s) l ps →
        List.Forall₂ (fun d s => toParticle d identityFunction = .ok s) (l.map renumberStateDef) ps' →
        ps' = ps.map renumberState := by
      intro l ps ps' h1
      induction h1 generalizing ps' with
      | nil => intro h2; cases h2; rfl
      | cons hx _ ih =>
        intro h2
        cases h2 with
        | cons hy h2 =>
          rw [ih h2, List.map_cons]
          have := toParticle_renumber hx
          rw [Except.ok.inj (hy.symm.trans this)]
    exact key hs.final hs'.final
  have e : d'.states = d.states.map fun x => (cyc x.1, renumberState x.2) := by
    rw [hst, hst', e0, e1]
    simp only [List.map_cons, List.map_map]
    rfl
  unfold Decay.spin Decay.st
  rw [e, get?_renumber]
  cases PyDict.get? d.states i <;> rfl

/-! ### Vertices -/

theorem childHelicity_renumber (lR : ℚ) (l : Fin 4 → ℚ) {t : Tree}
    (h : ∀ i, t = .id i → i ∈ ([0, 1, 2, 3] : List ℤ)) :
    childHelicity lR (byId (renumberHel l)) (renumberTree t) = childHelicity lR (byId l) t := by
  cases t with
  | id i =>
    simp only [renumberTree, childHelicity]
    exact byId_renumber l (h i rfl)
  | seq x => simp only [renumberTree, childHelicity]

theorem vertexValue_renumber {v : Vertex} (lR : ℚ) (l : Fin 4 → ℚ)
    (h : ∀ i, .id i ∈ v.node → i ∈ ([0, 1, 2, 3] : List ℤ)) :
    vertexValue (renumberVertex v) lR (byId (renumberHel l)) = vertexValue v lR (byId l) := by
  have hn : (renumberVertex v).node = v.node.map renumberTree := renumberTrees_eq _
  unfold vertexValue
  rw [hn, show (renumberVertex v).helicities = v.helicities from rfl,
    show vertexParity (renumberVertex v) = vertexParity v from rfl]
  rcases hv : v.node with _ | ⟨x, _ | ⟨y, _ | ⟨z, t⟩⟩⟩
  · rfl
  · rfl
  · have hx := childHelicity_renumber lR l (t := x) fun i hi => h i (by rw [hv, hi]; simp)
    have hy := childHelicity_renumber lR l (t := y) fun i hi => h i (by rw [hv, hi]; simp)
    simp only [List.map_cons, List.map_nil]
    rcases v.helicities with _ | ⟨_ | ⟨_ | a, _ | ⟨_ | b, _ | ⟨c, s⟩⟩⟩⟩
    case some.cons.some.cons.some.nil => exact congrArg₂ (recouplingValue (vertexParity v) a b) hx hy
    all_goals rfl
  · rfl

end Verif.Serialization
