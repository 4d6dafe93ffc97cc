import Verif.Proofs.Serialization
import Verif.Proofs.SerialExample
import Verif.Proofs.SerialText
import Verif.Proofs.Builder

/-! Properties C51-C53, C61 and C62: reading a serialized model. -/
namespace Verif.Serialization
open Verif Verif.ThreeBody Verif.Spec Verif.Spin Verif.Qrules

/-! ### C51 -/

/-- **C51** `get_distribution_def` returns the first distribution, with a warning iff there are
others; it raises `ValueError` iff there is none, and nothing else. -/
theorem C51_distribution (m : ModelDefinition) :
    (∀ D w, getDistributionDef m = .ok (D, w) ↔
      ∃ rest, m.distributions = D :: rest ∧ (w = true ↔ rest ≠ [])) ∧
    (getDistributionDef m = .error .valueError ↔ m.distributions = []) ∧
    (∀ e, getDistributionDef m = .error e → e = .valueError) := by
  refine ⟨fun D w => distribution_ok, ?_, ?_⟩
  · unfold getDistributionDef
    cases m.distributions <;> simp
  · intro e
    unfold getDistributionDef
    cases m.distributions
    · intro h; injection h with h; exact h.symm
    · intro h; cases h

/-- **C51** `get_decay_chains` and `get_reference_topology` read the first distribution. -/
theorem C51_chains_and_topology (m : ModelDefinition) {D : Distribution} {rest : List Distribution}
    (h : m.distributions = D :: rest) :
    getDecayChains m = .ok D.chains ∧ getReferenceTopology m = .ok D.referenceTopology := by
  obtain ⟨w, hw⟩ := distribution_head h
  unfold getDecayChains getReferenceTopology
  rw [hw]
  exact ⟨rfl, rfl⟩

/-- **C51** `get_function_definition` returns the first function with the name; it raises `KeyError`
iff there is none, and nothing else. -/
theorem C51_function (name : String) (m : ModelDefinition) :
    (∀ f, getFunctionDefinition name m = .ok f ↔ ∃ pre post, m.functions = pre ++ f :: post ∧
      f.name = name ∧ ∀ g ∈ pre, g.name ≠ name) ∧
    (getFunctionDefinition name m = .error .keyError ↔ ∀ f ∈ m.functions, f.name ≠ name) ∧
    (∀ e, getFunctionDefinition name m = .error e → e = .keyError) := by
  unfold getFunctionDefinition
  refine ⟨fun f => ?_, ?_, fun e => ?_⟩
  · cases h : m.functions.find? fun f => f.name = name with
    | none =>
      rw [List.find?_eq_none] at h
      constructor
      · intro h; cases h
      · rintro ⟨pre, post, he, hn, -⟩
        exact absurd hn (by simpa using h f (by rw [he]; simp))
    | some g =>
      obtain ⟨hg, pre, post, he, hpre⟩ := List.find?_eq_some_iff_append.1 h
      constructor
      · intro h; injection h with h; subst h
        exact ⟨pre, post, he, by simpa using hg, by simpa using hpre⟩
      · rintro ⟨pre', post', he', hn, hpre'⟩
        have : m.functions.find? (fun f => f.name = name) = some f := by
          rw [List.find?_eq_some_iff_append]
          exact ⟨by simpa using hn, pre', post', he', by simpa using hpre'⟩
        rw [this] at h
        injection h with h
        rw [h]
  · cases h : m.functions.find? fun f => f.name = name with
    | none => simpa [List.find?_eq_none] using h
    | some g =>
      constructor
      · intro h; cases h
      · intro hall
        have := List.mem_of_find?_eq_some h
        have h' := List.find?_some h
        exact absurd (by simpa using h') (hall g this)
  · cases m.functions.find? fun f => f.name = name with
    | none => intro h; injection h with h; exact h.symm
    | some g => intro h; cases h

example : exModel.distributions ≠ [] ∧ ∃ f, getFunctionDefinition "L1520_BW" exModel = .ok f ∧
    f.fields.get? "d" = some 5 := ⟨by simp [exModel], _, rfl, rfl⟩

/-! ### C52 -/

/-- **C52** For a production vertex `[[a, b], k]` or `[k, [a, b]]` and a decay vertex `[i, j]`, in either
order, the chain is `p0 → (R → p_i p_j) p_k` with the resonance that the definition describes; it
is returned iff the spin is half-integer, the three IDs are in the final state and the IDs of the
states are different. -/
theorem C52_decay_chain {c : ChainDefinition} {p q : Vertex} {i j k : ℤ} (h : TwoVertices c p q i j k)
    (p0 : State) (final : PyDict ℤ State) (f : String → String) (ch : Chain) :
    toDecayChain c p0 final f = .ok ch ↔ ∃ s p1 p2 p3, HasSpin c s ∧ IsHalfInteger s ∧
      PyDict.get? final i = some p1 ∧ PyDict.get? final j = some p2 ∧ PyDict.get? final k = some p3 ∧
      [p0.index, p1.index, p2.index, p3.index].Nodup ∧
      ch = chainOf p0 ⟨c.name, f c.name, s, none, 0, 0⟩ p1 p2 p3 := by
  rw [toDecayChain_ok, findDecay_of h, findSpectator_of h]
  constructor
  · rintro ⟨s, i', j', k', p1, p2, p3, hs, hh, h1, h2, h3, h4, h5, h6, rfl⟩
    injection h1 with h1
    injection h1 with e1 e2
    injection h2 with e3
    subst e1 e2 e3
    exact ⟨s, p1, p2, p3, hs, hh, h3, h4, h5, h6, rfl⟩
  · rintro ⟨s, p1, p2, p3, hs, hh, h3, h4, h5, h6, rfl⟩
    exact ⟨s, i, j, k, p1, p2, p3, hs, hh, rfl, rfl, h3, h4, h5, h6, rfl⟩

/-- **C52** The order of the vertices and of the production node does not matter. -/
theorem C52_order_irrelevant {c c' : ChainDefinition} {p q p' q' : Vertex} {i j k : ℤ}
    (h : TwoVertices c p q i j k) (h' : TwoVertices c' p' q' i j k) (hn : c.name = c'.name)
    (hs : c.propagators = c'.propagators) (p0 : State) (final : PyDict ℤ State) (f : String → String) :
    toDecayChain c p0 final f = toDecayChain c' p0 final f := by
  unfold toDecayChain resonanceSpin
  rw [findDecay_of h, findSpectator_of h, findDecay_of h', findSpectator_of h', hn, hs]

/-- **C52** The topology of the definition is not compared with its vertices. -/
theorem C52_topology_ignored (c : ChainDefinition) (t : List Tree) (p0 : State)
    (final : PyDict ℤ State) (f : String → String) :
    toDecayChain { c with topology := t } p0 final f = toDecayChain c p0 final f := rfl

/-- **C52** `get_spectator_id` returns the only integer of the topology; otherwise it raises
`ValueError`. -/
theorem C52_spectator (t : List Tree) :
    (∀ k, getSpectatorId t = .ok k ↔ IsSpectator t k) ∧
    (getSpectatorId t = .error .valueError ↔ ¬ ∃ k, IsSpectator t k) := by
  have hmem : ∀ i, i ∈ (t.filterMap fun | .id i => some i | .seq _ => none).dedup ↔ Tree.id i ∈ t := by
    intro i
    rw [List.mem_dedup, List.mem_filterMap]
    constructor
    · rintro ⟨x, hx, he⟩
      cases x with
      | id j => injection he with he; exact he ▸ hx
      | seq l => cases he
    · intro h
      exact ⟨_, h, rfl⟩
  have hnd : (t.filterMap fun | .id i => some i | .seq _ => none).dedup.Nodup := List.nodup_dedup _
  have h1 : ∀ k, getSpectatorId t = .ok k ↔ IsSpectator t k := by
    intro k
    unfold getSpectatorId IsSpectator
    generalize hl : (t.filterMap fun | .id i => some i | .seq _ => none).dedup = l at hmem hnd
    simp only [← hmem]
    constructor
    · intro h
      split at h
      · injection h with h
        subst h
        simp
      · cases h
    · rintro ⟨h1, h2⟩
      have : l = [k] := by
        match l, hnd, h1, h2 with
        | [a], _, h1, _ => simp at h1; rw [h1]
        | a :: b :: r, hnd, _, h2 =>
          have ha := h2 a (by simp)
          have hb := h2 b (by simp)
          rw [ha, hb] at hnd
          simp at hnd
      rw [this]
  refine ⟨h1, ?_⟩
  constructor
  · rintro h ⟨k, hk⟩
    rw [(h1 k).2 hk] at h
    cases h
  · intro h
    cases hr : getSpectatorId t with
    | ok k => exact absurd ⟨k, (h1 k).1 hr⟩ h
    | error e =>
      unfold getSpectatorId at hr
      split at hr
      · cases hr
      · injection hr with hr
        rw [hr]

example : TwoVertices exKstar exKstar.vertices[0] exKstar.vertices[1] 2 3 1 ∧
    TwoVertices exLambda exLambda.vertices[1] exLambda.vertices[0] 3 1 2 ∧
    IsSpectator exLambda.topology 2 ∧ ¬ ∃ k, IsSpectator [.id 1, .id 2, .id 3] k := by
  refine ⟨exKstar_two, exLambda_two, ?_, ?_⟩
  · refine ⟨List.mem_cons_self .., fun i hi => ?_⟩
    simp only [exLambda, List.mem_cons, List.not_mem_nil, or_false, Tree.id.injEq, reduceCtorEq] at hi
    exact hi
  · rintro ⟨k, -, h⟩
    have h1 := h 1 (by simp)
    have h2 := h 2 (by simp)
    omega

/-! ### C53 -/

/-- **C53** What `to_decay` returns is a valid decay. Its states are those of the kinematics, its
chains are exactly the converted chain definitions and they are strictly sorted. -/
theorem C53_to_decay {m : ModelDefinition} {f : String → String} {d : Decay}
    (h : toDecay m f = .ok d) :
    d.Valid ∧ getStates m f = .ok d.states ∧ (d.chains.map chainKey).Pairwise (· < ·) ∧
    ∃ cs p0 final, getDecayChains m = .ok cs ∧ getInitialState m f = .ok p0 ∧
      getFinalState m f = .ok final ∧
      (∀ ch, ch ∈ d.chains ↔ ∃ c ∈ cs, toDecayChain c p0 final f = .ok ch) ∧
      ∀ c ∈ cs, ∃ ch, toDecayChain c p0 final f = .ok ch := by
  obtain ⟨D, p0, ps, hs, hst, hex, hmem, hlt, hd⟩ := toDecay_facts.1 h
  refine ⟨⟨hd, fun ch hch => ?_⟩, by rw [hst]; exact hs.getStates, hlt, D.chains, p0, _, hs.getChains,
    hs.getInitial, hs.getFinal, hmem, hex⟩
  obtain ⟨c, -, hc⟩ := (hmem ch).1 hch
  obtain ⟨s, i, j, k, p1, p2, p3, -, -, -, -, -, -, -, hn, rfl⟩ := toDecayChain_ok.1 hc
  exact chainNew_chainOf.2 ⟨hn, rfl⟩

/-- **C53** The states of the decay are those that the kinematics describe: the initial state and the
final states, each under its own index. -/
theorem C53_states {m : ModelDefinition} {f : String → String} {d : Decay} (h : toDecay m f = .ok d) :
    ∃ D rest, m.distributions = D :: rest ∧
      ∀ k s, PyDict.get? d.states k = some s → s.index = k ∧
        ∃ def_ ∈ D.kinematics.initialState :: D.kinematics.finalState, IsState def_ f s := by
  obtain ⟨D, p0, ps, hs, hst, -⟩ := toDecay_facts.1 h
  obtain ⟨rest, hr⟩ := hs.head
  refine ⟨D, rest, hr, fun k s hk => ?_⟩
  rw [hst] at hk
  unfold statesOf at hk
  rcases get?_update_mem hk with hk | hk
  · have := PyDict.get?_of_mem (PyDict.nodup_ofItems _) hk
    obtain ⟨h1, h2⟩ := finalOf_mem this
    obtain ⟨d', hd', he⟩ := forall₂_mem_right hs.final h1
    exact ⟨h2, d', List.mem_cons_of_mem _ hd', toParticle_ok.1 he⟩
  · have := PyDict.mem_of_get? hk
    simp only [List.mem_cons, Prod.mk.injEq, List.not_mem_nil, or_false] at this
    obtain ⟨rfl, rfl⟩ := this
    exact ⟨rfl, _, List.mem_cons_self .., toParticle_ok.1 hs.initial⟩

/-- **C53** Two models with the same kinematics whose chain definitions are converted to the same set
of results give the same decay: order and repetitions do not matter, nor do weights, topologies or
other distributions. -/
theorem C53_set_of_chains {m m' : ModelDefinition} {D D' : Distribution}
    {rest rest' : List Distribution} (hm : m.distributions = D :: rest)
    (hm' : m'.distributions = D' :: rest') (hk : D.kinematics = D'.kinematics) (f : String → String)
    (hset : ∀ p0 final r, (∃ c ∈ D.chains, toDecayChain c p0 final f = r) ↔
      ∃ c ∈ D'.chains, toDecayChain c p0 final f = r) (d : Decay) :
    toDecay m f = .ok d ↔ toDecay m' f = .ok d := by
  have key : ∀ {m m' : ModelDefinition} {D D' : Distribution}
      {rest rest' : List Distribution} (_ : m.distributions = D :: rest)
      (_ : m'.distributions = D' :: rest') (_ : D.kinematics = D'.kinematics)
      (_ : ∀ p0 final r, (∃ c ∈ D.chains, toDecayChain c p0 final f = r) ↔
        ∃ c ∈ D'.chains, toDecayChain c p0 final f = r),
      toDecay m f = .ok d → toDecay m' f = .ok d := by
    intro m m' D D' rest rest' hm hm' hk hset h
    obtain ⟨E, p0, ps, hs, hst, hex, hmem, hlt, hd⟩ := toDecay_facts.1 h
    obtain ⟨rest'', hr⟩ := hs.head
    rw [hm] at hr
    injection hr with e1 e2
    subst e1
    refine toDecay_facts.2 ⟨D', p0, ps, ⟨⟨rest', hm'⟩, hk ▸ hs.initial, hk ▸ hs.final⟩, hst, ?_, ?_,
      hlt, hd⟩
    · intro c hc
      obtain ⟨c', hc', he⟩ := (hset p0 (finalOf ps) _).2 ⟨c, hc, rfl⟩
      rw [← he]
      exact hex c' hc'
    · intro ch
      rw [hmem]
      exact hset p0 (finalOf ps) (.ok ch)
  exact ⟨key hm hm' hk hset, key hm' hm hk.symm fun p0 final r => (hset p0 final r).symm⟩

/-- **C53** For well-formed kinematics and well-formed chain definitions `to_decay` returns. -/
theorem C53_returns {m : ModelDefinition} {D : Distribution} {rest : List Distribution}
    (hm : m.distributions = D :: rest) (hk : WellFormedKinematics D.kinematics)
    (hc : ∀ c ∈ D.chains, WellFormedChain c) (f : String → String) : ∃ d, toDecay m f = .ok d := by
  obtain ⟨p0, ps, hs, h0, hp⟩ := stages_exist (f := f) ⟨rest, hm⟩ hk
  have hex : ∀ c ∈ D.chains, ∃ ch, toDecayChain c p0 (finalOf ps) f = .ok ch :=
    fun c h => toDecayChain_returns h0 hp (hc c h) f
  obtain ⟨chains, hch⟩ := forall₂_exists hex
  obtain ⟨sorted, h1, h2, h3⟩ := hs.sorted hch
  refine ⟨⟨statesOf p0 ps, sorted⟩, toDecay_ok.2 ⟨D, p0, ps, chains, sorted, hs, hch, h1, ?_⟩⟩
  refine decayNew_returns h0 hp (f := f) fun ch hm => ?_
  obtain ⟨c, hcm, he⟩ := forall₂_mem_right hch ((h3 ch).1 hm)
  exact ⟨c, hc c hcm, he⟩

theorem exModel_wf : ∃ D rest, exModel.distributions = D :: rest ∧
    WellFormedKinematics D.kinematics ∧ ∀ c ∈ D.chains, WellFormedChain c := by
  refine ⟨_, _, rfl, exKinematics_wf, fun c hc => ?_⟩
  simp only [List.mem_cons, List.not_mem_nil, or_false] at hc
  rcases hc with rfl | rfl | rfl
  · exact exLambda_wf
  · exact exKstar_wf
  · exact exKstar_wf

example : ∃ d, toDecay exModel identityFunction = .ok d := by
  obtain ⟨D, rest, h1, h2, h3⟩ := exModel_wf
  exact C53_returns h1 h2 h3 _

/-! ### C61 -/

/-- **C61** The sign of a parity factor: `-`, nothing or `+`, with any white space around it; anything
else raises `NotImplementedError`. -/
theorem C61_sign (s : String) :
    (signToValue s = .ok (-1) ↔ Surrounded s ['-']) ∧ (signToValue s = .ok 0 ↔ Surrounded s []) ∧
    (signToValue s = .ok 1 ↔ Surrounded s ['+']) ∧
    (signToValue s = .error .notImplementedError ↔
      ¬ Surrounded s ['-'] ∧ ¬ Surrounded s [] ∧ ¬ Surrounded s ['+']) ∧
    (∀ v, signToValue s = .ok v → v = -1 ∨ v = 0 ∨ v = 1) := by
  rw [← strip_iff s (core := ['-']) (by simp [pyIsSpace]) (by simp [pyIsSpace]),
    ← strip_iff s (core := []) (by simp) (by simp),
    ← strip_iff s (core := ['+']) (by simp [pyIsSpace]) (by simp [pyIsSpace])]
  unfold signToValue
  generalize pyStrip s.toList = l
  by_cases h1 : l = ['-']
  · subst h1; simp
  · by_cases h2 : l = []
    · subst h2; simp
    · by_cases h3 : l = ['+']
      · subst h3; simp
      · simp [h1, h2, h3]

example : Surrounded " -\n" ['-'] ∧ ¬ Surrounded "--" ['-'] := by
  refine ⟨⟨[' '], ['\n'], by decide, by simp [IsWhitespace], by simp [IsWhitespace]⟩, ?_⟩
  rw [← strip_iff _ (by simp [pyIsSpace]) (by simp [pyIsSpace])]
  decide

/-! ### C62 -/

/-- **C62** The symbol of an ID is `m_i`. -/
theorem C62_single (i : ℤ) : toMassSymbol (.id i) = .ok ⟨"m" ++ toString i, .nonneg⟩ := rfl

/-- **C62** The symbol of a pair of final state IDs is the Mandelstam variable of the remaining one,
for either order; `to_mandelstam_symbol` gives the same. -/
theorem C62_pair {i j k : ℤ} (h : [i, j, k].Perm [1, 2, 3]) :
    toMassSymbol (.seq [.id i, .id j]) = .ok ⟨"sigma" ++ toString k, .nonneg⟩ ∧
    toMassSymbol (.seq [.id j, .id i]) = .ok ⟨"sigma" ++ toString k, .nonneg⟩ ∧
    toMandelstamSymbol [.id i, .id j] = .ok ⟨"sigma" ++ toString k, .nonneg⟩ := by
  have hi : i ∈ [1, 2, 3] := h.mem_iff.1 (by simp)
  have hj : j ∈ [1, 2, 3] := h.mem_iff.1 (by simp)
  have hk : k ∈ [1, 2, 3] := h.mem_iff.1 (by simp)
  have hn := h.nodup_iff.2 (by decide)
  simp only [List.mem_cons, List.not_mem_nil, or_false] at hi hj hk
  rcases hi with rfl | rfl | rfl <;> rcases hj with rfl | rfl | rfl <;>
    rcases hk with rfl | rfl | rfl <;> first | (exact absurd hn (by decide)) | exact ⟨rfl, rfl, rfl⟩

/-- **C62** Any other list raises `NotImplementedError`. -/
theorem C62_other {l : List Tree} (h : ¬ ∃ i j, l = [.id i, .id j]) :
    toMassSymbol (.seq l) = .error .notImplementedError := by
  unfold toMassSymbol
  split
  · rename_i heq; cases heq
  · rename_i i j heq
    injection heq with heq
    exact absurd ⟨i, j, heq⟩ h
  · rfl

/-- **C62** For a node with a subsystem the "Mandelstam symbol" is the mass `m0` of the initial state, not
its square. -/
theorem C62_production {l : List Tree} (h : ∃ s, .seq s ∈ l) :
    toMandelstamSymbol l = .ok ⟨"m0", .nonneg⟩ := by
  obtain ⟨s, hs⟩ := h
  unfold toMandelstamSymbol
  rw [if_neg]
  · rfl
  · intro hall
    unfold allInt at hall
    rw [List.all_eq_true] at hall
    have := hall _ hs
    simp [Tree.isInt] at this

example : [(3 : ℤ), 1, 2].Perm [1, 2, 3] ∧ ∃ s, Tree.seq s ∈ [.seq [.id 1, .id 2], .id 3] :=
  ⟨by decide, _, List.mem_cons_self ..⟩

end Verif.Serialization
