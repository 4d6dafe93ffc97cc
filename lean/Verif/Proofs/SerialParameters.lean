import Verif.Spec.SerialDynamics
import Verif.Proofs.SerialModel
import Verif.Props.Serialization
import Verif.Props.LineshapeBuilder

/-! Helper lemmas: the parameters of the lineshapes and form factors of a serialized model. -/
namespace Verif.Serialization
open Verif Verif.ThreeBody Verif.Spec

variable {m : ModelDefinition}

/-- The dictionary has exactly the entries that the relation asks for. -/
def Entries (P : PyDict Key Val) (T : Sym → ℚ → Prop) : Prop :=
  (∀ x ∈ P, ∃ s v, x = (.sym s, .real v) ∧ T s v) ∧ ∀ s v, T s v → Key.sym s ∈ PyDict.keys P

theorem entries_nil : Entries [] (fun _ _ => False) := ⟨fun _ h => (by cases h), fun _ _ h => h.elim⟩

theorem entries_update {P Q : PyDict Key Val} {T U : Sym → ℚ → Prop} (hP : Entries P T) (hQ : Entries Q U) :
    Entries (PyDict.update P Q) (fun s v => T s v ∨ U s v) := by
  constructor
  · intro x hx
    rcases PyDict.mem_update hx with h | h
    · obtain ⟨s, v, h1, h2⟩ := hP.1 x h; exact ⟨s, v, h1, .inl h2⟩
    · obtain ⟨s, v, h1, h2⟩ := hQ.1 x h; exact ⟨s, v, h1, .inr h2⟩
  · rintro s v (h | h)
    · exact PyDict.mem_keys_update.2 (.inl (hP.2 s v h))
    · exact PyDict.mem_keys_update.2 (.inr (hQ.2 s v h))

theorem entries_congr {P : PyDict Key Val} {T U : Sym → ℚ → Prop} (h : ∀ s v, T s v ↔ U s v)
    (hP : Entries P T) : Entries P U :=
  ⟨fun x hx => by obtain ⟨s, v, h1, h2⟩ := hP.1 x hx; exact ⟨s, v, h1, (h s v).1 h2⟩,
    fun s v hs => hP.2 s v ((h s v).2 hs)⟩

theorem entries_list (l : List (Sym × ℚ)) : Entries (l.map fun x => (Key.sym x.1, Val.real x.2))
    (fun s v => (s, v) ∈ l) := by
  constructor
  · intro x hx
    obtain ⟨y, hy, rfl⟩ := List.mem_map.1 hx
    exact ⟨y.1, y.2, rfl, hy⟩
  · intro s v h
    simp only [PyDict.keys, List.map_map, List.mem_map]
    exact ⟨_, h, rfl⟩

theorem entries_ofItems (l : List (Sym × ℚ)) :
    Entries (PyDict.ofItems (l.map fun x => (Key.sym x.1, Val.real x.2))) (fun s v => (s, v) ∈ l) :=
  entries_congr (fun s v => by simp) (entries_update entries_nil (entries_list l))

theorem entries_mul {a b : DefExpr} {T U : Sym → ℚ → Prop} (ha : Entries a.parameters T)
    (hb : Entries b.parameters U) : Entries (a.mul (.defined b)).parameters (fun s v => T s v ∨ U s v) :=
  entries_congr (fun s v => by simp)
    (entries_update (entries_update entries_nil ha) hb)

/-! ### Propagators -/

theorem functionNamed_iff {name : String} {f : FunctionDefinition} :
    getFunctionDefinition name m = .ok f ↔ FunctionNamed m name f := (C51_function name m).1 f

theorem breitWigner_entries {p : Propagator} {R : String} {e : DefExpr} {i j : ℤ}
    {f : FunctionDefinition} (hn : p.node = [.id i, .id j]) (hf : getFunctionDefinition p.parametrization m = .ok f)
    (h : formulateBreitWigner p R m = .ok e) :
    Entries e.parameters (fun s v => (s, some v) ∈ breitWignerParameters R i j f) := by
  obtain ⟨f', i', j', s, m1, m2, L, mass, width, ma, mb, d, h1, h2, -, h4, h5, -, h7, h8, h9, h10, h11, rfl⟩ :=
    breitWigner_ok.1 h
  rw [hf] at h1
  cases h1
  rw [hn] at h2
  cases h2
  cases h4
  cases h5
  refine entries_congr (fun s v => ?_) (entries_ofItems [(resonanceMass R, mass), (resonanceWidth R, width),
    (massOfState i, ma), (massOfState j, mb), (resRadius, d)])
  unfold breitWignerParameters
  rw [h7, h8, h9, h10, h11]
  simp only [List.mem_cons, Prod.mk.injEq, Option.some.injEq, List.not_mem_nil, or_false]
  rfl

theorem channelLoop_entries {R : String} {s mass d : Sym} {n : ℕ} {cs : List (PyDict String ℚ)}
    {ch : List ChannelArguments} {P : PyDict Key Val} {r : List ChannelArguments × PyDict Key Val}
    {T : Sym → ℚ → Prop} (h : channelLoop R s mass d n cs ch P = .ok r) (hp : Entries P T) :
    Entries r.2 (fun s v => T s v ∨ (s, some v) ∈ (cs.zipIdx n).flatMap fun x => channelParameters R x.2 x.1) := by
  induction cs generalizing n ch P T with
  | nil => cases h; exact entries_congr (fun s v => by simp) hp
  | cons c t ih =>
    unfold channelLoop at h
    simp only [bind_ok] at h
    obtain ⟨L, -, ma, h1, mb, h2, gsq, h3, h⟩ := h
    have h1 := get_ok.1 h1
    have h2 := get_ok.1 h2
    have h3 := get_ok.1 h3
    refine entries_congr (fun s v => ?_) (ih h (entries_update hp (entries_list
      [(channelMassA n, ma), (channelMassB n, mb), (channelWidth R n, gsq)])))
    have : ((s, v) ∈ [(channelMassA n, ma), (channelMassB n, mb), (channelWidth R n, gsq)] ↔
        (s, some v) ∈ channelParameters R n c) := by
      unfold channelParameters
      rw [h1, h2, h3]
      simp only [List.mem_cons, Prod.mk.injEq, Option.some.injEq, List.not_mem_nil, or_false]
      rfl
    rw [this, List.zipIdx_cons, List.flatMap_cons, List.mem_append, or_assoc]

theorem multichannel_entries {p : Propagator} {R : String} {e : DefExpr} {i j : ℤ}
    {f : FunctionDefinition} (hn : p.node = [.id i, .id j]) (hf : getFunctionDefinition p.parametrization m = .ok f)
    (h : formulateMultichannelBreitWigner p R m = .ok e) : ∃ c cs, f.channels = some (c :: cs) ∧
    Entries e.parameters (fun s v => (s, some v) ∈ multichannelParameters R i j f c cs) := by
  obtain ⟨f', c1, c2, cs, i', j', s, m1, m2, L, mass, gsq, ma, mb, d, r, h1, hc, h2, -, h4, h5, -, h7, h8, h9,
    h10, h11, h12, rfl⟩ := multichannel_ok h
  rw [hf] at h1
  cases h1
  rw [hn] at h2
  cases h2
  cases h4
  cases h5
  refine ⟨c1, c2 :: cs, hc, entries_congr (fun s v => ?_) (channelLoop_entries h12 (entries_ofItems
    [(resonanceMass R, mass), (resonanceWidth R, gsq), (massOfState i, ma), (massOfState j, mb),
      (⟨"R_{" ++ R ++ "}", .nonneg⟩, d)]))⟩
  unfold multichannelParameters
  rw [h7, h8, h9, h10, h11]
  simp only [List.mem_append, List.mem_cons, Prod.mk.injEq, Option.some.injEq, List.not_mem_nil, or_false]
  rfl

theorem builder_entries {p : Propagator} {R : String} {e : DefExpr} {i j : ℤ} {f : FunctionDefinition}
    {b : PropagatorBuilder} (hn : p.node = [.id i, .id j])
    (hf : getFunctionDefinition p.parametrization m = .ok f)
    (hb : PyDict.get? (dynamicsDefinitions none) f.type = some b) (h : b p R m = .ok e) :
    Entries e.parameters (FunctionParameter R i j f) := by
  rcases builtin_get hb with ⟨ht, rfl⟩ | ⟨ht, rfl⟩
  · refine entries_congr (fun s v => ⟨.breitWigner ht, ?_⟩) (breitWigner_entries hn hf h)
    rintro (⟨-, h⟩ | ⟨c, cs, ht', -, -⟩)
    · exact h
    · rw [ht] at ht'; simp at ht'
  · obtain ⟨c, cs, hc, he⟩ := multichannel_entries hn hf h
    refine entries_congr (fun s v => ⟨.multichannel c cs ht hc, ?_⟩) he
    rintro (⟨ht', -⟩ | ⟨c', cs', -, hc', h⟩)
    · rw [ht] at ht'; simp at ht'
    · rw [hc] at hc'; cases hc'; exact h

theorem dynamicsLoop_entries {R : String} {ps : List Propagator}
    (hn : ∀ p ∈ ps, ∃ i j, p.node = [.id i, .id j]) {d e : DefExpr} {T : Sym → ℚ → Prop}
    (hd : Entries d.parameters T) (h : dynamicsLoop (dynamicsDefinitions none) R m ps d = .ok e) :
    Entries e.parameters (fun s v => T s v ∨ ∃ p ∈ ps, ∃ f i j, p.node = [.id i, .id j] ∧
      FunctionNamed m p.parametrization f ∧ FunctionParameter R i j f s v) := by
  induction ps generalizing d T with
  | nil => cases h; exact entries_congr (fun s v => by simp) hd
  | cons p t ih =>
    unfold dynamicsLoop at h
    simp only [bind_ok] at h
    obtain ⟨f, hf, h⟩ := h
    cases hb : PyDict.get? (dynamicsDefinitions none) f.type with
    | none => rw [hb] at h; cases h
    | some b =>
      rw [hb] at h
      simp only [bind_ok] at h
      obtain ⟨x, hx, h⟩ := h
      obtain ⟨i, j, hij⟩ := hn p (List.mem_cons_self ..)
      refine entries_congr (fun s v => ?_) (ih (fun p hp => hn p (List.mem_cons_of_mem _ hp))
        (entries_mul hd (builder_entries hij hf hb hx)) h)
      have : FunctionParameter R i j f s v ↔ ∃ f' i' j', p.node = [.id i', .id j'] ∧
          FunctionNamed m p.parametrization f' ∧ FunctionParameter R i' j' f' s v := by
        constructor
        · intro h; exact ⟨f, i, j, hij, functionNamed_iff.1 hf, h⟩
        · rintro ⟨f', i', j', h1, h2, h3⟩
          have := functionNamed_iff.2 h2
          rw [hf] at this
          cases this
          rw [hij] at h1
          cases h1
          exact h3
      rw [this, or_assoc]
      simp only [List.mem_cons, exists_eq_or_imp]

theorem formFactor_entries {v : Vertex} {e : DefExpr} {initial : String}
    (hi : ∀ p0, getInitialState m identityFunction = .ok p0 → p0.latex = initial)
    (hv : (∃ i j, v.node = [.id i, .id j]) ∨ ∃ a b k, ProductionNode v.node a b k)
    (h : formulateFormFactor v m = .ok e) :
    Entries e.parameters (fun s x => ∃ name f, v.formfactor = some name ∧ name ≠ "" ∧ FunctionNamed m name f ∧
      PyDict.get? f.fields "radius" = some x ∧ (((∃ i j, v.node = [.id i, .id j]) ∧ s = resonanceRadius) ∨
        ((∃ a b k, ProductionNode v.node a b k) ∧ s = radiusNamed initial))) := by
  rcases formFactor_ok.1 h with ⟨h1, rfl⟩ | ⟨name, f, s, x, y, m1, m2, R, L, radius, h1, h2, h3, h4, -, -, -, -, hR,
    -, hr, rfl⟩
  · refine entries_congr (fun s x => ⟨False.elim, ?_⟩) entries_nil
    rintro ⟨name, f, h, h', -⟩
    rcases h1 with h1 | h1 <;> rw [h] at h1 <;> cases h1
    exact h' rfl
  · refine entries_congr (fun s' x' => ?_) (entries_list [(R, radius)])
    have hex : ∀ {i j a b k}, v.node = [.id i, .id j] → ProductionNode v.node a b k → False := by
      rintro i j a b k h1 (h2 | h2) <;> rw [h1] at h2 <;> cases h2
    have hint : allInt v.node = true ↔ ∃ i j, v.node = [.id i, .id j] := by
      rcases hv with ⟨i, j, hv⟩ | ⟨a, b, k, hv⟩
      · rw [hv]; exact ⟨fun _ => ⟨i, j, rfl⟩, fun _ => rfl⟩
      · constructor
        · intro h; rcases hv with hv | hv <;> rw [hv] at h <;> cases h
        · rintro ⟨i, j, hi⟩; exact (hex hi hv).elim
    constructor
    · intro hm
      rw [List.mem_singleton] at hm
      cases hm
      refine ⟨name, f, h1, h2, functionNamed_iff.1 h3, hr, ?_⟩
      rcases hR with ⟨ha, rfl⟩ | ⟨ha, p0, hp, rfl⟩
      · exact .inl ⟨hint.1 ha, rfl⟩
      · refine .inr ⟨?_, ?_⟩
        · rcases hv with hv | hv
          · rw [hint.2 hv] at ha; cases ha
          · exact hv
        · rw [hi p0 hp]; rfl
    · rintro ⟨name', f', g1, -, g3, g4, g5⟩
      rw [h1] at g1
      cases g1
      have := functionNamed_iff.2 g3
      rw [h3] at this
      cases this
      rw [hr] at g4
      cases g4
      rw [List.mem_singleton]
      rcases hR with ⟨ha, rfl⟩ | ⟨ha, p0, hp, rfl⟩
      · rcases g5 with ⟨-, rfl⟩ | ⟨⟨a, b, k, hp⟩, -⟩
        · rfl
        · obtain ⟨i, j, hij⟩ := hint.1 ha
          exact (hex hij hp).elim
      · rcases g5 with ⟨g5, -⟩ | ⟨-, rfl⟩
        · rw [hint.2 g5] at ha; cases ha
        · rw [hi p0 hp]; rfl

/-! ### Chains and models -/

theorem foldl_entries {ds : List DefExpr} {d : DefExpr} {T : Sym → ℚ → Prop} {U : DefExpr → Sym → ℚ → Prop}
    (hd : Entries d.parameters T) (h : ∀ x ∈ ds, Entries x.parameters (U x)) :
    Entries (ds.foldl (fun a x => a.mul (.defined x)) d).parameters
      (fun s v => T s v ∨ ∃ x ∈ ds, U x s v) := by
  induction ds generalizing d T with
  | nil => exact entries_congr (fun s v => by simp) hd
  | cons x t ih =>
    refine entries_congr (fun s v => ?_) (ih (entries_mul hd (h x (List.mem_cons_self ..)))
      fun y hy => h y (List.mem_cons_of_mem _ hy))
    simp only [List.mem_cons, exists_eq_or_imp, or_assoc]

variable {tl : String → String} {D : Distribution} {rd : ChainDefinition → Reading} {cl : Bool}
  {a : AmplitudeModel} {K : ℕ → ℤ} {E : ℕ → Expr} {P : ℕ → PyDict Key Val} {Θ : ℕ → Sym × RExpr} {ref : ℤ}
  {ids : List ℤ} {zetas : PyDict Sym RExpr} {terms : List Expr}

theorem initial_name (hD : ∃ rest, m.distributions = D :: rest) {p0 : State}
    (h : getInitialState m identityFunction = .ok p0) : p0.latex = D.kinematics.initialState.name := by
  obtain ⟨D', rest', h1, h2⟩ := getInitialState_ok.1 h
  obtain ⟨rest, hr⟩ := hD
  rw [hr] at h1
  cases h1
  exact (toParticle_ok.1 h2).2.2.2.1

theorem chain_entries (hm : ReadsModel m D rd) (htwo : TwoBodyPropagators D) {c : ChainDefinition}
    (hc : c ∈ D.chains) {d : DefExpr} {ds : List DefExpr} (hd : formulateDynamics c m tl none = .ok d)
    (hds : List.Forall₂ (fun v x => formulateFormFactor v m = .ok x) c.vertices ds) :
    Entries (ds.foldl (fun a x => a.mul (.defined x)) d).parameters
      (ChainParameter m D.kinematics.initialState.name tl c) := by
  obtain ⟨⟨p, q, ho, ⟨a, b, hp⟩, hq, -⟩, -⟩ := hm.reads c hc
  have hvert : ∀ v ∈ c.vertices, (∃ i j, v.node = [.id i, .id j]) ∨ ∃ a b k, ProductionNode v.node a b k := by
    intro v hv
    have hv : v = p ∨ v = q := by
      rcases ho with ho | ho <;> rw [ho] at hv <;>
        simp only [List.mem_cons, List.not_mem_nil, or_false] at hv <;> tauto
    rcases hv with rfl | rfl
    · rcases hp with ⟨hp, -⟩ | ⟨hp, -⟩
      · exact .inr ⟨a, b, _, .inl hp⟩
      · exact .inr ⟨a, b, _, .inr hp⟩
    · exact .inl ⟨_, _, hq⟩
  have h1 := dynamicsLoop_entries (htwo c hc) entries_nil hd
  have hff : ∀ {v e}, v ∈ c.vertices → formulateFormFactor v m = .ok e → _ :=
    fun {v e} hv he => formFactor_entries (fun p0 h => initial_name hm.head h) (hvert v hv) he
  refine entries_congr (fun s v => ?_) (foldl_entries h1 (U := fun x s v => ∃ y ∈ c.vertices,
    formulateFormFactor y m = .ok x ∧ ∃ name f, y.formfactor = some name ∧ name ≠ "" ∧ FunctionNamed m name f ∧
      PyDict.get? f.fields "radius" = some v ∧ (((∃ i j, y.node = [.id i, .id j]) ∧ s = resonanceRadius) ∨
        ((∃ a b k, ProductionNode y.node a b k) ∧ s = radiusNamed D.kinematics.initialState.name))) ?_)
  · simp only [false_or]
    constructor
    · rintro (⟨p, hp, f, i, j, h1, h2, h3⟩ | ⟨x, -, y, hy, -, name, f, h1, h2, h3, h4, h5⟩)
      · exact .propagator p f i j hp h1 h2 h3
      · rcases h5 with ⟨⟨i, j, h5⟩, h6⟩ | ⟨⟨a, b, k, h5⟩, h6⟩
        · exact .decayVertex y name f i j hy h1 h2 h5 h3 h4 h6
        · exact .productionVertex y name f a b k hy h1 h2 h5 h3 h4 h6
    · rintro (⟨p, f, i, j, hp, h1, h2, h3⟩ | ⟨y, name, f, i, j, hy, h1, h2, h5, h3, h4, h6⟩ |
        ⟨y, name, f, a, b, k, hy, h1, h2, h5, h3, h4, h6⟩)
      · exact .inl ⟨p, hp, f, i, j, h1, h2, h3⟩
      · obtain ⟨x, hx, he⟩ := Qrules.forall₂_mem_left hds hy
        exact .inr ⟨x, hx, y, hy, he, name, f, h1, h2, h3, h4, .inl ⟨⟨i, j, h5⟩, h6⟩⟩
      · obtain ⟨x, hx, he⟩ := Qrules.forall₂_mem_left hds hy
        exact .inr ⟨x, hx, y, hy, he, name, f, h1, h2, h3, h4, .inr ⟨⟨a, b, k, h5⟩, h6⟩⟩
  · intro x hx
    obtain ⟨y, hy, he⟩ := Qrules.forall₂_mem_right hds hx
    refine ⟨fun z hz => ?_, ?_⟩
    · obtain ⟨s, v, h1, h2⟩ := (hff hy he).1 z hz
      exact ⟨s, v, h1, y, hy, he, h2⟩
    · rintro s v ⟨y', hy', he', h'⟩
      exact (hff hy' he').2 s v h'

theorem parameter_value (hm : ReadsModel m D rd) (htwo : TwoBodyPropagators D)
    (hf : Formulated m tl none D cl a K E P Θ ref ids zetas terms)
    {l : ℚ × ℚ × ℚ × ℚ} (hl : l ∈ helicityTuples (spins a.decay)) {c : ChainDefinition} (hc : c ∈ D.chains)
    {s : Sym} {v : ℚ} (hs : ChainParameter m D.kinematics.initialState.name tl c s v)
    (hall : ∀ c' ∈ D.chains, ∀ v', ChainParameter m D.kinematics.initialState.name tl c' s v' → v' = v)
    (hmass : ∀ i ∈ ([0, 1, 2, 3] : List ℤ), s ≠ massOfState i) :
    PyDict.get? a.parameterDefaults (.sym s) = some (.real v) := by
  have hasm : s.asm = .nonneg := by
    obtain ⟨n, hn, rfl⟩ := List.mem_iff_getElem.1 hc
    obtain ⟨c', hc', -, -, d, ds, w, h1, h2, -, -⟩ := pair_chain hm hf (x := (l, n)) (mem_serialPairs.2 ⟨hl, hn⟩)
    rw [List.getElem?_eq_getElem hn] at hc'
    injection hc' with hc'
    subst hc'
    have hk := (chain_entries hm htwo hc h1 h2).2 s v hs
    by_contra hne
    refine not_nonneg (nonneg_foldl (nonneg_dynamics (fun _ h => by cases h) h1) (ds := ds) fun x hx => ?_) hne hk
    obtain ⟨v, -, hv⟩ := Qrules.forall₂_mem_right h2 hx
    exact nonneg_formFactor hv
  rw [hf.parameters, PyDict.get?_update_of_not_mem ?_]
  · refine PyDict.get?_update_const ?_ fun x hx hk => ?_
    · obtain ⟨n, hn, rfl⟩ := List.mem_iff_getElem.1 hc
      have hp : ((l, n) : (ℚ × ℚ × ℚ × ℚ) × ℕ) ∈ serialPairs D a.decay := mem_serialPairs.2 ⟨hl, hn⟩
      obtain ⟨c', hc', -, -, d, ds, w, h1, h2, -, hP⟩ := pair_chain hm hf hp
      rw [List.getElem?_eq_getElem hn] at hc'
      injection hc' with hc'
      subst hc'
      have : Key.sym s ∈ PyDict.keys (P n) := by
        rw [hP]
        exact PyDict.mem_keys_update.2 (.inr ((chain_entries hm htwo hc h1 h2).2 s v hs))
      obtain ⟨y, hy, he⟩ := List.mem_map.1 this
      exact ⟨y, List.mem_flatMap.2 ⟨(l, n), hp, hy⟩, he⟩
    · obtain ⟨y, hy, hx⟩ := List.mem_flatMap.1 hx
      obtain ⟨c', -, hc', -, d, ds, w, h1, h2, -, hP⟩ := pair_chain hm hf hy
      rw [hP] at hx
      rcases PyDict.mem_update hx with hx | hx
      · rw [List.mem_singleton.1 hx] at hk
        injection hk with hk
        rw [← hk] at hasm
        cases hasm
      · obtain ⟨s', v', rfl, h'⟩ := (chain_entries hm htwo hc' h1 h2).1 x hx
        injection hk with hk
        subst hk
        rw [hall c' hc' v' h']
  · intro hk
    obtain ⟨x, hx, he⟩ := List.mem_map.1 hk
    unfold massParams massDict at hx
    simp only [List.map_cons, List.map_nil, List.mem_cons, List.not_mem_nil, or_false] at hx
    rcases hx with rfl | rfl | rfl | rfl <;> injection he with he
    · exact hmass 0 (by simp) he.symm
    · exact hmass 1 (by simp) he.symm
    · exact hmass 2 (by simp) he.symm
    · exact hmass 3 (by simp) he.symm

theorem mass_value (hf : Formulated m tl add D cl a K E P Θ ref ids zetas terms) {i : ℤ} (hi : i ∈ ([0, 1, 2, 3] : List ℤ)) :
    PyDict.get? a.parameterDefaults (.sym (massOfState i)) = some (.real (a.decay.st i).mass) := by
  rw [hf.parameters]
  refine PyDict.get?_update_const ?_ fun x hx hk => ?_
  · unfold massParams massDict
    simp only [List.mem_cons, List.not_mem_nil, or_false] at hi
    rcases hi with rfl | rfl | rfl | rfl
    · exact ⟨_, .head _, rfl⟩
    · exact ⟨_, .tail _ (.head _), rfl⟩
    · exact ⟨_, .tail _ (.tail _ (.head _)), rfl⟩
    · exact ⟨_, .tail _ (.tail _ (.tail _ (.head _))), rfl⟩
  · unfold massParams massDict at hx
    simp only [List.map_cons, List.map_nil, List.mem_cons, List.not_mem_nil, or_false] at hx
    rcases hx with rfl | rfl | rfl | rfl <;> injection hk with hk <;>
      rw [massOfState_inj (i := _) (j := i) hk]

/-! ### Names -/

theorem massNamed_inj {R R' : String} (h : massNamed R = massNamed R') : R = R' := by
  have := congrArg (fun s : Sym => s.name.toList) h
  simp only [massNamed, String.toList_append] at this
  exact String.toList_inj.1 (List.append_cancel_left (List.append_cancel_right this))

theorem widthNamed_inj {R R' : String} (h : widthNamed R = widthNamed R') : R = R' := by
  have := congrArg (fun s : Sym => s.name.toList) h
  simp only [widthNamed, String.toList_append] at this
  exact String.toList_inj.1 (List.append_cancel_left (List.append_cancel_right this))

theorem massNamed_first {R : String} {n : ℕ} (h : massNamed R = firstMassOfChannel n) :
    R = "a," ++ toString n := by
  apply massNamed_inj
  rw [h]
  unfold firstMassOfChannel massNamed
  congr 1

theorem massNamed_second {R : String} {n : ℕ} (h : massNamed R = secondMassOfChannel n) :
    R = "b," ++ toString n := by
  apply massNamed_inj
  rw [h]
  unfold secondMassOfChannel massNamed
  congr 1

theorem widthNamed_channel {R R' : String} {n : ℕ} (h : widthNamed R = widthOfChannel R' n) :
    R = R' ++ "}^\\text{ch. " ++ toString n := by
  apply widthNamed_inj
  rw [h]
  unfold widthOfChannel widthNamed
  congr 1

theorem head_massNamed (R : String) : (massNamed R).name.toList.head? = some 'm' := by
  simp [massNamed, String.toList_append]
theorem head_widthNamed (R : String) : (widthNamed R).name.toList.head? = some '\\' := by
  simp [widthNamed, String.toList_append]
theorem head_radiusNamed (R : String) : (radiusNamed R).name.toList.head? = some 'R' := by
  simp [radiusNamed, String.toList_append]
theorem head_widthOfChannel (R : String) (n : ℕ) : (widthOfChannel R n).name.toList.head? = some '\\' := by
  simp [widthOfChannel, String.toList_append]
theorem head_first (n : ℕ) : (firstMassOfChannel n).name.toList.head? = some 'm' := by
  simp [firstMassOfChannel, String.toList_append]
theorem head_second (n : ℕ) : (secondMassOfChannel n).name.toList.head? = some 'm' := by
  simp [secondMassOfChannel, String.toList_append]

theorem massNamed_ne_state (R : String) (i : ℤ) : massNamed R ≠ massOfState i :=
  fun h => massOfState_ne i ⟨R, R, 0, none, 0, 0⟩ h.symm

theorem widthNamed_ne_state (R : String) (i : ℤ) : widthNamed R ≠ massOfState i :=
  name_ne (head_widthNamed R) (head_state i) (by decide)

/-- Where a resonance mass may come from. -/
theorem mass_origin {initial : String} {c : ChainDefinition} {R : String} {v : ℚ}
    (h : ChainParameter m initial tl c (massNamed R) v)
    (hR : ∀ n : ℕ, R ≠ "a," ++ toString n ∧ R ≠ "b," ++ toString n) :
    tl c.name = R ∧ ∃ p ∈ c.propagators, ∃ f, FunctionNamed m p.parametrization f ∧
      PyDict.get? f.fields "mass" = some v := by
  rcases h with ⟨p, f, i, j, hp, -, hf, h⟩ | ⟨_, _, _, _, _, -, -, -, -, -, -, h⟩ |
    ⟨_, _, _, _, _, _, -, -, -, -, -, -, h⟩
  · have hres : ∀ {n : ℕ} {c' : PyDict String ℚ},
        (massNamed R, some v) ∉ channelParameters (tl c.name) n c' := by
      intro n c' hx
      unfold channelParameters at hx
      simp only [List.mem_cons, List.not_mem_nil, or_false, Prod.mk.injEq] at hx
      rcases hx with ⟨h, -⟩ | ⟨h, -⟩ | ⟨h, -⟩
      · exact (hR n).1 (massNamed_first h)
      · exact (hR n).2 (massNamed_second h)
      · exact name_ne (head_massNamed R) (head_widthOfChannel _ _) (by decide) h
    rcases h with ⟨-, h⟩ | ⟨c', cs, -, -, h⟩
    · unfold breitWignerParameters at h
      simp only [List.mem_cons, List.not_mem_nil, or_false, Prod.mk.injEq] at h
      rcases h with ⟨h, h'⟩ | ⟨h, -⟩ | ⟨h, -⟩ | ⟨h, -⟩ | ⟨h, -⟩
      · exact ⟨(massNamed_inj h).symm, p, hp, f, hf, h'.symm⟩
      · exact absurd h (name_ne (head_massNamed R) (head_widthNamed _) (by decide))
      · exact absurd h (massNamed_ne_state R _)
      · exact absurd h (massNamed_ne_state R _)
      · exact absurd h (name_ne (head_massNamed R) head_radius (by decide))
    · unfold multichannelParameters at h
      rw [List.mem_append] at h
      rcases h with h | h
      · simp only [List.mem_cons, List.not_mem_nil, or_false, Prod.mk.injEq] at h
        rcases h with ⟨h, h'⟩ | ⟨h, -⟩ | ⟨h, -⟩ | ⟨h, -⟩ | ⟨h, -⟩
        · exact ⟨(massNamed_inj h).symm, p, hp, f, hf, h'.symm⟩
        · exact absurd h (name_ne (head_massNamed R) (head_widthNamed _) (by decide))
        · exact absurd h (massNamed_ne_state R _)
        · exact absurd h (massNamed_ne_state R _)
        · exact absurd h (name_ne (head_massNamed R) (head_radiusNamed _) (by decide))
      · obtain ⟨x, -, hx⟩ := List.mem_flatMap.1 h
        exact absurd hx hres
  · exact absurd h (name_ne (head_massNamed R) head_radius (by decide))
  · exact absurd h (name_ne (head_massNamed R) (head_radiusNamed _) (by decide))

/-- Where a resonance width may come from. -/
theorem width_origin {initial : String} {c : ChainDefinition} {R : String} {v : ℚ}
    (h : ChainParameter m initial tl c (widthNamed R) v)
    (hR : ∀ n : ℕ, R ≠ tl c.name ++ "}^\\text{ch. " ++ toString n) :
    tl c.name = R ∧ ∃ p ∈ c.propagators, ∃ f, FunctionNamed m p.parametrization f ∧
      (f.type = "BreitWigner" → PyDict.get? f.fields "width" = some v) ∧
      (f.type = "MultichannelBreitWigner" → ∃ c' cs, f.channels = some (c' :: cs) ∧
        PyDict.get? c' "gsq" = some v) := by
  rcases h with ⟨p, f, i, j, hp, -, hf, h⟩ | ⟨_, _, _, _, _, -, -, -, -, -, -, h⟩ |
    ⟨_, _, _, _, _, _, -, -, -, -, -, -, h⟩
  · have hres : ∀ {n : ℕ} {c' : PyDict String ℚ},
        (widthNamed R, some v) ∉ channelParameters (tl c.name) n c' := by
      intro n c' hx
      unfold channelParameters at hx
      simp only [List.mem_cons, List.not_mem_nil, or_false, Prod.mk.injEq] at hx
      rcases hx with ⟨h, -⟩ | ⟨h, -⟩ | ⟨h, -⟩
      · exact name_ne (head_widthNamed R) (head_first _) (by decide) h
      · exact name_ne (head_widthNamed R) (head_second _) (by decide) h
      · exact hR n (widthNamed_channel h)
    rcases h with ⟨ht, h⟩ | ⟨c', cs, ht, hc, h⟩
    · unfold breitWignerParameters at h
      simp only [List.mem_cons, List.not_mem_nil, or_false, Prod.mk.injEq] at h
      rcases h with ⟨h, -⟩ | ⟨h, h'⟩ | ⟨h, -⟩ | ⟨h, -⟩ | ⟨h, -⟩
      · exact absurd h (name_ne (head_widthNamed R) (head_massNamed _) (by decide))
      · exact ⟨(widthNamed_inj h).symm, p, hp, f, hf, fun _ => h'.symm, fun ht' => by
          rw [ht] at ht'; simp at ht'⟩
      · exact absurd h (widthNamed_ne_state R _)
      · exact absurd h (widthNamed_ne_state R _)
      · exact absurd h (name_ne (head_widthNamed R) head_radius (by decide))
    · unfold multichannelParameters at h
      rw [List.mem_append] at h
      rcases h with h | h
      · simp only [List.mem_cons, List.not_mem_nil, or_false, Prod.mk.injEq] at h
        rcases h with ⟨h, -⟩ | ⟨h, h'⟩ | ⟨h, -⟩ | ⟨h, -⟩ | ⟨h, -⟩
        · exact absurd h (name_ne (head_widthNamed R) (head_massNamed _) (by decide))
        · exact ⟨(widthNamed_inj h).symm, p, hp, f, hf, fun ht' => by rw [ht] at ht'; simp at ht',
            fun _ => ⟨c', cs, hc, h'.symm⟩⟩
        · exact absurd h (widthNamed_ne_state R _)
        · exact absurd h (widthNamed_ne_state R _)
        · exact absurd h (name_ne (head_widthNamed R) (head_radiusNamed _) (by decide))
      · obtain ⟨x, -, hx⟩ := List.mem_flatMap.1 h
        exact absurd hx hres
  · exact absurd h (name_ne (head_widthNamed R) head_radius (by decide))
  · exact absurd h (name_ne (head_widthNamed R) (head_radiusNamed _) (by decide))

theorem loop_values {R : String} {ps : List Propagator} {d e : DefExpr}
    (h : dynamicsLoop (dynamicsDefinitions none) R m ps d = .ok e) :
    ∀ p ∈ ps, ∃ f, FunctionNamed m p.parametrization f ∧ ∃ mass, PyDict.get? f.fields "mass" = some mass ∧
      ((f.type = "BreitWigner" ∧ ∃ w, PyDict.get? f.fields "width" = some w) ∨
      (f.type = "MultichannelBreitWigner" ∧ ∃ c cs w, f.channels = some (c :: cs) ∧
        PyDict.get? c "gsq" = some w)) := by
  induction ps generalizing d with
  | nil => intro p hp; cases hp
  | cons p t ih =>
    unfold dynamicsLoop at h
    simp only [bind_ok] at h
    obtain ⟨f, hf, h⟩ := h
    cases hb : PyDict.get? (dynamicsDefinitions none) f.type with
    | none => rw [hb] at h; cases h
    | some b =>
      rw [hb] at h
      simp only [bind_ok] at h
      obtain ⟨x, hx, h⟩ := h
      intro p' hp'
      rcases List.mem_cons.1 hp' with rfl | hp'
      · refine ⟨f, functionNamed_iff.1 hf, ?_⟩
        rcases builtin_get hb with ⟨ht, rfl⟩ | ⟨ht, rfl⟩
        · obtain ⟨f', i', j', s, m1, m2, L, mass, width, ma, mb, d, h1, -, -, -, -, -, h7, h8, -, -, -, -⟩ :=
            breitWigner_ok.1 hx
          rw [hf] at h1
          cases h1
          exact ⟨mass, h7, .inl ⟨ht, width, h8⟩⟩
        · obtain ⟨f', c1, c2, cs, i', j', s, m1, m2, L, mass, gsq, ma, mb, d, r, h1, hc, -, -, -, -, -, h7, h8,
            -⟩ := multichannel_ok hx
          rw [hf] at h1
          cases h1
          exact ⟨mass, h7, .inr ⟨ht, c1, c2 :: cs, gsq, hc, h8⟩⟩
      · exact ih h p' hp'

theorem chain_facts (hm : ReadsModel m D rd)
    (hf : Formulated m tl add D cl a K E P Θ ref ids zetas terms)
    {l : ℚ × ℚ × ℚ × ℚ} (hl : l ∈ helicityTuples (spins a.decay)) {c : ChainDefinition} (hc : c ∈ D.chains) :
    ∃ d, formulateDynamics c m tl add = .ok d ∧ HasSpin c (chainSpin c) := by
  obtain ⟨n, hn, rfl⟩ := List.mem_iff_getElem.1 hc
  have hp : ((l, n) : (ℚ × ℚ × ℚ × ℚ) × ℕ) ∈ serialPairs D a.decay := mem_serialPairs.2 ⟨hl, hn⟩
  obtain ⟨hr, hs⟩ := hm.reads _ hc
  obtain ⟨d, ds, w, h1, -, -, h4, -⟩ :=
    chainData_facts (chains_ok hm.head) (List.getElem?_eq_getElem hn) hr hs (hf.table _ hp).data
  exact ⟨d, h1, h4⟩

end Verif.Serialization
