import Verif.Proofs.SerialValue
import Verif.Proofs.SerialReturns
import Verif.Proofs.SerialDynamics

/-! Keys, parameters and values of a model formulated from a serialized model. -/
namespace Verif.Serialization
open Verif Verif.ThreeBody Verif.Spec Verif.Spin

variable {m : ModelDefinition} {tl : String → String} {add : Option (PyDict String PropagatorBuilder)}
  {D : Distribution} {rd : ChainDefinition → Reading} {cl : Bool} {a : AmplitudeModel}

/-- Value of the lineshape of a chain. -/
noncomputable def lineValue (m : ModelDefinition) (tl : String → String)
    (add : Option (PyDict String PropagatorBuilder)) (ι : Interp) (c : ChainDefinition) : ℂ :=
  match formulateDynamics c m tl add with
  | .ok d => d.expression.eval ι fun _ => 0
  | .error _ => 0

/-- Value of the form factor of a vertex. -/
noncomputable def formValue (m : ModelDefinition) (ι : Interp) (v : Vertex) : ℂ :=
  match formulateFormFactor v m with
  | .ok d => d.expression.eval ι fun _ => 0
  | .error _ => 0

/-- Lineshapes and form factors have values. -/
theorem dynamics_values (hadd : FreeBuilders add m) (chains : List ChainDefinition) (ι : Interp) :
    DynamicsValues m chains tl add ι (lineValue m tl add ι) (formValue m ι) := by
  constructor
  · intro c _ d hd η
    unfold lineValue
    simp only [hd]
    exact free_dynamics hadd hd ι _ _
  · intro c _ v _ d hd η
    unfold formValue
    simp only [hd]
    exact free_formFactor hd ι _ _

theorem spins_nonneg (hm : ReadsModel m D rd) (h0 : NonnegativeSpins D) {d : Decay}
    (h : toDecay m identityFunction = .ok d) : ∀ i : Fin 4, 0 ≤ d.spin i := by
  obtain ⟨hD, hk, -⟩ := hm
  obtain ⟨hd, -, -⟩ := toDecay_standard hD hk h
  obtain ⟨D', rest', hD', hs⟩ := C53_states h
  obtain ⟨rest, hr⟩ := hD
  have e : D' = D := by
    rw [hr] at hD'
    exact (List.cons.inj hD').1.symm
  subst e
  have key : ∀ i ∈ ([0, 1, 2, 3] : List ℤ), 0 ≤ d.spin i := by
    intro i hi
    obtain ⟨-, x, hx, hst⟩ := hs i (d.st i) (get_ok.1 (Standard.get hd hi))
    exact h0 x hx _ hst.1
  intro i
  match i with
  | 0 => exact key 0 (by simp)
  | 1 => exact key 1 (by simp)
  | 2 => exact key 2 (by simp)
  | 3 => exact key 3 (by simp)

theorem exists_helicity {d : Decay} (hd : Standard d) (h : ∀ i : Fin 4, 0 ≤ d.spin i) :
    ∃ l, l ∈ helicityTuples (spins d) := by
  have hne := outer_ne hd h
  have key : ∀ i ∈ ([0, 1, 2, 3] : List ℤ), ∃ x, x ∈ createSpinRange (spins d i) := by
    intro i hi
    have := hne (lambdaSym i, createSpinRange (spins d i)) (by
      unfold outer
      exact List.mem_map.2 ⟨i, hi, rfl⟩)
    exact List.exists_mem_of_ne_nil _ this
  choose! g hg using key
  exact ⟨_, mem_helicityTuples' hg⟩

theorem mem_serialPairs {d : Decay} {x : (ℚ × ℚ × ℚ × ℚ) × ℕ} : x ∈ serialPairs D d ↔
    x.1 ∈ helicityTuples (spins d) ∧ x.2 < D.chains.length := by
  obtain ⟨l, n⟩ := x
  unfold serialPairs
  exact List.mem_product.trans (and_congr Iff.rfl List.mem_range)

variable {K : ℕ → ℤ} {E : ℕ → Expr} {P : ℕ → PyDict Key Val} {Θ : ℕ → Sym × RExpr} {ref : ℤ}
  {ids : List ℤ} {zetas : PyDict Sym RExpr} {terms : List Expr}

theorem pair_chain (hm : ReadsModel m D rd) (hf : Formulated m tl add D cl a K E P Θ ref ids zetas terms)
    {x : (ℚ × ℚ × ℚ × ℚ) × ℕ} (hx : x ∈ serialPairs D a.decay) : ∃ c, D.chains[x.2]? = some c ∧
      c ∈ D.chains ∧ IsSpectator c.topology (K x.2) ∧ ∃ d ds w, formulateDynamics c m tl add = .ok d ∧
        List.Forall₂ (fun v x => formulateFormFactor v m = .ok x) c.vertices ds ∧ c.weight = some w ∧
        P x.2 = PyDict.update [(.sym (weightSymbol tl c (rd c)), weightVal w)]
          (ds.foldl (fun a x => a.mul (.defined x)) d).parameters := by
  obtain ⟨-, hn⟩ := mem_serialPairs.1 hx
  have hc := List.getElem?_eq_getElem hn
  have hmem := List.getElem_mem hn
  obtain ⟨hr, hs⟩ := hm.reads _ hmem
  obtain ⟨d, ds, w, h1, h2, h3, -, h5, -, -, h8, -⟩ :=
    chainData_facts (chains_ok hm.head) hc hr hs (hf.table x hx).data
  exact ⟨_, hc, hmem, ((C52_spectator _).1 _).1 h5, d, ds, w, h1, h2, h3, h8⟩

/-- The keys of `amplitudes`. -/
theorem amplitude_keys (hm : ReadsModel m D rd)
    (hf : Formulated m tl add D cl a K E P Θ ref ids zetas terms) (x : Indexed) :
    x ∈ PyDict.keys a.amplitudes ↔ ∃ c ∈ D.chains, ∃ k, IsSpectator c.topology k ∧
      ∃ l ∈ helicityTuples (spins a.decay), x = ampKey k l := by
  rw [hf.amplitudes, keys_foldl]
  constructor
  · rintro (h | ⟨y, hy, rfl⟩)
    · cases h
    · obtain ⟨c, -, hc, hs, -⟩ := pair_chain hm hf hy
      exact ⟨c, hc, _, hs, _, (mem_serialPairs.1 hy).1, rfl⟩
  · rintro ⟨c, hc, k, hk, l, hl, rfl⟩
    obtain ⟨n, hn, rfl⟩ := List.mem_iff_getElem.1 hc
    have hp : ((l, n) : (ℚ × ℚ × ℚ × ℚ) × ℕ) ∈ serialPairs D a.decay := mem_serialPairs.2 ⟨hl, hn⟩
    obtain ⟨c', hc', -, hs, -⟩ := pair_chain hm hf hp
    rw [List.getElem?_eq_getElem hn] at hc'
    injection hc' with hc'
    subst hc'
    refine .inr ⟨(l, n), hp, ?_⟩
    rw [hk.2 _ hs.1]

/-! ### Weights -/

theorem massParams_nonneg {d : Decay} : NonnegKeys (massParams (massDict d)) := by
  intro x hx
  unfold massParams massDict at hx
  obtain ⟨y, hy, rfl⟩ := List.mem_map.1 hx
  simp only [List.mem_cons, List.not_mem_nil, or_false] at hy
  rcases hy with rfl | rfl | rfl | rfl <;> exact ⟨_, rfl, rfl⟩

theorem nonneg_foldl {ds : List DefExpr} {d : DefExpr} (hd : NonnegKeys d.parameters)
    (h : ∀ x ∈ ds, NonnegKeys x.parameters) :
    NonnegKeys (ds.foldl (fun a x => a.mul (.defined x)) d).parameters := by
  induction ds generalizing d with
  | nil => exact hd
  | cons x t ih =>
    exact ih (nonneg_mul hd (h x (List.mem_cons_self ..))) fun y hy => h y (List.mem_cons_of_mem _ hy)

theorem weight_key (hm : ReadsModel m D rd)
    (hf : Formulated m tl add D cl a K E P Θ ref ids zetas terms)
    {l : ℚ × ℚ × ℚ × ℚ} (hl : l ∈ helicityTuples (spins a.decay)) {c : ChainDefinition} (hc : c ∈ D.chains) :
    .sym (weightSymbol tl c (rd c)) ∈ PyDict.keys a.parameterDefaults := by
  obtain ⟨n, hn, rfl⟩ := List.mem_iff_getElem.1 hc
  have hp : ((l, n) : (ℚ × ℚ × ℚ × ℚ) × ℕ) ∈ serialPairs D a.decay := mem_serialPairs.2 ⟨hl, hn⟩
  obtain ⟨c', hc', -, hs, d, ds, w, -, -, -, hP⟩ := pair_chain hm hf hp
  rw [List.getElem?_eq_getElem hn] at hc'
  injection hc' with hc'
  subst hc'
  rw [hf.parameters]
  refine (PyDict.mem_keys_update ..).2 (.inl ((PyDict.mem_keys_update ..).2 (.inr ?_)))
  have : Key.sym (weightSymbol tl D.chains[n] (rd D.chains[n])) ∈ PyDict.keys (P n) := by
    rw [hP]
    exact (PyDict.mem_keys_update ..).2 (.inl (by simp [PyDict.keys]))
  obtain ⟨y, hy, he⟩ := List.mem_map.1 this
  exact List.mem_map.2 ⟨y, List.mem_flatMap.2 ⟨(l, n), hp, hy⟩, he⟩

theorem not_nonneg {Q : PyDict Key Val} (h : NonnegKeys Q) {s : Sym} (hs : s.asm ≠ .nonneg) :
    Key.sym s ∉ PyDict.keys Q := by
  intro hk
  obtain ⟨x, hx, he⟩ := List.mem_map.1 hk
  obtain ⟨t, ht, ha⟩ := h x hx
  rw [ht] at he
  injection he with he
  exact hs (he ▸ ha)

theorem weight_value {m : ModelDefinition} (hadd : NonnegativeParameters add m) (hm : ReadsModel m D rd)
    (hf : Formulated m tl add D cl a K E P Θ ref ids zetas terms)
    {l : ℚ × ℚ × ℚ × ℚ} (hl : l ∈ helicityTuples (spins a.decay)) {c : ChainDefinition} (hc : c ∈ D.chains)
    {w : ℚ × ℚ}
    (hw : ∀ c' ∈ D.chains, weightSymbol tl c' (rd c') = weightSymbol tl c (rd c) → c'.weight = some w) :
    PyDict.get? a.parameterDefaults (.sym (weightSymbol tl c (rd c))) = some (weightVal w) := by
  rw [hf.parameters, PyDict.get?_update_of_not_mem (not_nonneg massParams_nonneg (by simp [weightSymbol]))]
  -- entries of one chain
  have hentry : ∀ y ∈ serialPairs D a.decay, ∀ x ∈ P y.2, x.1 = .sym (weightSymbol tl c (rd c)) →
      x.2 = weightVal w := by
    intro y hy x hx hk
    obtain ⟨c', -, hc', -, d, ds, w', h1, h2, h3, hP⟩ := pair_chain hm hf hy
    rw [hP] at hx
    rcases PyDict.mem_update hx with hx | hx
    · rw [List.mem_singleton.1 hx] at hk ⊢
      injection hk with hk
      have := hw c' hc' hk
      rw [h3] at this
      injection this with this
      rw [this]
    · have hnn := nonneg_foldl (nonneg_dynamics hadd h1) (ds := ds) fun x hx => by
        obtain ⟨v, -, hv⟩ := Qrules.forall₂_mem_right h2 hx
        exact nonneg_formFactor hv
      obtain ⟨s, hs, ha⟩ := hnn x hx
      rw [hs] at hk
      injection hk with hk
      rw [hk] at ha
      cases ha
  refine PyDict.get?_update_const ?_ fun x hx hk => ?_
  · obtain ⟨n, hn, rfl⟩ := List.mem_iff_getElem.1 hc
    have hp : ((l, n) : (ℚ × ℚ × ℚ × ℚ) × ℕ) ∈ serialPairs D a.decay := mem_serialPairs.2 ⟨hl, hn⟩
    obtain ⟨c', hc', -, hs, d, ds, w, -, -, -, hP⟩ := pair_chain hm hf hp
    rw [List.getElem?_eq_getElem hn] at hc'
    injection hc' with hc'
    subst hc'
    have : Key.sym (weightSymbol tl D.chains[n] (rd D.chains[n])) ∈ PyDict.keys (P n) := by
      rw [hP]
      exact (PyDict.mem_keys_update ..).2 (.inl (by simp [PyDict.keys]))
    obtain ⟨y, hy, he⟩ := List.mem_map.1 this
    exact ⟨y, List.mem_flatMap.2 ⟨(l, n), hp, hy⟩, he⟩
  · obtain ⟨y, hy, hx⟩ := List.mem_flatMap.1 hx
    exact hentry y hy x hx hk

/-! ### Full expression -/

theorem aligned_terms (hf : Formulated m tl add D cl a K E P Θ ref ids zetas terms)
    (href : ref ∈ ([1, 2, 3] : List ℤ)) :
    terms = ids.map (alignTerm ref (spins a.decay) fun i => .sym (lambdaSym i)) ∧
      zetas = PyDict.update [] (ids.flatMap (alignItems ref (spins a.decay))) := by
  have h := hf.aligned
  rw [alignedSum_eq href _ _ _ hf.bases] at h
  injection h with h
  injection h with h1 h2
  exact ⟨h2.symm, h1.symm⟩

theorem ids_toFinset (hm : ReadsModel m D rd)
    (hf : Formulated m tl add D cl a K E P Θ ref ids zetas terms) :
    ids.toFinset = topologySubsystems D.chains := by
  classical
  obtain ⟨-, h2, -⟩ := existing_mem hm.head hf.subsystems
  ext k
  unfold topologySubsystems
  rw [List.mem_toFinset, Finset.mem_filter, ← h2]
  constructor
  · intro h
    have := hf.bases k h
    exact ⟨by simpa using this, h⟩
  · exact fun h => h.2

theorem intensity_value (hm : ReadsModel m D rd) (h0 : NonnegativeSpins D)
    (hf : Formulated m tl add D cl a K E P Θ ref ids zetas terms) (href : ref ∈ ([1, 2, 3] : List ℤ))
    (ι : Interp) (η : Sym → ℚ) : a.intensity.eval ι η =
      (intensityOver ι a.decay (topologySubsystems D.chains) ref (symbolValue ι) : ℂ) := by
  have hd := (toDecay_standard hm.head hm.kinematics hf.decay).1
  rw [hf.intensity, (aligned_terms hf href).1, eval_serialIntensity ι η hd
    (spins_nonneg hm h0 hf.decay) ref (existing_mem hm.head hf.subsystems).1, ids_toFinset hm hf]

theorem intensity_keys (hm : ReadsModel m D rd) (h0 : NonnegativeSpins D)
    (hf : Formulated m tl add D cl a K E P Θ ref ids zetas terms) (href : ref ∈ ([1, 2, 3] : List ℤ))
    {x : Indexed} (hx : x ∈ (a.intensity.doit fun _ => none).indexeds) :
    x ∈ PyDict.keys a.amplitudes ∧ ∃ k ∈ ids, ∃ l ∈ helicityTuples (spins a.decay), x = ampKey k l := by
  have hd := (toDecay_standard hm.head hm.kinematics hf.decay).1
  rw [hf.intensity, (aligned_terms hf href).1] at hx
  obtain ⟨k, hk, l, hl, rfl⟩ := serialIntensity_indexeds hd (spins_nonneg hm h0 hf.decay) hx
  refine ⟨(amplitude_keys hm hf _).2 ?_, k, hk, l, hl, rfl⟩
  obtain ⟨c, hc, hs⟩ := ((existing_mem hm.head hf.subsystems).2.1 k).1 hk
  exact ⟨c, hc, k, hs, l, hl, rfl⟩

theorem full_value (hm : ReadsModel m D rd) (h0 : NonnegativeSpins D)
    (hf : Formulated m tl add D cl a K E P Θ ref ids zetas terms) (href : ref ∈ ([1, 2, 3] : List ℤ))
    (ι : Interp) (η : Sym → ℚ) : a.fullExpression.eval ι η =
      (intensityOver ι a.decay (topologySubsystems D.chains) ref (definedValue a ι η) : ℂ) := by
  classical
  have hd := (toDecay_standard hm.head hm.kinematics hf.decay).1
  unfold AmplitudeModel.fullExpression
  rw [Expr.eval_xreplace _ _ _ _ (Expr.flat_doit _ _), Expr.eval_doit]
  · have hval : ∀ k ∈ topologySubsystems D.chains, ∀ l ∈ helicities a.decay,
        symbolValue (ι.withDefs η (a.amplitudes.map fun kv => (kv.1, kv.2.doit fun _ => none))) k l =
        definedValue a ι η k l := by
      intro k hk l hl
      have hmem : amplitudeSymbol k l ∈ PyDict.keys a.amplitudes := by
        unfold topologySubsystems at hk
        obtain ⟨-, c, hc, hs⟩ := Finset.mem_filter.1 hk
        exact (amplitude_keys hm hf _).2 ⟨c, hc, k, hs, _, helicities_tuple hd hl, rfl⟩
      obtain ⟨e, hg⟩ : ∃ e, PyDict.get? a.amplitudes (amplitudeSymbol k l) = some e := by
        cases h : PyDict.get? a.amplitudes (amplitudeSymbol k l) with
        | none => exact absurd hmem (PyDict.get?_eq_none.1 h)
        | some e => exact ⟨e, rfl⟩
      unfold symbolValue definedValue
      rw [hg]
      simp only [Interp.withDefs]
      rw [show (⟨"A^" ++ toString k, none, [l 0, l 1, l 2, l 3].map .num⟩ : Indexed) =
        amplitudeSymbol k l from rfl, get?_map_snd, hg]
      simp only [Option.map]
      rw [Expr.eval_doit]; rfl
    generalize hι : ι.withDefs η (a.amplitudes.map fun kv => (kv.1, kv.2.doit fun _ => none)) = ι' at hval
    have h1 : ι'.sym = ι.sym := by rw [← hι]; rfl
    have h2 : ι'.wig = ι.wig := by rw [← hι]; rfl
    have h3 : (fun u => ((fun _ : Sym => (none : Option ℚ)) u).getD (η u)) = η := rfl
    rw [h3, intensity_value hm h0 hf href ι' η, intensityOver_interp h1 h2, intensityOver_congr hval]
  · intro x hx
    obtain ⟨-, k, -, l, -, rfl⟩ := intensity_keys hm h0 hf href hx
    exact ⟨[l.1, l.2.1, l.2.2.1, l.2.2.2], rfl⟩

end Verif.Serialization
