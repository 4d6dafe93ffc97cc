import Verif.Proofs.SerialAmplitude
import Verif.Proofs.Amplitude

/-! The loop and the result of `formulate` of a serialized model. -/
namespace Verif.Serialization
open Verif Verif.ThreeBody Verif.Spec Verif.Spin Verif.Angles

variable {m : ModelDefinition} {tl : String → String} {add : Option (PyDict String PropagatorBuilder)}

/-- The amplitude of a chain, apart from the symbol. -/
structure ChainData (m : ModelDefinition) (tl : String → String)
    (add : Option (PyDict String PropagatorBuilder)) (n : ℕ) (k : ℤ) (e : Expr) (P : PyDict Key Val)
    (θ : Sym × RExpr) : Prop where
  ok : formulateChainAmplitude 0 0 0 0 m n tl add = .ok ⟨ampKey k (0, 0, 0, 0), e, P, θ⟩

theorem chainAmplitude_data {l0 l1 l2 l3 : ℚ} {n : ℕ} {a : ChainAmplitude}
    (h : formulateChainAmplitude l0 l1 l2 l3 m n tl add = .ok a) (x0 x1 x2 x3 : ℚ) :
    ∃ k, k ∈ ([1, 2, 3] : List ℤ) ∧ a.symbol = ampKey k (l0, l1, l2, l3) ∧
      formulateChainAmplitude x0 x1 x2 x3 m n tl add =
        .ok ⟨ampKey k (x0, x1, x2, x3), a.expression, a.parameters, a.angle⟩ := by
  unfold formulateChainAmplitude at h ⊢
  simp only [bind_ok] at h
  obtain ⟨cs, h1, c, h2, d, h3, d', h4, w, h5, ij, h6, θ, h7, jR, h8, r, h9, k, h10, hp, h11, hd, h12,
    u, h13, h14⟩ := h
  injection h14 with h14
  subst h14
  refine ⟨k, ?_, rfl, ?_⟩
  · unfold amplitudeBase at h13
    by_contra hk
    rw [if_neg hk] at h13
    cases h13
  · simp only [h1, h2, h3, h4, h5, h6, h7, h8, h9, h10, h11, h12, h13, bind, Except.bind, pure, Except.pure]
    rfl

theorem chainAmplitude_ok {l0 l1 l2 l3 : ℚ} {n : ℕ} {a : ChainAmplitude} :
    formulateChainAmplitude l0 l1 l2 l3 m n tl add = .ok a ↔
      ∃ k, k ∈ ([1, 2, 3] : List ℤ) ∧ ChainData m tl add n k a.expression a.parameters a.angle ∧
        a.symbol = ampKey k (l0, l1, l2, l3) := by
  constructor
  · intro h
    obtain ⟨k, h1, h2, h3⟩ := chainAmplitude_data h 0 0 0 0
    exact ⟨k, h1, ⟨h3⟩, h2⟩
  · rintro ⟨k, hk, ⟨h⟩, hs⟩
    obtain ⟨k', h1, h2, h3⟩ := chainAmplitude_data h l0 l1 l2 l3
    have := (ampKey_inj h2).1
    subst this
    rw [h3, ← hs]

/-- What the chains contribute. -/
structure ChainTable (m : ModelDefinition) (tl : String → String)
    (add : Option (PyDict String PropagatorBuilder)) (K : ℕ → ℤ) (E : ℕ → Expr)
    (P : ℕ → PyDict Key Val) (Θ : ℕ → Sym × RExpr) (n : ℕ) : Prop where
  mem : K n ∈ ([1, 2, 3] : List ℤ)
  data : ChainData m tl add n (K n) (E n) (P n) (Θ n)

/-- The substitution of the helicities. -/
def helSub (l : ℚ × ℚ × ℚ × ℚ) : List (Sym × ℚ) :=
  [(lambdaSym 0, l.1), (lambdaSym 1, l.2.1), (lambdaSym 2, l.2.2.1), (lambdaSym 3, l.2.2.2)]

/-- One step of the loop. -/
def loopStep (K : ℕ → ℤ) (E : ℕ → Expr) (P : ℕ → PyDict Key Val) (Θ : ℕ → Sym × RExpr) (acc : Acc)
    (x : (ℚ × ℚ × ℚ × ℚ) × ℕ) : Acc :=
  ⟨PyDict.set acc.amplitudes (ampKey (K x.2) x.1)
      ((PyDict.get? acc.amplitudes (ampKey (K x.2) x.1)).getD (.num 0) +
        (E x.2).substHel (override some (fun _ => none) (helSub x.1))),
    PyDict.set acc.angleDefs (Θ x.2).1 (Θ x.2).2, PyDict.update acc.parameters (P x.2)⟩

theorem chainLoop_eq {K : ℕ → ℤ} {E : ℕ → Expr} {P : ℕ → PyDict Key Val} {Θ : ℕ → Sym × RExpr}
    {ps : List ((ℚ × ℚ × ℚ × ℚ) × ℕ)} (h : ∀ x ∈ ps, ChainTable m tl add K E P Θ x.2) (acc : Acc) :
    chainLoop m tl add ps acc = .ok (ps.foldl (loopStep K E P Θ) acc) := by
  induction ps generalizing acc with
  | nil => rfl
  | cons x t ih =>
    obtain ⟨l, n⟩ := x
    have hx := h (l, n) (List.mem_cons_self ..)
    have := chainAmplitude_ok (l0 := l.1) (l1 := l.2.1) (l2 := l.2.2.1) (l3 := l.2.2.2) (n := n)
      (a := ⟨ampKey (K n) l, E n, P n, Θ n⟩) |>.2 ⟨K n, hx.mem, hx.data, rfl⟩
    unfold chainLoop
    rw [this]
    simp only [bind, Except.bind]
    rw [ih fun y hy => h y (List.mem_cons_of_mem _ hy)]
    rfl

theorem chainLoop_ok {ps : List ((ℚ × ℚ × ℚ × ℚ) × ℕ)} {acc acc' : Acc}
    (h : chainLoop m tl add ps acc = .ok acc') : ∀ x ∈ ps, ∃ k e P θ,
      k ∈ ([1, 2, 3] : List ℤ) ∧ ChainData m tl add x.2 k e P θ := by
  induction ps generalizing acc with
  | nil => simp
  | cons x t ih =>
    obtain ⟨l, n⟩ := x
    unfold chainLoop at h
    simp only [bind_ok] at h
    obtain ⟨a, ha, h⟩ := h
    intro y hy
    rcases List.mem_cons.1 hy with rfl | hy
    · obtain ⟨k, hk, hd, -⟩ := chainAmplitude_ok.1 ha
      exact ⟨k, _, _, _, hk, hd⟩
    · exact ih h y hy

theorem table_of {s : List ℕ} (h : ∀ n ∈ s, ∃ k e P θ,
      k ∈ ([1, 2, 3] : List ℤ) ∧ ChainData m tl add n k e P θ) :
    ∃ K E P Θ, ∀ n ∈ s, ChainTable m tl add K E P Θ n := by
  classical
  refine ⟨fun n => if hn : n ∈ s then (h n hn).choose else 0,
    fun n => if hn : n ∈ s then (h n hn).choose_spec.choose else .num 0,
    fun n => if hn : n ∈ s then (h n hn).choose_spec.choose_spec.choose else [],
    fun n => if hn : n ∈ s then (h n hn).choose_spec.choose_spec.choose_spec.choose else
      (lambdaR, 0), fun n hn => ?_⟩
  have := (h n hn).choose_spec.choose_spec.choose_spec.choose_spec
  constructor
  · simp only [hn, dif_pos]; exact this.1
  · simp only [hn, dif_pos]; exact this.2

/-- Value stored for an amplitude, zero if there is none. -/
noncomputable def stored (ι : Interp) (η : Sym → ℚ) (d : PyDict Indexed Expr) (x : Indexed) : ℂ :=
  ((PyDict.get? d x).getD (.num 0)).eval ι η

theorem stored_foldl (ι : Interp) (η : Sym → ℚ) {K : ℕ → ℤ} {E : ℕ → Expr} {P : ℕ → PyDict Key Val}
    {Θ : ℕ → Sym × RExpr} (ps : List ((ℚ × ℚ × ℚ × ℚ) × ℕ)) (acc : Acc) (x : Indexed) :
    stored ι η (ps.foldl (loopStep K E P Θ) acc).amplitudes x = stored ι η acc.amplitudes x +
      (ps.map fun y => if ampKey (K y.2) y.1 = x then
        (E y.2).eval ι (fun u => (look (helSub y.1) u).getD (η u)) else 0).sum := by
  induction ps generalizing acc with
  | nil => simp
  | cons y t ih =>
    rw [List.foldl_cons, ih, List.map_cons, List.sum_cons, ← add_assoc]
    congr 1
    unfold stored loopStep
    simp only
    rw [PyDict.get?_set]
    by_cases hx : ampKey (K y.2) y.1 = x
    · rw [if_pos hx, if_pos hx, hx]
      change Expr.eval ι η (.add _ _) = _
      rw [Expr.eval, Expr.eval_substHel, override_some]
      simp
    · rw [if_neg hx, if_neg hx, add_zero]

theorem keys_foldl {K : ℕ → ℤ} {E : ℕ → Expr} {P : ℕ → PyDict Key Val}
    {Θ : ℕ → Sym × RExpr} (ps : List ((ℚ × ℚ × ℚ × ℚ) × ℕ)) (acc : Acc) (x : Indexed) :
    x ∈ PyDict.keys (ps.foldl (loopStep K E P Θ) acc).amplitudes ↔
      x ∈ PyDict.keys acc.amplitudes ∨ ∃ y ∈ ps, x = ampKey (K y.2) y.1 := by
  induction ps generalizing acc with
  | nil => simp
  | cons y t ih =>
    rw [List.foldl_cons, ih]
    unfold loopStep
    simp only
    rw [PyDict.mem_keys_set]
    simp only [List.mem_cons, exists_eq_or_imp]
    tauto

theorem parameters_foldl {K : ℕ → ℤ} {E : ℕ → Expr} {P : ℕ → PyDict Key Val}
    {Θ : ℕ → Sym × RExpr} (ps : List ((ℚ × ℚ × ℚ × ℚ) × ℕ)) (acc : Acc) :
    (ps.foldl (loopStep K E P Θ) acc).parameters =
      PyDict.update acc.parameters (ps.flatMap fun y => P y.2) := by
  induction ps generalizing acc with
  | nil => rfl
  | cons y t ih =>
    rw [List.foldl_cons, ih, List.flatMap_cons, update_append]
    rfl

theorem angles_foldl {K : ℕ → ℤ} {E : ℕ → Expr} {P : ℕ → PyDict Key Val}
    {Θ : ℕ → Sym × RExpr} (ps : List ((ℚ × ℚ × ℚ × ℚ) × ℕ)) (acc : Acc) :
    (ps.foldl (loopStep K E P Θ) acc).angleDefs =
      PyDict.update acc.angleDefs (ps.map fun y => Θ y.2) := by
  induction ps generalizing acc with
  | nil => rfl
  | cons y t ih =>
    rw [List.foldl_cons, ih]
    rfl

/-! ### Dynamics -/

theorem formFactors_ok {vs : List Vertex} {d e : DefExpr} : formFactorLoop m vs d = .ok e ↔
    ∃ ds, List.Forall₂ (fun v x => formulateFormFactor v m = .ok x) vs ds ∧
      e = ds.foldl (fun a x => a.mul (.defined x)) d := by
  induction vs generalizing d with
  | nil =>
    unfold formFactorLoop
    constructor
    · intro h
      injection h with h
      exact ⟨[], .nil, h.symm⟩
    · rintro ⟨ds, hds, rfl⟩
      cases hds
      rfl
  | cons v t ih =>
    unfold formFactorLoop
    simp only [bind_ok, ih]
    constructor
    · rintro ⟨x, hx, ds, hds, rfl⟩
      exact ⟨x :: ds, .cons hx hds, rfl⟩
    · rintro ⟨ds, hds, rfl⟩
      cases hds with
      | cons hx ht => exact ⟨_, hx, _, ht, rfl⟩

theorem eval_mul_defined (ι : Interp) (η : Sym → ℚ) (a b : DefExpr) :
    (a.mul (.defined b)).expression.eval ι η = a.expression.eval ι η * b.expression.eval ι η := rfl

theorem eval_foldl_mul (ι : Interp) (η : Sym → ℚ) (ds : List DefExpr) (d : DefExpr) :
    (ds.foldl (fun a x => a.mul (.defined x)) d).expression.eval ι η =
      d.expression.eval ι η * (ds.map fun x => x.expression.eval ι η).prod := by
  induction ds generalizing d with
  | nil => simp
  | cons x t ih => rw [List.foldl_cons, ih, eval_mul_defined, List.map_cons, List.prod_cons, mul_assoc]

theorem keys_foldl_mul (ds : List DefExpr) (d : DefExpr) (k : Key) :
    k ∈ PyDict.keys (ds.foldl (fun a x => a.mul (.defined x)) d).parameters ↔
      k ∈ PyDict.keys d.parameters ∨ ∃ x ∈ ds, k ∈ PyDict.keys x.parameters := by
  induction ds generalizing d with
  | nil => simp
  | cons x t ih =>
    rw [List.foldl_cons, ih]
    simp only [DefExpr.mul, PyDict.mem_keys_update, List.mem_cons, exists_eq_or_imp]
    simp only [PyDict.keys, List.map_nil, List.not_mem_nil, false_or, or_assoc]

/-! ### The amplitude of a chain -/

theorem standard_mem {r : Reading} (h : r.Standard) : r.i ∈ ([1, 2, 3] : List ℤ) ∧
    r.j ∈ ([1, 2, 3] : List ℤ) ∧ r.k ∈ ([1, 2, 3] : List ℤ) ∧ [r.i, r.j, r.k].Nodup := by
  have hn : [r.i, r.j, r.k].Nodup := h.nodup_iff.2 (by decide)
  exact ⟨h.mem_iff.1 (by simp), h.mem_iff.1 (by simp), h.mem_iff.1 (by simp), hn⟩

/-- The sorted helicities of a standard reading. -/
theorem finalHelicities_eq {c : ChainDefinition} {r : Reading} (h : Reads c r) (hs : r.Standard) :
    getFinalStateHelicities c = .ok [(1, r.hel 1), (2, r.hel 2), (3, r.hel 3)] := by
  obtain ⟨hi, hj, hk, hn⟩ := standard_mem hs
  obtain ⟨d, h1, h2, h3⟩ := finalHelicities_of h hn
  have hel : r.hel r.i = r.li ∧ r.hel r.j = r.lj ∧ r.hel r.k = r.lk := by
    simp only [List.nodup_cons, List.mem_cons, List.not_mem_nil, or_false, not_or] at hn
    obtain ⟨⟨n1, n2⟩, n3, -⟩ := hn
    unfold Reading.hel
    refine ⟨if_pos rfl, ?_, ?_⟩
    · rw [if_neg (Ne.symm n1), if_pos rfl]
    · rw [if_neg (Ne.symm n2), if_neg (Ne.symm n3)]
  have hmem : ∀ x, x ∈ d ↔ x.1 ∈ ([1, 2, 3] : List ℤ) ∧ x.2 = r.hel x.1 := by
    intro ⟨i, q⟩
    rw [h3, ← hs.mem_iff]
    simp only [List.mem_cons, List.not_mem_nil, or_false, Prod.mk.injEq]
    constructor
    · rintro (⟨rfl, rfl⟩ | ⟨rfl, rfl⟩ | ⟨rfl, rfl⟩)
      · exact ⟨.inl rfl, hel.1.symm⟩
      · exact ⟨.inr (.inl rfl), hel.2.1.symm⟩
      · exact ⟨.inr (.inr rfl), hel.2.2.symm⟩
    · rintro ⟨rfl | rfl | rfl, rfl⟩
      · exact .inl ⟨rfl, hel.1⟩
      · exact .inr (.inl ⟨rfl, hel.2.1⟩)
      · exact .inr (.inr ⟨rfl, hel.2.2⟩)
  rw [h1]
  congr 1
  refine strict_unique (key := Prod.fst) h2 (by simp) fun x => ?_
  rw [hmem]
  obtain ⟨i, q⟩ := x
  simp only [List.mem_cons, List.not_mem_nil, or_false, Prod.mk.injEq]
  constructor
  · rintro ⟨rfl | rfl | rfl, rfl⟩ <;> simp
  · rintro (⟨rfl, rfl⟩ | ⟨rfl, rfl⟩ | ⟨rfl, rfl⟩) <;> simp

/-- The weight as a parameter value. -/
def weightVal (w : ℚ × ℚ) : Val := if w.2 = 0 then .real w.1 else .cplx w.1 w.2

theorem weight_ok {c : ChainDefinition} {r : Reading} (h : Reads c r) (hs : r.Standard)
    (x : Sym × Val) : getWeight c tl = .ok x ↔
      ∃ w, c.weight = some w ∧ x = (weightSymbol tl c r, weightVal w) := by
  obtain ⟨a, b, hr⟩ := resonanceHelicity_of h
  unfold getWeight
  rw [hr, finalHelicities_eq h hs]
  cases hw : c.weight with
  | none =>
    simp [bind, Except.bind]
  | some w =>
    simp only [bind, Except.bind, pure, Except.pure, Except.ok.injEq, Option.some.injEq,
      exists_eq_left', List.map_cons, List.map_nil]
    exact eq_comm

theorem vertex_facts {c : ChainDefinition} {r : Reading} (h : Reads c r) {k : ℕ} {v : Vertex}
    (hv : c.vertices[k]? = some v) : ∃ x y a b i, v.node = [x, y] ∧
      v.helicities = some [some a, some b] ∧ .id i ∈ v.node := by
  obtain ⟨p, q, ho, ⟨a, b, hp⟩, hq, hq'⟩ := h
  have : v = p ∨ v = q := by
    have := List.mem_of_getElem? hv
    rcases ho with ho | ho <;> rw [ho] at this <;> simp at this <;> tauto
  rcases this with rfl | rfl
  · rcases hp with ⟨hp, hp'⟩ | ⟨hp, hp'⟩
    · exact ⟨_, _, _, _, r.k, hp, hp', by rw [hp]; simp⟩
    · exact ⟨_, _, _, _, r.k, hp, hp', by rw [hp]; simp⟩
  · exact ⟨_, _, _, _, r.i, hq, hq', by rw [hq]; simp⟩

theorem reads_two {c : ChainDefinition} {r : Reading} (h : Reads c r) :
    ∃ v0 v1, c.vertices = [v0, v1] := by
  obtain ⟨p, q, ho | ho, -⟩ := h
  · exact ⟨p, q, ho⟩
  · exact ⟨q, p, ho⟩

/-- What the amplitude of a chain consists of. -/
theorem chainData_facts {cs : List ChainDefinition} (hm : getDecayChains m = .ok cs) {n : ℕ}
    {c : ChainDefinition} (hc : cs[n]? = some c) {r : Reading} (hr : Reads c r) (hs : r.Standard)
    {k : ℤ} {e : Expr} {P : PyDict Key Val} {θ : Sym × RExpr} (h : ChainData m tl add n k e P θ) :
    ∃ d ds w, formulateDynamics c m tl add = .ok d ∧
      List.Forall₂ (fun v x => formulateFormFactor v m = .ok x) c.vertices ds ∧
      c.weight = some w ∧ HasSpin c (chainSpin c) ∧ getSpectatorId c.topology = .ok k ∧
      formulateScatteringAngle r.i r.j = .ok θ ∧ θ.1 = thetaSym r.i r.j ∧
      P = PyDict.update [(.sym (weightSymbol tl c r), weightVal w)]
        (ds.foldl (fun a x => a.mul (.defined x)) d).parameters ∧
      ∀ ι η, e.eval ι η = ι.sym (weightSymbol tl c r) *
        (c.vertices.map fun v => vertexValue v r.lR fun i => η (lambdaSym i)).prod *
        ι.wig (chainSpin c) r.lR (r.li - r.lj) (ι.sym (thetaSym r.i r.j)) *
        (d.expression.eval ι (fun u => if u = lambdaR then r.lR else η u) *
          (ds.map fun x => x.expression.eval ι (fun u => if u = lambdaR then r.lR else η u)).prod) := by
  have h := h.ok
  unfold formulateChainAmplitude at h
  rw [hm] at h
  simp only [bind_ok] at h
  obtain ⟨cs', hcs', c', hc', d, h3, d', h4, w, h5, ij, h6, θ', h7, jR, h8, r', h9, k', h10, hp, h11, hd,
    h12, u, h13, h14⟩ := h
  cases hcs'
  rw [item_ok, hc] at hc'
  injection hc' with hc'
  subst hc'
  obtain ⟨ds, hds, rfl⟩ := formFactors_ok.1 h4
  obtain ⟨w', hw', rfl⟩ := (weight_ok hr hs _).1 h5
  rw [decayProducts_of hr] at h6
  injection h6 with h6
  subst h6
  obtain ⟨a, b, hres⟩ := resonanceHelicity_of hr
  rw [hres] at h9
  injection h9 with h9
  subst h9
  have hspin := resonanceSpin_ok.1 h8
  have hjR : jR = chainSpin c := by
    obtain ⟨p, rest, hp, hps⟩ := hspin
    unfold chainSpin
    rw [hp]
    simp [hps]
  subst hjR
  injection h14 with h14
  injection h14 with e1 e2 e3 e4
  have hk : k' = k := (ampKey_inj (l := (0, 0, 0, 0)) (l' := (0, 0, 0, 0)) e1).1
  subst hk
  subst e4
  simp only at h7
  have hθ : θ'.1 = thetaSym r.i r.j := by
    obtain ⟨hi, hj, -, hn⟩ := standard_mem hs
    simp only [List.nodup_cons, List.mem_cons, List.not_mem_nil, or_false, not_or] at hn
    unfold formulateScatteringAngle at h7
    rw [guard_false] at h7
    split at h7
    · cases h7
    · split at h7
      · rename_i hb; cases hb
      · rw [if_neg hn.1.1] at h7
        injection h7 with h7
        rw [← h7]
        rfl
  refine ⟨d, ds, w', h3, hds, hw', hspin, h10, h7, hθ, e3.symm, fun ι η => ?_⟩
  subst e2
  have hl : ∀ i, lambdaSym i ≠ lambdaR := by
    intro i hi
    have := congrArg (fun s : Sym => s.name.toList.head?) hi
    simp [lambdaSym, lambdaR, String.toList_append] at this
  have hη : (fun u => (override some (fun _ => none) [(getHelicitySymbol (.seq [a, b]), r.lR)] u).getD (η u)) =
      fun u => if u = lambdaR then r.lR else η u := by
    funext u
    rw [override_some]
    simp only [look_cons]
    by_cases hu : u = lambdaR
    · subst hu; simp [getHelicitySymbol]
    · rw [if_neg (fun h => hu h.symm), if_neg hu]
      rfl
  obtain ⟨v0, v1, hv⟩ := reads_two hr
  have g0 : c.vertices[0]? = some v0 := by rw [hv]; rfl
  have g1 : c.vertices[1]? = some v1 := by rw [hv]; rfl
  obtain ⟨x, y, q, q', i, f1, f2, f3⟩ := vertex_facts hr g0
  obtain ⟨x', y', p, p', i', f1', f2', f3'⟩ := vertex_facts hr g1
  have v0' := recoupling_value hm hc g0 f1 f2 f3 h11 ι fun u => if u = lambdaR then r.lR else η u
  have v1' := recoupling_value hm hc g1 f1' f2' f3' h12 ι fun u => if u = lambdaR then r.lR else η u
  rw [Expr.eval_substHel, hη]
  simp only [Expr.eval, Hel.eval, v0', v1', eval_foldl_mul, hl, if_false, getHelicitySymbol, if_true, hθ]
  rw [hv]
  simp only [List.map_cons, List.map_nil, List.prod_cons, List.prod_nil, mul_one, mul_assoc]

/-! ### `formulate` -/

/-- The decay of a model with well-formed kinematics. -/
theorem toDecay_standard {f : String → String} {D : Distribution} (hD : ∃ rest, m.distributions = D :: rest)
    (hk : WellFormedKinematics D.kinematics) {d : Decay} (h : toDecay m f = .ok d) :
    Standard d ∧ getStates m f = .ok d.states ∧
      ∃ p0 ps, Stages m f D p0 ps ∧ d.states = (0, p0) :: ps.map fun p => (p.index, p) := by
  obtain ⟨p0, ps, hs, h0, hp⟩ := stages_exist (f := f) hD hk
  obtain ⟨D', p0', ps', hs', hst, hex, hmem, hlt, hd⟩ := toDecay_facts.1 h
  have e1 : D' = D := by
    obtain ⟨r, hr⟩ := hs.head
    obtain ⟨r', hr'⟩ := hs'.head
    rw [hr] at hr'
    injection hr' with hr'
    exact hr'.symm
  subst e1
  have e2 : p0' = p0 := by
    have := hs.initial
    rw [hs'.initial] at this
    exact Except.ok.inj this
  subst e2
  have e3 : ps' = ps := by
    have h1 := (mapM_ok_iff (fun d => toParticle d f) _ _).2 hs.final
    have h2 := (mapM_ok_iff (fun d => toParticle d f) _ _).2 hs'.final
    rw [h1] at h2
    exact (Except.ok.inj h2).symm
  subst e3
  have hstates : d.states = (0, p0') :: ps'.map fun p => (p.index, p) := by
    rw [hst, statesOf_eq h0 hp]
  refine ⟨⟨⟨hd, fun ch hch => ?_⟩, ?_, ?_, ?_, ?_⟩, by rw [hst]; exact hs.getStates, p0', ps', hs, hstates⟩
  · obtain ⟨c, -, hc⟩ := (hmem ch).1 hch
    obtain ⟨s, i, j, k, p1, p2, p3, -, -, -, -, -, -, -, hn, rfl⟩ := toDecayChain_ok.1 hc
    exact chainNew_chainOf.2 ⟨hn, rfl⟩
  · rw [hstates]
    simp only [PyDict.keys, List.map_cons, List.map_map]
    exact hp.cons 0
  · rw [hstates]
    intro x hx
    rcases List.mem_cons.1 hx with rfl | hx
    · exact h0
    · obtain ⟨p, -, rfl⟩ := List.mem_map.1 hx
      rfl
  · rw [hstates]
    intro x hx
    rcases List.mem_cons.1 hx with rfl | hx
    · exact (toParticle_ok.1 hs.initial).2.1
    · obtain ⟨p, hp, rfl⟩ := List.mem_map.1 hx
      obtain ⟨y, -, hy⟩ := Qrules.forall₂_mem_right hs.final hp
      exact (toParticle_ok.1 hy).2.1
  · intro ch hch
    obtain ⟨c, -, hc⟩ := (hmem ch).1 hch
    obtain ⟨s, i, j, k, p1, p2, p3, -, hh, -, -, -, -, -, -, rfl⟩ := toDecayChain_ok.1 hc
    exact hh

theorem serialFourSpins_eq {d : Decay} (hd : Standard d) : fourSpins d.states = .ok (spins d) := by
  unfold fourSpins
  rw [sortedSet_keys hd, mapM_ok _ d.st _ (fun i hi => Standard.get hd hi)]
  rfl

/-- The iterations of the loop. -/
def serialPairs (D : Distribution) (d : Decay) : List ((ℚ × ℚ × ℚ × ℚ) × ℕ) :=
  (helicityTuples (spins d)).product (List.range D.chains.length)

/-- The aligned amplitude. -/
def serialAligned (d : Decay) (terms : List Expr) : Expr :=
  .psum (Expr.addAll terms) ([0, 1, 2, 3].map fun i => (lambdaPrime i, createSpinRange (spins d i)))

/-- The intensity. -/
def serialIntensity (d : Decay) (terms : List Expr) (cl : Bool) : Expr :=
  let amp := if cl then (serialAligned d terms).cleanup else serialAligned d terms
  let i := Expr.psum (.pow (.abs amp) 2) ([0, 1, 2, 3].map fun i => (lambdaSym i, createSpinRange (spins d i)))
  if cl then i.cleanup else i

/-- Closed form of the formulated model. -/
structure Formulated (m : ModelDefinition) (tl : String → String)
    (add : Option (PyDict String PropagatorBuilder)) (D : Distribution) (cl : Bool) (a : AmplitudeModel)
    (K : ℕ → ℤ) (E : ℕ → Expr) (P : ℕ → PyDict Key Val) (Θ : ℕ → Sym × RExpr) (ref : ℤ)
    (ids : List ℤ) (zetas : PyDict Sym RExpr) (terms : List Expr) : Prop where
  decay : toDecay m identityFunction = .ok a.decay
  reference : getSpectatorId D.referenceTopology = .ok ref
  subsystems : getExistingSubsystemIds m = .ok ids
  bases : ∀ k ∈ ids, k ∈ ([1, 2, 3] : List ℤ)
  aligned : alignedSum ref (spins a.decay) (fun i => .sym (lambdaSym i)) ids [] = .ok (zetas, terms)
  table : ∀ x ∈ serialPairs D a.decay, ChainTable m tl add K E P Θ x.2
  amplitudes : a.amplitudes = ((serialPairs D a.decay).foldl (loopStep K E P Θ) {}).amplitudes
  angles : a.angleDefs = PyDict.update (PyDict.update [] ((serialPairs D a.decay).map fun y => Θ y.2)) zetas
  parameters : a.parameterDefaults =
    PyDict.update (PyDict.update [] ((serialPairs D a.decay).flatMap fun y => P y.2))
      (massParams (massDict a.decay))
  masses : a.masses = massDict a.decay
  intensity : a.intensity = serialIntensity a.decay terms cl
  invariants : a.invariants = [(⟨"sigma1", .nonneg⟩, thirdExpr 2 3),
      (⟨"sigma2", .nonneg⟩, thirdExpr 3 1), (⟨"sigma3", .nonneg⟩, thirdExpr 1 2)]

theorem reference_ok {D : Distribution} (hD : ∃ rest, m.distributions = D :: rest) :
    getReferenceTopology m = .ok D.referenceTopology := by
  obtain ⟨rest, hr⟩ := hD
  obtain ⟨w, hw⟩ := distribution_head hr
  unfold getReferenceTopology
  rw [hw]
  rfl

theorem chains_ok {D : Distribution} (hD : ∃ rest, m.distributions = D :: rest) :
    getDecayChains m = .ok D.chains := by
  obtain ⟨rest, hr⟩ := hD
  exact getDecayChains_ok.2 ⟨D, rest, hr, rfl⟩

theorem bases_ok {ids : List ℤ} {us : List Unit} (h : ids.mapM amplitudeBase = .ok us) :
    ∀ k ∈ ids, k ∈ ([1, 2, 3] : List ℤ) := by
  intro k hk
  obtain ⟨u, -, hu⟩ := Qrules.forall₂_mem_left ((mapM_ok_iff _ _ _).1 h) hk
  unfold amplitudeBase at hu
  by_contra hn
  rw [if_neg hn] at hu
  cases hu

theorem formulate_inv {D : Distribution} (hD : ∃ rest, m.distributions = D :: rest)
    (hk : WellFormedKinematics D.kinematics) {cl : Bool} {a : AmplitudeModel}
    (h : formulate m cl tl add = .ok a) :
    ∃ K E P Θ ref ids zetas terms, Formulated m tl add D cl a K E P Θ ref ids zetas terms := by
  unfold formulate at h
  simp only [bind_ok] at h
  obtain ⟨states, h1, s0, g0, s1, g1, s2, g2, s3, g3, cs, h2, acc, h3, al, h4, d, h5, masses, h6, inv, h7,
    h8⟩ := h
  obtain ⟨hd, hst, -⟩ := toDecay_standard hD hk h5
  rw [hst] at h1
  injection h1 with h1
  subst h1
  rw [chains_ok hD] at h2
  injection h2 with h2
  subst h2
  have e : ∀ {i : ℤ} {s : State}, i ∈ ([0, 1, 2, 3] : List ℤ) → PyDict.get d.states i = .ok s → s = d.st i := by
    intro i s hi hg
    have := Standard.get hd hi
    rw [hg] at this
    exact Except.ok.inj this
  have e0 := e (by simp) g0
  have e1 := e (by simp) g1
  have e2 := e (by simp) g2
  have e3 := e (by simp) g3
  subst e0 e1 e2 e3
  have hsp : tup (d.st 0).spin (d.st 1).spin (d.st 2).spin (d.st 3).spin = spins d := rfl
  rw [hsp] at h3 h8
  rw [createMassSymbolMapping_eq hd] at h6
  injection h6 with h6
  subst h6
  rw [formulateInvariants_eq hd] at h7
  injection h7 with h7
  subst h7
  unfold formulateAlignedAmplitude at h4
  rw [reference_ok hD, hst] at h4
  simp only [bind_ok] at h4
  obtain ⟨top, ht, ref, hr, st, hst', j, hj, ids, hids, us, hus, zt, hzt, h4⟩ := h4
  cases ht
  cases hst'
  rw [serialFourSpins_eq hd] at hj
  cases hj
  obtain ⟨zetas, terms⟩ := zt
  cases h4
  injection h8 with h8
  subst h8
  have hloop := chainLoop_ok h3
  obtain ⟨K, E, P, Θ, htab⟩ := table_of (s := ((helicityTuples (spins d)).product
    (List.range D.chains.length)).map Prod.snd) (m := m) (tl := tl) (add := add) (by
      intro n hn
      obtain ⟨x, hx, rfl⟩ := List.mem_map.1 hn
      exact hloop x hx)
  have htab' : ∀ x ∈ serialPairs D d, ChainTable m tl add K E P Θ x.2 :=
    fun x hx => htab x.2 (List.mem_map.2 ⟨x, hx, rfl⟩)
  have hacc := chainLoop_eq htab' {}
  unfold serialPairs at hacc
  rw [h3] at hacc
  injection hacc with hacc
  refine ⟨K, E, P, Θ, ref, ids, zetas, terms, h5, hr, hids, bases_ok hus, hzt, htab', ?_, ?_, ?_, rfl, ?_, rfl⟩
  · rw [hacc]; rfl
  · rw [hacc]
    have := angles_foldl (K := K) (E := E) (P := P) (Θ := Θ) (serialPairs D d) {}
    unfold serialPairs at this
    rw [this]
    rfl
  · rw [hacc]
    have := parameters_foldl (K := K) (E := E) (P := P) (Θ := Θ) (serialPairs D d) {}
    unfold serialPairs at this
    rw [this]
    rfl
  · cases cl <;> rfl

end Verif.Serialization
