import Verif.Spec.Builder
import Verif.Proofs.Example
import Verif.Props.Angles
import Verif.Props.Decay

/-! Closed forms for the functions of the amplitude builder. -/
namespace Verif.ThreeBody
open Verif Verif.Spec Verif.Spin Verif.Angles

/-! ### Dictionaries -/

theorem update_append {κ ν : Type} [DecidableEq κ] (d e1 e2 : PyDict κ ν) :
    PyDict.update d (e1 ++ e2) = PyDict.update (PyDict.update d e1) e2 := by
  simp [PyDict.update, List.foldl_append]

theorem get?_update_mem {κ ν : Type} [DecidableEq κ] {d e : PyDict κ ν} {k : κ} {v : ν}
    (h : PyDict.get? (PyDict.update d e) k = some v) :
    (k, v) ∈ e ∨ PyDict.get? d k = some v := by
  rw [PyDict.get?_update] at h
  cases h' : PyDict.get? e.reverse k with
  | none => rw [h'] at h; exact .inr (by simpa using h)
  | some w =>
    rw [h'] at h
    simp at h; subst h
    exact .inl (List.mem_reverse.1 (PyDict.mem_of_get? h'))

/-- Lookup in a dictionary built from a list in which equal keys have equal values. -/
theorem get?_ofItems_map {α κ ν : Type} [DecidableEq κ] (l : List α) (k : α → κ) (v : α → ν)
    (hk : ∀ x ∈ l, ∀ y ∈ l, k x = k y → v x = v y) {x : α} (hx : x ∈ l) :
    PyDict.get? (PyDict.ofItems (l.map fun x => (k x, v x))) (k x) = some (v x) := by
  have hmem : k x ∈ PyDict.keys (PyDict.ofItems (l.map fun x => (k x, v x))) := by
    rw [PyDict.ofItems, PyDict.mem_keys_update]
    right
    simp only [PyDict.keys, List.map_map, List.mem_map]
    exact ⟨x, hx, rfl⟩
  obtain ⟨w, hw⟩ := PyDict.mem_keys_iff.1 hmem
  rw [hw]
  rcases get?_update_mem hw with h | h
  · obtain ⟨y, hy, hxy⟩ := List.mem_map.1 h
    rw [← (Prod.mk.inj hxy).2]
    rw [hk y hy x hx (Prod.mk.inj hxy).1]
  · simp at h

theorem keys_ofItems_map {α κ ν : Type} [DecidableEq κ] (l : List α) (k : α → κ) (v : α → ν) (y : κ) :
    y ∈ PyDict.keys (PyDict.ofItems (l.map fun x => (k x, v x))) ↔ ∃ x ∈ l, k x = y := by
  rw [PyDict.ofItems, PyDict.mem_keys_update]
  simp [PyDict.keys]

theorem update_ofItems_keys {κ ν : Type} [DecidableEq κ] (d e : PyDict κ ν) (k : κ) :
    k ∈ PyDict.keys (PyDict.update d (PyDict.ofItems e)) ↔
      k ∈ PyDict.keys d ∨ k ∈ PyDict.keys e := by
  rw [PyDict.mem_keys_update, PyDict.ofItems, PyDict.mem_keys_update]
  simp [PyDict.keys]

/-! ### Spin ranges -/

theorem mem_spinRange {j : ℚ} (hj : IsHalfInteger j) (m : ℚ) :
    m ∈ createSpinRange j ↔ Projection j m := by
  obtain ⟨n, hn⟩ := hj
  rcases lt_or_ge n 0 with h | h
  · obtain ⟨k, rfl⟩ : ∃ k : ℕ, n = -((k : ℤ) + 1) := ⟨(-n - 1).toNat, by omega⟩
    have hj' : j = -((k : ℚ) + 1) / 2 := by rw [hn]; push_cast; ring
    rw [hj', (C07_negative_spin k).2]
    have : (0 : ℚ) ≤ k := by positivity
    simp only [List.not_mem_nil, false_iff]
    rintro ⟨h1, h2, -⟩
    linarith
  · obtain ⟨k, rfl⟩ := Int.eq_ofNat_of_zero_le h
    exact (C01_spin_range k j (by rw [hn]; simp)).2.2.1 m

theorem spinRange_nodup (j : ℚ) : (createSpinRange j).Nodup := createRationalRange_nodup _ _

theorem spinRange_ne_nil {j : ℚ} (hj : 0 ≤ j) : createSpinRange j ≠ [] := by
  intro h
  have : -j ∈ createSpinRange j := by
    unfold createSpinRange
    rw [createRationalRange_mem]
    exact ⟨0, by simp, by linarith⟩
  rw [h] at this; simp at this

/-! ### Standard decays -/

section standard
variable {d : Decay}

theorem Standard.nodup (h : Standard d) : (PyDict.keys d.states).Nodup :=
  h.keys.nodup_iff.2 (by decide)

theorem Standard.get? (h : Standard d) {i : ℤ} (hi : i ∈ ([0, 1, 2, 3] : List ℤ)) :
    PyDict.get? d.states i = some (d.st i) := by
  have : i ∈ PyDict.keys d.states := h.keys.symm.subset hi
  obtain ⟨s, hs⟩ := PyDict.mem_keys_iff.1 this
  rw [Decay.st, hs]; rfl

theorem Standard.get (h : Standard d) {i : ℤ} (hi : i ∈ ([0, 1, 2, 3] : List ℤ)) :
    PyDict.get d.states i = .ok (d.st i) := by
  rw [PyDict.get, Standard.get? h hi]

theorem Standard.mem (h : Standard d) {i : ℤ} (hi : i ∈ ([0, 1, 2, 3] : List ℤ)) :
    (i, d.st i) ∈ d.states := PyDict.mem_of_get? (Standard.get? h hi)

theorem Standard.st_index (h : Standard d) {i : ℤ} (hi : i ∈ ([0, 1, 2, 3] : List ℤ)) :
    (d.st i).index = i := h.index _ (Standard.mem h hi)

theorem Standard.half (h : Standard d) {i : ℤ} (hi : i ∈ ([0, 1, 2, 3] : List ℤ)) :
    IsHalfInteger (d.spin i) := h.spins _ (Standard.mem h hi)

/-- Final states are the states 1, 2, 3. -/
theorem Standard.final (h : Standard d) {i : ℤ} (hi : i ∈ ([1, 2, 3] : List ℤ)) :
    PyDict.get (finalStateDict d.states) i = .ok (d.st i) := by
  have hi' := mem0 hi
  have hmem : d.st i ∈ ((d.states.map Prod.snd).filter (·.index ≠ 0)) := by
    rw [List.mem_filter]
    refine ⟨List.mem_map.2 ⟨_, Standard.mem h hi', rfl⟩, ?_⟩
    rw [Standard.st_index h hi']
    have : i ≠ 0 := by rintro rfl; simp at hi
    simp [this]
  have := get?_ofItems_map ((d.states.map Prod.snd).filter (·.index ≠ 0)) (fun s => s.index)
    (fun s => s) (by
      intro x hx y hy hxy
      obtain ⟨⟨a, x⟩, hx1, rfl⟩ := List.mem_map.1 (List.mem_filter.1 hx).1
      obtain ⟨⟨b, y⟩, hy1, rfl⟩ := List.mem_map.1 (List.mem_filter.1 hy).1
      have e1 := h.index _ hx1
      have e2 := h.index _ hy1
      simp only at e1 e2 hxy
      rw [← e1] at hx1
      rw [← e2] at hy1
      have g1 := PyDict.get?_of_mem (Standard.nodup h) hx1
      have g2 := PyDict.get?_of_mem (Standard.nodup h) hy1
      rw [hxy, g2] at g1
      cases g1; rfl) hmem
  simp only [Standard.st_index h hi'] at this
  rw [PyDict.get, finalStateDict, this]

theorem Standard.init (h : Standard d) : initialState d.states = .ok (d.st 0) :=
  Standard.get h (by simp)

/-- The states of a chain are those of the decay. -/
theorem Standard.chain (h : Standard d) {c : Chain} (hc : c ∈ d.chains) :
    c.parent = d.st 0 ∧
    (∀ s ∈ [c.product1, c.product2, c.spectator], s.index ∈ ([1, 2, 3] : List ℤ) ∧
      s = d.st s.index) ∧
    [c.product1.index, c.product2.index, c.spectator.index].Nodup := by
  obtain ⟨⟨s0, h0, -, hp⟩, hperm, hnd, hne⟩ := C17_valid_decay h.valid hc
  refine ⟨?_, ?_, hnd⟩
  · rw [hp, Decay.st, h0]; rfl
  · intro s hs
    have hs' : s ∈ (finalStateDict d.states).map Prod.snd := hperm.symm.subset hs
    rw [mem_finalStateDict] at hs'
    obtain ⟨-, pre, post, hl, -⟩ := hs'
    have hmem' : s ∈ d.states.map Prod.snd := by rw [hl]; simp
    obtain ⟨⟨i, s'⟩, hmem, rfl⟩ := List.mem_map.1 hmem'
    have hidx := h.index _ hmem
    simp only at hidx
    have hi : i ∈ ([0, 1, 2, 3] : List ℤ) := h.keys.subset (List.mem_map.2 ⟨_, hmem, rfl⟩)
    have := hne _ hs
    refine ⟨?_, ?_⟩
    · simp only [hidx]
      rcases List.mem_cons.1 hi with rfl | hi
      · exact absurd hidx this
      · exact hi
    · have g := PyDict.get?_of_mem (Standard.nodup h) hmem
      simp only [hidx, Decay.st, g]; rfl

theorem Standard.subsystem (h : Standard d) {k : ℤ} (hk : k ∈ d.subsystemIds) :
    k ∈ ([1, 2, 3] : List ℤ) := by
  obtain ⟨c, hc, rfl⟩ := ((C18_partition h.valid).1 k).1 hk
  exact ((Standard.chain h hc).2.1 c.spectator (by simp)).1

end standard

/-! ### Coupling symbols -/

/-- The symbol of a coupling, if there is one. -/
def couplingOf (hel : Bool) (res : String) (h1 h2 : Hel) (ls : Option LS) (typ : String) : Indexed :=
  if hel then ⟨couplingBase hel typ, some res, [h1, h2]⟩
  else ⟨couplingBase hel typ, some res,
    [.num (ls.getD ⟨0, 0⟩).L, .num (ls.getD ⟨0, 0⟩).S]⟩

theorem createCouplingSymbol_ok {hel : Bool} {res : String} {h1 h2 : Hel} {ls : Option LS}
    {typ : String} (h : hel = false → ls ≠ none) :
    createCouplingSymbol hel res h1 h2 ls typ = .ok (couplingOf hel res h1 h2 ls typ) := by
  unfold createCouplingSymbol couplingOf
  cases hel with
  | true => rfl
  | false =>
    cases ls with
    | none => exact absurd rfl (h rfl)
    | some x => rfl

theorem createCouplingSymbol_err {hel : Bool} {res : String} {h1 h2 : Hel} {ls : Option LS}
    {typ : String} (h : ¬ (hel = false → ls ≠ none)) :
    createCouplingSymbol hel res h1 h2 ls typ = .error .valueError := by
  unfold createCouplingSymbol
  cases hel with
  | true => simp at h
  | false =>
    cases ls with
    | none => rfl
    | some x => simp at h

/-- The scaling factors of a chain. -/
def scalingOf (b : Builder) (c : Chain) (lR lk li lj : Hel) (uc : Bool) : Scaling :=
  let R := c.resonance.toP.latex
  let p := couplingOf b.useProdHel R lR lk c.incomingLs "production"
  let d := couplingOf b.useDecHel R li lj c.outgoingLs "decay"
  if uc then .one ⟨coefficientBase R b.useProdHel b.useDecHel, none, p.ix ++ d.ix⟩ else .two p d

theorem createScalingFactors_ok {b : Builder} {c : Chain} (h : HasLS b c) (lR lk li lj : Hel)
    (uc : Bool) : createScalingFactors c b.useProdHel lR lk b.useDecHel li lj uc =
      .ok (scalingOf b c lR lk li lj uc) := by
  unfold createScalingFactors scalingOf
  simp only [createCouplingSymbol_ok h.1, createCouplingSymbol_ok h.2]
  cases uc <;> rfl

theorem createScalingFactors_err {b : Builder} {c : Chain} (h : ¬ HasLS b c) (lR lk li lj : Hel)
    (uc : Bool) : createScalingFactors c b.useProdHel lR lk b.useDecHel li lj uc =
      .error .valueError := by
  unfold createScalingFactors
  by_cases h1 : b.useProdHel = false → c.incomingLs ≠ none
  · simp only [createCouplingSymbol_ok h1, createCouplingSymbol_err (fun h2 => h ⟨h1, h2⟩)]; rfl
  · simp only [createCouplingSymbol_err h1]; rfl

/-- Items set by the loop over `λR`. -/
def lambdaRItems (b : Builder) (c : Chain) (lam : ℤ → ℚ) (i j k : ℤ) (uc : Bool) (l : List ℚ) :
    List (Key × Val) :=
  (l.filter fun lR => lam 0 = lR - lam k).flatMap fun lR =>
    (scalingOf b c (.num lR) (.num (lam k)) (.num (lam i)) (.num (lam j)) uc).defaults

theorem lambdaRLoop_ok {b : Builder} {c : Chain} (h : HasLS b c) (lam : ℤ → ℚ) (i j k : ℤ) (uc : Bool)
    (l : List ℚ) (acc : PyDict Key Val) :
    lambdaRLoop b c lam i j k uc l acc = .ok (acc.update (lambdaRItems b c lam i j k uc l)) := by
  induction l generalizing acc with
  | nil => rfl
  | cons x t ih =>
    unfold lambdaRLoop
    by_cases hx : lam 0 = x - lam k
    · rw [if_neg (by simpa using hx), createScalingFactors_ok h]
      simp only [bind, Except.bind]
      rw [ih]
      unfold lambdaRItems
      rw [List.filter_cons_of_pos (by simpa using hx), List.flatMap_cons, update_append]
    · rw [if_pos hx, ih]
      unfold lambdaRItems
      rw [List.filter_cons_of_neg (by simpa using hx)]

theorem lambdaRLoop_err {b : Builder} {c : Chain} (h : ¬ HasLS b c) (lam : ℤ → ℚ) (i j k : ℤ)
    (uc : Bool) (l : List ℚ) (acc : PyDict Key Val) :
    lambdaRLoop b c lam i j k uc l acc = .ok acc ∨
    lambdaRLoop b c lam i j k uc l acc = .error .valueError := by
  induction l with
  | nil => exact .inl rfl
  | cons x t ih =>
    unfold lambdaRLoop
    split
    · exact ih
    · rw [createScalingFactors_err h]; exact .inr rfl

/-! ### Clebsch-Gordan factors -/

/-- `sqrt((2L+1)/(2J+1)) * CG * CG` for children with the given spins and helicities. -/
def cgExpr (J s1 s2 : ℚ) (ls : LS) (h1 h2 : Hel) : Expr :=
  .mul (.mul (.sqrt (.num ((2 * ls.L + 1) / (2 * J + 1))))
    (Expr.cg (.num ls.L) (.num 0) (.num ls.S) (.sub h1 h2) (.num J) (.sub h1 h2)))
    (Expr.cg (.num s1) h1 (.num s2) (.neg h2) (.num ls.S) (.sub h1 h2))

/-- Whether the isobar is the first child of the production node. -/
def isobarFirst : Node → Bool
  | .isobar _ (.isobar ..) _ _ => true
  | _ => false

/-- Helicity that the lookup yields for the resonance: a resonance that equals the spectator gets
the helicity of the spectator. -/
def resHel (c : Chain) (lk : ℚ) : Hel :=
  if c.resonance = .state c.spectator then .num lk else .sym lambdaR

/-- Production Clebsch-Gordan factor of a chain. -/
def prodCG (c : Chain) (lam : ℤ → ℚ) (k : ℤ) : Expr :=
  let ls := c.incomingLs.getD ⟨0, 0⟩
  if isobarFirst c.decay then
    cgExpr c.parent.spin c.resonance.toP.spin c.spectator.spin ls (resHel c (lam k)) (.num (lam k))
  else cgExpr c.parent.spin c.spectator.spin c.resonance.toP.spin ls (.num (lam k)) (resHel c (lam k))

/-- Decay Clebsch-Gordan factor of a chain. -/
def decCG (c : Chain) (lam : ℤ → ℚ) : Expr :=
  cgExpr c.resonance.toP.spin c.product1.spin c.product2.spin (c.outgoingLs.getD ⟨0, 0⟩)
    (.num (lam c.product1.index)) (.num (lam c.product2.index))

/-- The summand of a chain. -/
def termBody (b : Builder) (c : Chain) (dyn : Expr) (lam spin : ℤ → ℚ) (i j k : ℤ) (θ : Sym)
    (uc : Bool) : Expr :=
  let e := subAmpExpr lam spin i j k c.resonance.toP.spin dyn θ
    (scalingOf b c (.sym lambdaR) (.num (lam k)) (.num (lam i)) (.num (lam j)) uc)
  let e := if b.useDecHel then e else e * decCG c lam
  if b.useProdHel then e else e * prodCG c lam k

/-- Items set for a chain. -/
def chainItems (b : Builder) (dyn : DefExpr) (c : Chain) (lam : ℤ → ℚ) (i j k : ℤ) (uc : Bool) :
    List (Key × Val) :=
  dyn.parameters ++ lambdaRItems b c lam i j k uc (createSpinRange c.resonance.toP.spin)

theorem ids_cases {k : ℤ} (hk : k ∈ ([1, 2, 3] : List ℤ)) :
    ∃ i j, getDecayProductIds k = .ok (i, j) ∧ i ∈ ([1, 2, 3] : List ℤ) ∧
      j ∈ ([1, 2, 3] : List ℤ) ∧ i ≠ j ∧ i ≠ k ∧ j ≠ k ∧
      ∀ x ∈ ([1, 2, 3] : List ℤ), x = i ∨ x = j ∨ x = k := by
  simp only [List.mem_cons, List.not_mem_nil, or_false] at hk
  rcases hk with rfl | rfl | rfl
  · exact ⟨2, 3, rfl, by decide, by decide, by decide, by decide, by decide, by decide⟩
  · exact ⟨3, 1, rfl, by decide, by decide, by decide, by decide, by decide, by decide⟩
  · exact ⟨1, 2, rfl, by decide, by decide, by decide, by decide, by decide, by decide⟩

theorem get_two {κ ν : Type} [DecidableEq κ] (a b : κ) (x y : ν) :
    PyDict.get (PyDict.ofItems [(a, x), (b, y)]) b = .ok y ∧
    PyDict.get (PyDict.ofItems [(a, x), (b, y)]) a = .ok (if a = b then y else x) := by
  unfold PyDict.get
  rw [PyDict.get?_ofItems, PyDict.get?_ofItems]
  simp only [List.reverse_cons, List.reverse_nil, List.nil_append, List.cons_append,
    PyDict.get?_cons, if_true, PyDict.get?_nil]
  refine ⟨trivial, ?_⟩
  by_cases h : a = b
  · subst h; simp
  · simp [h, Ne.symm h]

/-- Closed form of one pass of the loop over the chains. -/
theorem chainTerm_eq {b : Builder} (hd : Standard b.decay) {dyn : Chain → DefExpr}
    (hdyn : Lineshapes b dyn) {c : Chain} (hc : c ∈ b.decay.chains) {i j k : ℤ}
    (hk : c.spectator.index = k) (hij : getDecayProductIds k = .ok (i, j)) (lam spin : ℤ → ℚ)
    (θ : Sym) (uc : Bool) (params : PyDict Key Val) :
    (HasLS b c → chainTerm b (finalStateDict b.decay.states) lam spin i j k θ uc c params =
      .ok (params.update (chainItems b (dyn c) c lam i j k uc),
        .psum (termBody b c (dyn c).expression lam spin i j k θ uc)
          [(lambdaR, createSpinRange c.resonance.toP.spin)])) ∧
    (¬ HasLS b c → chainTerm b (finalStateDict b.decay.states) lam spin i j k θ uc c params =
      .error .valueError) := by
  obtain ⟨g, hg, hgc⟩ := hdyn c hc
  obtain ⟨-, hst, hnd⟩ := Standard.chain hd hc
  have hk3 : k ∈ ([1, 2, 3] : List ℤ) := hk ▸ (hst c.spectator (by simp)).1
  obtain ⟨i', j', hij', hi, hj, hne, hik, hjk, hall⟩ := ids_cases hk3
  rw [hij] at hij'; cases hij'
  constructor
  · intro h
    obtain ⟨⟨⟨c1, c2, h1, h2, hn⟩, -⟩, -⟩ := (C16_chain_constructor _ c).1 (hd.valid.2 c hc)
    rw [standsFor_iff] at h1 h2
    have hnode : c.decay.decayNode = .ok (.isobar c.resonance c1 c2 c.outgoingLs) := by
      rcases hn with hn | hn <;> rw [hn] <;> rfl
    have hp1 := hst c.product1 (by simp)
    have hp2 := hst c.product2 (by simp)
    have hs := hst c.spectator (by simp)
    -- decay factor
    have hdec : b.useDecHel = false → clebschGordanFactors
        (.isobar c.resonance c1 c2 c.outgoingLs)
        (PyDict.ofItems [(.state (b.decay.st i), .num (lam i)),
          (.state (b.decay.st j), .num (lam j))]) = .ok (decCG c lam) := by
      intro hu
      obtain ⟨ls, hls⟩ := Option.ne_none_iff_exists'.1 (h.2 hu)
      have hsij : (Obj.state (b.decay.st i)) ≠ .state (b.decay.st j) := by
        intro he
        have : b.decay.st i = b.decay.st j := by injection he
        have h3 := congrArg State.index this
        rw [Standard.st_index hd (mem0 hi), Standard.st_index hd (mem0 hj)] at h3
        exact hne h3
      obtain ⟨g1, g2⟩ := get_two (Obj.state (b.decay.st i)) (.state (b.decay.st j))
        (Hel.num (lam i)) (.num (lam j))
      rw [if_neg hsij] at g2
      have look : ∀ s : State, s.index ∈ ([1, 2, 3] : List ℤ) → s.index ≠ k →
          s = b.decay.st s.index →
          PyDict.get (PyDict.ofItems [(Obj.state (b.decay.st i), Hel.num (lam i)),
            (.state (b.decay.st j), .num (lam j))]) (.state s) = .ok (.num (lam s.index)) := by
        intro s hs1 hs2 hs3
        rcases hall _ hs1 with h | h | h
        · rw [hs3, h, Standard.st_index hd (mem0 hi)]; exact g2
        · rw [hs3, h, Standard.st_index hd (mem0 hj)]; exact g1
        · exact absurd h hs2
      simp only [List.nodup_cons, List.mem_cons, List.not_mem_nil, or_false, not_or] at hnd
      have l1 := look c.product1 hp1.1 (by rw [← hk]; exact hnd.1.2) hp1.2
      have l2 := look c.product2 hp2.1 (by rw [← hk]; exact hnd.2.1) hp2.2
      rw [hls]
      unfold clebschGordanFactors
      simp only [h1, h2, bind, Except.bind]
      rw [l1, l2]
      simp [decCG, hls, cgExpr, Obj.toP, pure, Except.pure]
    have hprod : b.useProdHel = false → clebschGordanFactors c.decay
        (PyDict.ofItems [(c.resonance, .sym lambdaR),
          (.state (b.decay.st k), .num (lam k))]) = .ok (prodCG c lam k) := by
      intro hu
      obtain ⟨ls, hls⟩ := Option.ne_none_iff_exists'.1 (h.1 hu)
      have hsk : b.decay.st k = c.spectator := by rw [← hk]; exact hs.2.symm
      rw [hsk]
      obtain ⟨g1, g2⟩ := get_two c.resonance (.state c.spectator)
        (Hel.sym lambdaR) (.num (lam k))
      unfold prodCG
      rcases hn with hn | hn <;> rw [hn] <;> rw [hls] <;> unfold clebschGordanFactors <;>
        simp only [Node.toParticle, bind, Except.bind] <;> rw [g1, g2] <;>
        simp [cgExpr, Obj.toP, pure, Except.pure, isobarFirst, resHel]
    unfold chainTerm
    rw [hg]
    simp only [bind, Except.bind]
    rw [hgc]
    simp only
    rw [lambdaRLoop_ok h]
    simp only
    rw [createScalingFactors_ok h, hnode]
    simp only
    rw [Standard.final hd hi, Standard.final hd hj, Standard.final hd hk3]
    simp only
    unfold termBody chainItems
    rw [update_append]
    cases hu1 : b.useDecHel with
    | true =>
      cases hu2 : b.useProdHel with
      | true => rfl
      | false => rw [hprod hu2]; rfl
    | false =>
      rw [hdec hu1]
      cases hu2 : b.useProdHel with
      | true => rfl
      | false => rw [hprod hu2]; rfl
  · intro h
    unfold chainTerm
    rw [hg]
    simp only [bind, Except.bind]
    rw [hgc]
    simp only
    rcases lambdaRLoop_err h lam i j k uc (createSpinRange c.resonance.toP.spin)
      (PyDict.update params (dyn c).parameters) with h' | h'
    · rw [h']
      simp only
      rw [createScalingFactors_err h]
    · rw [h']

/-- Closed form of the loop over the chains of a subsystem. -/
theorem chainLoop_eq {b : Builder} (hd : Standard b.decay) {dyn : Chain → DefExpr}
    (hdyn : Lineshapes b dyn) {i j k : ℤ} (hij : getDecayProductIds k = .ok (i, j))
    (lam spin : ℤ → ℚ) (θ : Sym) (uc : Bool) (cs : List Chain)
    (hcs : ∀ c ∈ cs, c ∈ b.decay.chains ∧ c.spectator.index = k) (params : PyDict Key Val) :
    ((∀ c ∈ cs, HasLS b c) →
      chainLoop b (finalStateDict b.decay.states) lam spin i j k θ uc cs params =
        .ok (params.update (cs.flatMap fun c => chainItems b (dyn c) c lam i j k uc),
          cs.map fun c => .psum (termBody b c (dyn c).expression lam spin i j k θ uc)
            [(lambdaR, createSpinRange c.resonance.toP.spin)])) ∧
    ((¬ ∀ c ∈ cs, HasLS b c) →
      chainLoop b (finalStateDict b.decay.states) lam spin i j k θ uc cs params =
        .error .valueError) := by
  induction cs generalizing params with
  | nil => exact ⟨fun _ => rfl, fun h => absurd (by simp) h⟩
  | cons c t ih =>
    obtain ⟨hc, hk⟩ := hcs c (by simp)
    obtain ⟨t1, t2⟩ := chainTerm_eq hd hdyn hc hk hij lam spin θ uc params
    have ih' := ih (fun c hc => hcs c (by simp [hc]))
    constructor
    · intro h
      unfold chainLoop
      rw [t1 (h c (by simp))]
      simp only [bind, Except.bind]
      rw [(ih' _).1 (fun c hc => h c (by simp [hc]))]
      simp only [pure, Except.pure, List.flatMap_cons, List.map_cons, update_append]
    · intro h
      unfold chainLoop
      by_cases hc' : HasLS b c
      · rw [t1 hc']
        simp only [bind, Except.bind]
        rw [(ih' _).2 (fun h' => h (by simpa using ⟨hc', h'⟩))]
      · rw [t2 hc']; rfl

/-! ### Subsystem amplitudes -/

/-- The chains of a subsystem. -/
def chainsOf (d : Decay) (k : ℤ) : List Chain := d.chains.filter fun c => c.spectator.index = k

/-- The spins as used by the code. -/
def spins (d : Decay) : ℤ → ℚ := tup (d.spin 0) (d.spin 1) (d.spin 2) (d.spin 3)

theorem spins_eq (d : Decay) {i : ℤ} (hi : i ∈ ([0, 1, 2, 3] : List ℤ)) : spins d i = d.spin i := by
  simp only [List.mem_cons, List.not_mem_nil, or_false] at hi
  rcases hi with rfl | rfl | rfl | rfl <;> rfl

/-- The scattering angle symbol of subsystem `k`. -/
def thetaSym (i j : ℤ) : Sym := ⟨"theta_" ++ toString i ++ toString j, .real⟩

/-- The decay products of subsystem `k`. -/
def prodIds (k : ℤ) : ℤ × ℤ := if k = 1 then (2, 3) else if k = 2 then (3, 1) else (1, 2)

theorem prodIds_eq {k : ℤ} (hk : k ∈ ([1, 2, 3] : List ℤ)) :
    getDecayProductIds k = .ok (prodIds k) := by
  simp only [List.mem_cons, List.not_mem_nil, or_false] at hk
  rcases hk with rfl | rfl | rfl <;> rfl

/-- The scattering angle expression of subsystem `k`. -/
def thetaExpr (k : ℤ) : RExpr :=
  match formulateScatteringAngle (prodIds k).1 (prodIds k).2 with
  | .ok r => r.2
  | .error _ => 0

theorem theta_eq {k : ℤ} (hk : k ∈ ([1, 2, 3] : List ℤ)) :
    formulateScatteringAngle (prodIds k).1 (prodIds k).2 =
      .ok (thetaSym (prodIds k).1 (prodIds k).2, thetaExpr k) := by
  simp only [List.mem_cons, List.not_mem_nil, or_false] at hk
  rcases hk with rfl | rfl | rfl <;> rfl

/-- Helicity tuple as a function. -/
def lamOf (l : ℚ × ℚ × ℚ × ℚ) : ℤ → ℚ := tup l.1 l.2.1 l.2.2.1 l.2.2.2

/-- The amplitude symbol for numeric helicities. -/
def ampKey (k : ℤ) (l : ℚ × ℚ × ℚ × ℚ) : Indexed :=
  ampSym k (.num l.1) (.num l.2.1) (.num l.2.2.1) (.num l.2.2.2)

/-- The term of chain `c` in the amplitude of subsystem `k`. -/
def ampTerm (b : Builder) (dyn : Chain → DefExpr) (uc : Bool) (k : ℤ) (l : ℚ × ℚ × ℚ × ℚ)
    (c : Chain) : Expr :=
  .psum (termBody b c (dyn c).expression (lamOf l) (spins b.decay) (prodIds k).1 (prodIds k).2 k
    (thetaSym (prodIds k).1 (prodIds k).2) uc) [(lambdaR, createSpinRange c.resonance.toP.spin)]

/-- The amplitude expression. -/
def ampExpr (b : Builder) (dyn : Chain → DefExpr) (uc : Bool) (k : ℤ) (l : ℚ × ℚ × ℚ × ℚ) : Expr :=
  Expr.addAll ((chainsOf b.decay k).map (ampTerm b dyn uc k l))

/-- The parameter items of a subsystem amplitude. -/
def ampItems (b : Builder) (dyn : Chain → DefExpr) (uc : Bool) (k : ℤ) (l : ℚ × ℚ × ℚ × ℚ) :
    List (Key × Val) :=
  (chainsOf b.decay k).flatMap fun c =>
    chainItems b (dyn c) c (lamOf l) (prodIds k).1 (prodIds k).2 k uc

theorem subsystemAmplitude_eq {b : Builder} (hd : Standard b.decay) {dyn : Chain → DefExpr}
    (hdyn : Lineshapes b dyn) {k : ℤ} (hk : k ∈ ([1, 2, 3] : List ℤ)) (l : ℚ × ℚ × ℚ × ℚ)
    (uc : Bool) :
    ((∀ c ∈ chainsOf b.decay k, HasLS b c) →
      b.subsystemAmplitude l.1 l.2.1 l.2.2.1 l.2.2.2 k uc =
      .ok { decay := b.decay, intensity := .pow (.abs (.idx (ampKey k l))) 2,
            amplitudes := [(ampKey k l, ampExpr b dyn uc k l)],
            angleDefs := [(thetaSym (prodIds k).1 (prodIds k).2, thetaExpr k)],
            parameterDefaults := PyDict.ofItems (ampItems b dyn uc k l) }) ∧
    ((¬ ∀ c ∈ chainsOf b.decay k, HasLS b c) →
      b.subsystemAmplitude l.1 l.2.1 l.2.2.1 l.2.2.2 k uc = .error .valueError) := by
  have hcs : ∀ c ∈ chainsOf b.decay k, c ∈ b.decay.chains ∧ c.spectator.index = k := by
    intro c hc
    have := List.mem_filter.1 hc
    exact ⟨this.1, by simpa using this.2⟩
  obtain ⟨l1, l2⟩ := chainLoop_eq (i := (prodIds k).1) (j := (prodIds k).2) hd hdyn (prodIds_eq hk) (lamOf l) (spins b.decay)
    (thetaSym (prodIds k).1 (prodIds k).2) uc _ hcs []
  have hsub := getSubsystem_eq hd.valid k
  unfold Builder.subsystemAmplitude
  rw [prodIds_eq hk]
  simp only [bind, Except.bind]
  rw [theta_eq hk]
  simp only
  rw [Standard.init hd, Standard.final hd (by simp : (1:ℤ) ∈ _),
    Standard.final hd (by simp : (2:ℤ) ∈ _), Standard.final hd (by simp : (3:ℤ) ∈ _), hsub]
  simp only
  constructor
  · intro h
    have := l1 h
    unfold chainsOf lamOf spins Decay.spin at this
    rw [this]; rfl
  · intro h
    have := l2 h
    unfold chainsOf lamOf spins Decay.spin at this
    rw [this]

end Verif.ThreeBody
