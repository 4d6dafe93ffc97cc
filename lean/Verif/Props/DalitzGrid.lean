import Verif.Proofs.DalitzGrid
import Verif.Proofs.DalitzSlice
import Verif.Spec.Closed

/-! Property C129: evaluation of a model on a grid over the Dalitz plot, as in the notebooks. -/
namespace Verif.ThreeBody
open Verif Verif.Spec

variable {b : Builder} {dyn : Chain → DefExpr} {reference : Option ℤ} {cl uc : Bool} {m : AmplitudeModel} {i j k : ℤ} {M : ℤ → ℚ}

theorem plotReady (hd : Standard b.decay) (hdyn : Lineshapes b dyn) (hr : RefOk reference)
    (h : b.formulate reference cl uc = .ok m) : PlotReady m fun n => (b.decay.st n).mass := by
  obtain ⟨ref, P, -, hr', -, rfl, hP⟩ := formulate_inv hd hdyn hr h
  have hitems : ∀ x ∈ (result b dyn ref cl uc P).angleDefs, x.1.asm = .real ∧ ∀ s ∈ kinematicSymbols x.2, s ∈ providedSymbols := by
    intro x hx
    change x ∈ PyDict.update (PyDict.ofItems _) (PyDict.ofItems _) at hx
    rcases PyDict.mem_update hx with hx | hx
    · obtain ⟨y, hy, rfl⟩ := List.mem_map.1 (PyDict.mem_ofItems hx)
      exact ⟨rfl, theta_symbols (Standard.subsystems hd ((mem_pairs y).1 hy).2)⟩
    · have hx := PyDict.mem_ofItems hx
      rw [List.mem_flatMap] at hx
      obtain ⟨k, hk, hx⟩ := hx
      unfold alignItems at hx
      rw [List.mem_flatMap] at hx
      obtain ⟨i, hi, hx⟩ := hx
      unfold wigItems at hx
      split at hx
      · simp at hx
      · simp only [List.mem_singleton] at hx
        subst hx
        exact ⟨rfl, zeta_symbols hi (Standard.subsystem hd hk) hr'⟩
  refine ⟨rfl, rfl, fun s hs => ?_, fun x hx => (hitems x hx).2⟩
  obtain ⟨x, hx, rfl⟩ := List.mem_map.1 hs
  exact (hitems x hx).1

theorem grid_definitions (hp : PlotReady m M) (hijk : IsPerm123 i j k) : ∃ D, dalitzDefinitions m i j = .ok D ∧
    PyDict.keys D = PyDict.keys m.angleDefs ++ [⟨"sigma" ++ toString k, .nonneg⟩] ∧
    (∀ x ∈ D, ∀ s ∈ kinematicSymbols x.2, s = ⟨"sigma" ++ toString i, .nonneg⟩ ∨ s = ⟨"sigma" ++ toString j, .nonneg⟩) ∧
    ∀ ρ : Sym → ℝ, (∀ n ∈ ([0, 1, 2, 3] : List ℤ), ρ ⟨"m" ++ toString n, .nonneg⟩ = M n) → SumRule ρ →
      (∀ e, (⟨"sigma" ++ toString k, .nonneg⟩, e) ∈ D → e.eval ρ = some (ρ ⟨"sigma" ++ toString k, .nonneg⟩)) ∧
      ∀ s e, PyDict.get? m.angleDefs s = some e → ∃ e', PyDict.get? D s = some e' ∧ e'.eval ρ = e.eval ρ := by
  refine ⟨_, dalitzDefinitions_eq hp hijk, ?_, ?_, fun ρ hρ hs => ⟨?_, ?_⟩⟩
  · simp [PyDict.keys, withThird]
  · intro x hx s hs
    obtain ⟨y, hy, rfl⟩ := List.mem_map.1 hx
    exact definition_symbols hp hijk hy hs
  · intro e he
    obtain ⟨y, hy, hye⟩ := List.mem_map.1 he
    obtain ⟨h1, rfl⟩ := Prod.mk.inj hye
    rw [definition_eval hp hijk hy hρ fun _ => (thirdDef_eval hijk ρ).2 hs]
    rcases List.mem_append.1 hy with hy | hy
    · exact absurd (List.mem_map.2 ⟨y, hy, h1⟩) (not_key hp rfl)
    · rw [List.mem_singleton.1 hy]
      exact (thirdDef_eval hijk ρ).2 hs
  · intro s e he
    have happ : ∀ d d' : PyDict Sym RExpr, PyDict.get? d s = some e → PyDict.get? (d ++ d') s = some e := by
      intro d d'
      induction d with
      | nil => intro h; cases h
      | cons x d ih =>
        intro h
        rw [List.cons_append, PyDict.get?_cons]
        rw [PyDict.get?_cons] at h
        split
        · rename_i hx; rwa [if_pos hx] at h
        · rename_i hx; rw [if_neg hx] at h; exact ih h
    have hw : PyDict.get? (withThird m k) s = some e := happ _ _ he
    refine ⟨_, ?_, definition_eval hp hijk (x := (s, e)) (PyDict.mem_of_get? hw) hρ fun _ => (thirdDef_eval hijk ρ).2 hs⟩
    rw [get?_mapVal _ (fun e => (e.xreplace (withThird m k)).xreplace (massNums M)), hw]
    rfl

/-- C129: the definitions that the notebooks compute from a model, for two Mandelstam variables `σi` and `σj`, define all angles
and the third Mandelstam variable. They depend on `σi` and `σj` only, and at every point with the masses of the states and the
sum rule they have the value of the definitions of the model, or none where these have none (outside the Dalitz plot). -/
theorem C129_definitions (hd : Standard b.decay) (hdyn : Lineshapes b dyn) (hr : RefOk reference)
    (h : b.formulate reference cl uc = .ok m) (hijk : IsPerm123 i j k) : ∃ D, dalitzDefinitions m i j = .ok D ∧
    PyDict.keys D = PyDict.keys m.angleDefs ++ [⟨"sigma" ++ toString k, .nonneg⟩] ∧
    (∀ x ∈ D, ∀ s ∈ kinematicSymbols x.2, s = ⟨"sigma" ++ toString i, .nonneg⟩ ∨ s = ⟨"sigma" ++ toString j, .nonneg⟩) ∧
    ∀ ρ : Sym → ℝ, (∀ n ∈ ([0, 1, 2, 3] : List ℤ), ρ ⟨"m" ++ toString n, .nonneg⟩ = (b.decay.st n).mass) → SumRule ρ →
      (∀ e, (⟨"sigma" ++ toString k, .nonneg⟩, e) ∈ D → e.eval ρ = some (ρ ⟨"sigma" ++ toString k, .nonneg⟩)) ∧
      ∀ s e, PyDict.get? m.angleDefs s = some e → ∃ e', PyDict.get? D s = some e' ∧ e'.eval ρ = e.eval ρ :=
  grid_definitions (plotReady hd hdyn hr h) hijk

theorem grid_data (hp : PlotReady m M) (hijk : IsPerm123 i j k) {D : PyDict Sym RExpr}
    (hD : dalitzDefinitions m i j = .ok D) {ι : Interp}
    (hmass : ∀ n ∈ ([0, 1, 2, 3] : List ℤ), ι.sym ⟨"m" ++ toString n, .nonneg⟩ = (M n : ℂ))
    (hdata : ∀ x ∈ D, Computes ι x) :
    (∀ x ∈ m.angleDefs, Computes ι x) ∧ (∃ third ∈ m.invariants, third.1 = ⟨"sigma" ++ toString k, .nonneg⟩ ∧ Computes ι third) ∧
      SumRule fun s => (ι.sym s).re := by
  rw [dalitzDefinitions_eq hp hijk] at hD
  obtain rfl := Except.ok.inj hD
  have hρ : ∀ n ∈ ([0, 1, 2, 3] : List ℤ), (ι.sym (mSym n)).re = M n := by
    intro n hn
    rw [show ι.sym (mSym n) = _ from hmass n hn]
    exact Complex.ratCast_re _
  have hthird : Computes ι (sSym k, thirdDef k) := by
    have hmem : (sSym k, thirdDef k) ∈ withThird m k := List.mem_append_right _ (List.mem_singleton.2 rfl)
    obtain ⟨v, hv, hs⟩ := hdata _ (List.mem_map_of_mem hmem)
    refine ⟨v, ?_, hs⟩
    rw [← hv]
    exact (definition_eval hp hijk hmem hρ fun hmem => absurd hmem (third_not_mem hijk)).symm
  have hsum : (thirdDef k).eval (fun s => (ι.sym s).re) = some ((ι.sym (sSym k)).re) := by
    obtain ⟨v, hv, hs⟩ := hthird
    rw [hv, show ι.sym (sSym k) = v from hs, Complex.ofReal_re]
  refine ⟨fun x hx => ?_, ⟨(sSym k, thirdDef k), ?_, rfl, hthird⟩, (thirdDef_eval hijk _).1 hsum⟩
  · have hmem : x ∈ withThird m k := List.mem_append_left _ hx
    obtain ⟨v, hv, hs⟩ := hdata _ (List.mem_map_of_mem hmem)
    refine ⟨v, ?_, hs⟩
    rw [← hv]
    exact (definition_eval hp hijk hmem hρ fun _ => hsum).symm
  · rw [hp.invariants]
    rcases Angles.perm_cases hijk with ⟨rfl, rfl, rfl⟩ | ⟨rfl, rfl, rfl⟩ | ⟨rfl, rfl, rfl⟩ |
      ⟨rfl, rfl, rfl⟩ | ⟨rfl, rfl, rfl⟩ | ⟨rfl, rfl, rfl⟩ <;> simp [thirdDef]

/-- C129: data to which the values of these definitions were added (`dalitz_data.update(data_transformer(dalitz_data))`), with the
masses of the states, are a point of the model: all angles have the value of their definitions in the model, and the sum rule is
met. -/
theorem C129_data (hd : Standard b.decay) (hdyn : Lineshapes b dyn) (hr : RefOk reference)
    (h : b.formulate reference cl uc = .ok m) (hijk : IsPerm123 i j k) {D : PyDict Sym RExpr}
    (hD : dalitzDefinitions m i j = .ok D) {ι : Interp}
    (hmass : ∀ n ∈ ([0, 1, 2, 3] : List ℤ), ι.sym ⟨"m" ++ toString n, .nonneg⟩ = ((b.decay.st n).mass : ℂ))
    (hdata : ∀ x ∈ D, Computes ι x) :
    (∀ x ∈ m.angleDefs, Computes ι x) ∧ (∃ third ∈ m.invariants, third.1 = ⟨"sigma" ++ toString k, .nonneg⟩ ∧ Computes ι third) ∧
      SumRule fun s => (ι.sym s).re :=
  grid_data (plotReady hd hdyn hr h) hijk hD hmass hdata

theorem grid_evaluable (hp : PlotReady m M) (hijk : IsPerm123 i j k) {D : PyDict Sym RExpr}
    (hD : dalitzDefinitions m i j = .ok D) {ι : Interp}
    (hmass : ∀ n ∈ ([0, 1, 2, 3] : List ℤ), ι.sym ⟨"m" ++ toString n, .nonneg⟩ = (M n : ℂ))
    (hreal : (ι.sym ⟨"sigma" ++ toString k, .nonneg⟩).im = 0) (hρ : DalitzRegion fun s => (ι.sym s).re)
    (hev : ∃ ι' : Interp, SameFunctions ι ι' ∧ ι'.idx = ι.idx ∧ (∀ s, s ∉ PyDict.keys m.angleDefs → ι'.sym s = ι.sym s) ∧
      ∀ x ∈ m.angleDefs, Computes ι' x) :
    ∃ ι' : Interp, SameFunctions ι ι' ∧ ι'.idx = ι.idx ∧ (∀ s, s ∉ PyDict.keys m.angleDefs → ι'.sym s = ι.sym s) ∧
      ∀ x ∈ D, Computes ι' x := by
  obtain ⟨ι', h1, h2, h3, h4⟩ := hev
  refine ⟨ι', h1, h2, h3, ?_⟩
  rw [dalitzDefinitions_eq hp hijk] at hD
  obtain rfl := Except.ok.inj hD
  have hm : ∀ n ∈ ([0, 1, 2, 3] : List ℤ), (ι'.sym (mSym n)).re = M n := by
    intro n hn
    rw [h3 _ (not_key hp rfl), show ι.sym (mSym n) = _ from hmass n hn]
    exact Complex.ratCast_re _
  have hsum : (thirdDef k).eval (fun s => (ι'.sym s).re) = some ((ι'.sym (sSym k)).re) := by
    refine (thirdDef_eval hijk _).2 ?_
    have := hρ.sum
    simp only [SumRule] at this ⊢
    rw [h3 _ (not_key hp rfl), h3 _ (not_key hp rfl), h3 _ (not_key hp rfl), h3 _ (not_key hp rfl), h3 _ (not_key hp rfl),
      h3 _ (not_key hp rfl), h3 _ (not_key hp rfl)]
    exact this
  intro x hx
  obtain ⟨y, hy, rfl⟩ := List.mem_map.1 hx
  have he := definition_eval hp hijk hy (ρ := fun s => (ι'.sym s).re) hm fun _ => hsum
  rcases List.mem_append.1 hy with hy | hy
  · obtain ⟨v, hv, hs⟩ := h4 _ hy
    exact ⟨v, he.trans hv, hs⟩
  · obtain rfl := List.mem_singleton.1 hy
    refine ⟨_, he.trans hsum, ?_⟩
    show ι'.sym (sSym k) = _
    have hk : ι'.sym (sSym k) = ι.sym (sSym k) := h3 _ (not_key hp rfl)
    rw [hk]
    exact Complex.ext rfl hreal

/-- C129: such data exist for all points of the Dalitz plot, also on its boundary, and all values of the parameters. -/
theorem C129_evaluable (hd : Standard b.decay) (hdyn : Lineshapes b dyn) (hr : RefOk reference)
    (h : b.formulate reference cl uc = .ok m) (hijk : IsPerm123 i j k) {D : PyDict Sym RExpr}
    (hD : dalitzDefinitions m i j = .ok D) {ι : Interp}
    (hmass : ∀ n ∈ ([0, 1, 2, 3] : List ℤ), ι.sym ⟨"m" ++ toString n, .nonneg⟩ = ((b.decay.st n).mass : ℂ))
    (hreal : (ι.sym ⟨"sigma" ++ toString k, .nonneg⟩).im = 0) (hρ : DalitzRegion fun s => (ι.sym s).re) :
    ∃ ι' : Interp, SameFunctions ι ι' ∧ ι'.idx = ι.idx ∧ (∀ s, s ∉ PyDict.keys m.angleDefs → ι'.sym s = ι.sym s) ∧
      ∀ x ∈ D, Computes ι' x :=
  grid_evaluable (plotReady hd hdyn hr h) hijk hD hmass hreal hρ (C72_evaluable hd hdyn hr h hρ)

theorem grid_intensity (hp : PlotReady m M) (hc : Closed m) (hijk : IsPerm123 i j k)
    {D : PyDict Sym RExpr} (hD : dalitzDefinitions m i j = .ok D) {ι ι' : Interp} (hf : SameFunctions ι ι')
    (hpar : SameParameters m ι ι')
    (hmass : ∀ n ∈ ([0, 1, 2, 3] : List ℤ), ι.sym ⟨"m" ++ toString n, .nonneg⟩ = (M n : ℂ))
    (hdata : ∀ x ∈ D, Computes ι x)
    (hi : ι.sym ⟨"sigma" ++ toString i, .nonneg⟩ = ι'.sym ⟨"sigma" ++ toString i, .nonneg⟩)
    (hj : ι.sym ⟨"sigma" ++ toString j, .nonneg⟩ = ι'.sym ⟨"sigma" ++ toString j, .nonneg⟩)
    (hangles : ∀ x ∈ m.angleDefs, Computes ι' x) (hinv : ∀ x ∈ m.invariants, Computes ι' x) (η η' : Sym → ℚ) :
    m.fullExpression.eval ι η = m.fullExpression.eval ι' η' := by
  obtain ⟨ha, ⟨third, ht, hk, hthird⟩, -⟩ := grid_data hp hijk hD hmass hdata
  refine C72_two_invariants hc hf hpar ht (fun s hs hne => ?_) hthird (hinv _ ht) ha hangles η η'
  rw [hk] at hne
  rw [hp.invariants] at hs
  simp only [PyDict.keys, List.map_cons, List.map_nil, List.mem_cons, List.not_mem_nil, or_false] at hs
  rcases Angles.perm_cases hijk with ⟨rfl, rfl, rfl⟩ | ⟨rfl, rfl, rfl⟩ | ⟨rfl, rfl, rfl⟩ |
    ⟨rfl, rfl, rfl⟩ | ⟨rfl, rfl, rfl⟩ | ⟨rfl, rfl, rfl⟩ <;> rcases hs with rfl | rfl | rfl <;>
    first | exact hi | exact hj | exact absurd rfl hne

/-- C129: so the value of the model for such data is its value at the point of the Dalitz plot with these `σi` and `σj`. -/
theorem C129_intensity (hd : Standard b.decay) (hdyn : Lineshapes b dyn) (hr : RefOk reference)
    (h : b.formulate reference cl uc = .ok m) (hl : ∀ c ∈ b.decay.chains, ClosedLineshape (dyn c)) (hijk : IsPerm123 i j k)
    {D : PyDict Sym RExpr} (hD : dalitzDefinitions m i j = .ok D) {ι ι' : Interp} (hf : SameFunctions ι ι')
    (hpar : SameParameters m ι ι')
    (hmass : ∀ n ∈ ([0, 1, 2, 3] : List ℤ), ι.sym ⟨"m" ++ toString n, .nonneg⟩ = ((b.decay.st n).mass : ℂ))
    (hdata : ∀ x ∈ D, Computes ι x)
    (hi : ι.sym ⟨"sigma" ++ toString i, .nonneg⟩ = ι'.sym ⟨"sigma" ++ toString i, .nonneg⟩)
    (hj : ι.sym ⟨"sigma" ++ toString j, .nonneg⟩ = ι'.sym ⟨"sigma" ++ toString j, .nonneg⟩)
    (hangles : ∀ x ∈ m.angleDefs, Computes ι' x) (hinv : ∀ x ∈ m.invariants, Computes ι' x) (η η' : Sym → ℚ) :
    m.fullExpression.eval ι η = m.fullExpression.eval ι' η' :=
  grid_intensity (plotReady hd hdyn hr h) (C72_closed hd hdyn hr h hl) hijk hD hf hpar hmass hdata hi hj hangles hinv η η'

/-- Values of the symbols at the point of the Dalitz plot with `σi = x` and `σj = y`. -/
noncomputable def gridPoint (M : ℤ → ℝ) (i j k : ℤ) (x y : ℝ) (s : Sym) : ℝ :=
  if s = sSym i then x else if s = sSym j then y
  else if s = sSym k then M 0 ^ 2 + M 1 ^ 2 + M 2 ^ 2 + M 3 ^ 2 - x - y
  else if s = mSym 0 then M 0 else if s = mSym 1 then M 1 else if s = mSym 2 then M 2 else M 3

theorem gridPoint_sigma (M : ℤ → ℝ) (h : IsPerm123 i j k) (x y : ℝ) : gridPoint M i j k x y (sSym i) = x ∧
    gridPoint M i j k x y (sSym j) = y ∧ SumRule (gridPoint M i j k x y) ∧
    ∀ n ∈ ([0, 1, 2, 3] : List ℤ), gridPoint M i j k x y (mSym n) = M n := by
  have t0 : toString (0 : ℤ) = "0" := rfl
  have t1 : toString (1 : ℤ) = "1" := rfl
  have t2 : toString (2 : ℤ) = "2" := rfl
  have t3 : toString (3 : ℤ) = "3" := rfl
  rcases Angles.perm_cases h with ⟨rfl, rfl, rfl⟩ | ⟨rfl, rfl, rfl⟩ | ⟨rfl, rfl, rfl⟩ |
    ⟨rfl, rfl, rfl⟩ | ⟨rfl, rfl, rfl⟩ | ⟨rfl, rfl, rfl⟩ <;>
  · refine ⟨by simp [gridPoint, sSym, t1, t2, t3], by simp [gridPoint, sSym, t1, t2, t3], ?_, fun n hn => ?_⟩
    · simp [SumRule, gridPoint, sSym, mSym, t0, t1, t2, t3]
      try ring
    · simp only [List.mem_cons, List.not_mem_nil, or_false] at hn
      rcases hn with rfl | rfl | rfl | rfl <;> simp [gridPoint, sSym, mSym, t0, t1, t2, t3]

theorem interior_thresholds {ρ : Sym → ℝ} (h : IsPerm123 i j k) (hρ : DalitzInterior ρ) :
    BetweenThresholds (ρ (mSym 0)) (ρ (mSym k)) (ρ (mSym j)) (ρ (mSym i)) (ρ (sSym i)) := by
  have hsym : ∀ {M a b c s : ℝ}, BetweenThresholds M a b c s → BetweenThresholds M b a c s := by
    intro M a b c s h
    exact ⟨by rw [add_comm]; exact h.1, h.2⟩
  rcases Angles.perm_cases h with ⟨rfl, rfl, rfl⟩ | ⟨rfl, rfl, rfl⟩ | ⟨rfl, rfl, rfl⟩ |
    ⟨rfl, rfl, rfl⟩ | ⟨rfl, rfl, rfl⟩ | ⟨rfl, rfl, rfl⟩
  · exact hsym hρ.th1
  · exact hρ.th1
  · exact hρ.th2
  · exact hsym hρ.th2
  · exact hsym hρ.th3
  · exact hρ.th3

/-- The values of `σi` inside the Dalitz plot. -/
theorem sigma_range {M : ℤ → ℚ} (hpos : ∀ n ∈ ([0, 1, 2, 3] : List ℤ), 0 < M n) (hM : M 1 + M 2 + M 3 < M 0)
    (h : IsPerm123 i j k) (s : ℝ) : (∃ ρ : Sym → ℝ, (∀ n ∈ ([0, 1, 2, 3] : List ℤ), ρ (mSym n) = M n) ∧ DalitzInterior ρ ∧
      ρ (sSym i) = s) ↔ (((M j + M k) ^ 2 : ℚ) : ℝ) < s ∧ s < (((M 0 - M i) ^ 2 : ℚ) : ℝ) := by
  have hm := Angles.perm_mem h
  constructor
  · rintro ⟨ρ, hρ, hin, rfl⟩
    have ht := interior_thresholds h hin
    rw [hρ 0 (by simp), hρ k (Angles.mem0 hm.2.2), hρ j (Angles.mem0 hm.2.1), hρ i (Angles.mem0 hm.1)] at ht
    push_cast
    exact ⟨by rw [add_comm]; exact ht.1, ht.2.2⟩
  · rintro ⟨h1, h2⟩
    push_cast at h1 h2
    let ρ : ℝ → Sym → ℝ := fun t => gridPoint (fun n => (M n : ℝ)) i j k s t
    have hg := fun t => gridPoint_sigma (fun n => (M n : ℝ)) h s t
    have hperm : IsPerm123 k j i := by
      rcases Angles.perm_cases h with ⟨rfl, rfl, rfl⟩ | ⟨rfl, rfl, rfl⟩ | ⟨rfl, rfl, rfl⟩ |
        ⟨rfl, rfl, rfl⟩ | ⟨rfl, rfl, rfl⟩ | ⟨rfl, rfl, rfl⟩ <;> (unfold IsPerm123; decide)
    have hlt : (M i : ℝ) < M 0 := by
      have p1 := hpos 1 (by simp)
      have p2 := hpos 2 (by simp)
      have p3 := hpos 3 (by simp)
      have : M i < M 0 := by
        rcases Angles.perm_cases h with ⟨rfl, -⟩ | ⟨rfl, -⟩ | ⟨rfl, -⟩ | ⟨rfl, -⟩ | ⟨rfl, -⟩ | ⟨rfl, -⟩ <;> linarith
      exact_mod_cast this
    have hsl : Slice ρ j i := ⟨fun t n hn => ((hg t).2.2.2 n hn).trans ((hg 0).2.2.2 n hn).symm,
      fun t => (hg t).1.trans (hg 0).1.symm, fun t => (hg t).2.1, fun t => (hg t).2.2.1⟩
    obtain ⟨hR, c, hc⟩ := Angles.slice_thresholds hperm hsl
      (fun n hn => by
        rw [show Angles.vm (ρ 0) n = M n from (hg 0).2.2.2 n hn]
        exact_mod_cast hpos n hn)
      (by
        rw [show Angles.vm (ρ 0) 0 = M 0 from (hg 0).2.2.2 0 (by simp),
          show Angles.vm (ρ 0) k = M k from (hg 0).2.2.2 k (Angles.mem0 hm.2.2),
          show Angles.vm (ρ 0) j = M j from (hg 0).2.2.2 j (Angles.mem0 hm.2.1),
          show Angles.vm (ρ 0) i = M i from (hg 0).2.2.2 i (Angles.mem0 hm.1), show Angles.vs (ρ 0) i = s from (hg 0).1]
        exact ⟨by rw [add_comm]; exact h1, hlt, h2⟩)
    exact ⟨ρ c, (hg c).2.2.2, (hc c).1.2 (by rw [sub_self, abs_zero]; exact hR), (hg c).1⟩

theorem grid_range (hp : PlotReady m M) (hijk : IsPerm123 i j k)
    (hpos : ∀ n ∈ ([0, 1, 2, 3] : List ℤ), 0 < M n)
    (hM : M 1 + M 2 + M 3 < M 0) :
    ∃ x y, dalitzRange m i j = .ok (x, y) ∧ ∀ n r, (n = i ∧ r = x ∨ n = j ∧ r = y) →
      ∃ lo hi : ℚ, r.min = lo - (hi - lo) / 20 ∧ r.max = hi + (hi - lo) / 20 ∧ lo < hi ∧ ∀ s : ℝ,
        (∃ ρ : Sym → ℝ, (∀ n ∈ ([0, 1, 2, 3] : List ℤ), ρ ⟨"m" ++ toString n, .nonneg⟩ = M n) ∧
          DalitzInterior ρ ∧ ρ ⟨"sigma" ++ toString n, .nonneg⟩ = s) ↔ (lo : ℝ) < s ∧ s < hi := by
  have hji : IsPerm123 j i k := by
    rcases Angles.perm_cases hijk with ⟨rfl, rfl, rfl⟩ | ⟨rfl, rfl, rfl⟩ | ⟨rfl, rfl, rfl⟩ |
      ⟨rfl, rfl, rfl⟩ | ⟨rfl, rfl, rfl⟩ | ⟨rfl, rfl, rfl⟩ <;> (unfold IsPerm123; decide)
  have hlt : ∀ {i j k : ℤ}, IsPerm123 i j k → (M j + M k) ^ 2 <
      (M 0 - M i) ^ 2 := by
    intro i j k h
    have p1 := hpos 1 (by simp)
    have p2 := hpos 2 (by simp)
    have p3 := hpos 3 (by simp)
    rcases Angles.perm_cases h with ⟨rfl, rfl, rfl⟩ | ⟨rfl, rfl, rfl⟩ | ⟨rfl, rfl, rfl⟩ |
      ⟨rfl, rfl, rfl⟩ | ⟨rfl, rfl, rfl⟩ | ⟨rfl, rfl, rfl⟩ <;>
    exact pow_lt_pow_left₀ (by linarith) (by linarith) (by norm_num)
  refine ⟨_, _, dalitzRange_eq hp hijk, ?_⟩
  rintro n r (⟨rfl, rfl⟩ | ⟨rfl, rfl⟩)
  · exact ⟨_, _, by simp only [PlotRange.widened]; ring, by simp only [PlotRange.widened]; ring, hlt hijk,
      sigma_range (M := M) hpos hM hijk⟩
  · exact ⟨_, _, by simp only [PlotRange.widened]; ring, by simp only [PlotRange.widened]; ring, hlt hji,
      sigma_range (M := M) hpos hM hji⟩

/-- C129: the ranges of the grid of the notebooks are those of the Dalitz plot (the numbers between `lo` and `hi` are exactly the
values of the Mandelstam variable inside the Dalitz plot), widened by a twentieth on both sides. -/
theorem C129_range (hd : Standard b.decay) (hdyn : Lineshapes b dyn) (hr : RefOk reference)
    (h : b.formulate reference cl uc = .ok m) (hijk : IsPerm123 i j k)
    (hpos : ∀ n ∈ ([0, 1, 2, 3] : List ℤ), 0 < (b.decay.st n).mass)
    (hM : (b.decay.st 1).mass + (b.decay.st 2).mass + (b.decay.st 3).mass < (b.decay.st 0).mass) :
    ∃ x y, dalitzRange m i j = .ok (x, y) ∧ ∀ n r, (n = i ∧ r = x ∨ n = j ∧ r = y) →
      ∃ lo hi : ℚ, r.min = lo - (hi - lo) / 20 ∧ r.max = hi + (hi - lo) / 20 ∧ lo < hi ∧ ∀ s : ℝ,
        (∃ ρ : Sym → ℝ, (∀ n ∈ ([0, 1, 2, 3] : List ℤ), ρ ⟨"m" ++ toString n, .nonneg⟩ = (b.decay.st n).mass) ∧
          DalitzInterior ρ ∧ ρ ⟨"sigma" ++ toString n, .nonneg⟩ = s) ↔ (lo : ℝ) < s ∧ s < hi :=
  grid_range (plotReady hd hdyn hr h) hijk hpos hM

/-! ### Examples -/

theorem exMasses : (∀ n ∈ ([0, 1, 2, 3] : List ℤ), 0 < (exDecay.st n).mass) ∧
    (exDecay.st 1).mass + (exDecay.st 2).mass + (exDecay.st 3).mass < (exDecay.st 0).mass := by
  decide +kernel

/-- The plot of the example decay, `2 → 1 1/7 1/2`, with `σ2` and `σ1`: data for a point with `σ2 = 3`, and the range of `σ2`. -/
example : ∃ m D ι, (exBuilder true true false).formulate (some 1) true false = .ok m ∧ dalitzDefinitions m 2 1 = .ok D ∧
    (∀ n ∈ ([0, 1, 2, 3] : List ℤ), ι.sym ⟨"m" ++ toString n, .nonneg⟩ = ((exDecay.st n).mass : ℂ)) ∧
    ι.sym ⟨"sigma2", .nonneg⟩ = 3 ∧ (∀ x ∈ D, Computes ι x) ∧ (∀ x ∈ m.angleDefs, Computes ι x) ∧
    (∀ x ∈ m.invariants, Computes ι x) ∧ (∀ c ∈ exDecay.chains, ClosedLineshape {}) ∧
    ∃ x y, dalitzRange m 2 1 = .ok (x, y) ∧ x.min = 9 / 4 - 47 / 784 ∧ x.max = 169 / 49 + 47 / 784 := by
  obtain ⟨m, h⟩ := exBuilder_ok true true false true false
  have hro : RefOk (some 1) := by simp [RefOk]
  have hp : IsPerm123 2 1 3 := by unfold IsPerm123; decide
  have hl := exBuilder_lineshapes true true false
  have hpr := plotReady (b := exBuilder true true false) (dyn := fun _ => {}) exDecay_standard hl hro h
  obtain ⟨D, hD, hkeys, -⟩ := C129_definitions (b := exBuilder true true false) (dyn := fun _ => {}) exDecay_standard hl hro h hp
  obtain ⟨ρ, hm, hin, h3⟩ := (sigma_range (M := fun n => (exDecay.st n).mass) exMasses.1 exMasses.2 hp 3).2 (by
    constructor
    · have : ((exDecay.st 1).mass + (exDecay.st 3).mass) ^ 2 < 3 := by decide +kernel
      exact_mod_cast this
    · have : 3 < ((exDecay.st 0).mass - (exDecay.st 2).mass) ^ 2 := by decide +kernel
      exact_mod_cast this)
  let ι₀ : Interp := { exInterp ρ with sym := fun s => (ρ s : ℂ) }
  obtain ⟨ι, -, -, hs, hc⟩ := C129_evaluable (b := exBuilder true true false) (dyn := fun _ => {}) exDecay_standard hl hro h hp hD
    (ι := ι₀) (fun n hn => by
      show ((ρ (mSym n) : ℝ) : ℂ) = _
      rw [hm n hn]; norm_cast) (Complex.ofReal_im _) hin.region
  have hmass : ∀ n ∈ ([0, 1, 2, 3] : List ℤ), ι.sym ⟨"m" ++ toString n, .nonneg⟩ = ((exDecay.st n).mass : ℂ) := by
    intro n hn
    refine (hs (mSym n) (not_key hpr rfl)).trans ?_
    show ((ρ (mSym n) : ℝ) : ℂ) = _
    rw [hm n hn]; norm_cast
  obtain ⟨ha, -, hsum⟩ := C129_data (b := exBuilder true true false) (dyn := fun _ => {}) exDecay_standard hl hro h hp hD
    (ι := ι) hmass hc
  refine ⟨m, D, ι, h, hD, hmass, ?_, hc, ha, ?_, fun _ _ => closed_unit, _, _, dalitzRange_eq hpr hp, ?_, ?_⟩
  · refine (hs (sSym 2) (not_key hpr rfl)).trans ?_
    show ((ρ (sSym 2) : ℝ) : ℂ) = _
    rw [h3]; norm_cast
  · have hone : ∀ k, (∃ i j, IsPerm123 i j k) → Computes ι (sSym k, thirdDef k) := by
      rintro k ⟨i, j, hp⟩
      refine ⟨_, (thirdDef_eval hp _).2 hsum, ?_⟩
      show ι.sym (sSym k) = (((ι.sym (sSym k)).re : ℝ) : ℂ)
      rw [hs (sSym k) (not_key hpr rfl)]
      exact Complex.ext rfl (Complex.ofReal_im _)
    intro x hx
    rw [hpr.invariants] at hx
    simp only [List.mem_cons, List.not_mem_nil, or_false] at hx
    rcases hx with rfl | rfl | rfl
    · exact hone 1 ⟨2, 3, by unfold IsPerm123; decide⟩
    · exact hone 2 ⟨3, 1, by unfold IsPerm123; decide⟩
    · exact hone 3 ⟨1, 2, by unfold IsPerm123; decide⟩
  · simp only [PlotRange.widened]
    decide +kernel
  · simp only [PlotRange.widened]
    decide +kernel

end Verif.ThreeBody
