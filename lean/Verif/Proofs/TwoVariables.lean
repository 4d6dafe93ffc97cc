import Verif.Model.TwoVariables
import Verif.Spec.TwoVariables
import Verif.Props.FreeParameters

/-! Lemmas for C132. -/
namespace Verif.ThreeBody
open Verif Verif.Spec

theorem freeSymbols_eq (e : RExpr) : e.freeSymbols = kinematicSymbols e := by
  induction e with
  | num | sym => rfl
  | add a b iha ihb | sub a b iha ihb | mul a b iha ihb | div a b iha ihb =>
    simp only [RExpr.freeSymbols, kinematicSymbols, iha, ihb]
  | neg a iha | pow a n iha | sqrt a iha | acos a iha => simpa only [RExpr.freeSymbols, kinematicSymbols] using iha
  | kallen a b c h1 h2 h3 => simp only [RExpr.freeSymbols, kinematicSymbols, h1, h2, h3]

def valExpr (s : Sym) : Val → RExpr
  | .real q => .num q
  | .cplx _ _ => .sym s

theorem get?_realValues (d : PyDict Key Val) (s : Sym) :
    PyDict.get? (realValues d) s = (PyDict.get? d (.sym s)).map (valExpr s) := by
  induction d with
  | nil => rfl
  | cons x d ih =>
    obtain ⟨k, v⟩ := x
    rw [PyDict.get?_cons]
    cases k with
    | idx y =>
      rw [if_neg (by simp), ← ih]
      rfl
    | sym t =>
      have hcons : realValues ((.sym t, v) :: d) = (t, valExpr t v) :: realValues d := by
        cases v <;> rfl
      rw [hcons, PyDict.get?_cons]
      by_cases h : t = s
      · subst h
        simp
      · rw [if_neg h, if_neg (by simpa using h), ih]

variable {a : AmplitudeModel} {M : ℤ → ℚ} {i j k : ℤ}

/-- What is used of the model. -/
structure TwoReady (a : AmplitudeModel) (M : ℤ → ℚ) : Prop where
  plot : PlotReady a M
  closed : Closed a
  ordinary : OrdinaryParameters a
  wigner : ∀ s ∈ a.fullExpression.wignerAngles, s ∈ PyDict.keys a.angleDefs
  mass : ∀ n ∈ ([0, 1, 2, 3] : List ℤ), PyDict.get? a.parameterDefaults (.sym (mSym n)) = some (.real (M n))

theorem TwoReady.sigma (h : TwoReady a M) {n : ℤ} (hn : n ∈ ([1, 2, 3] : List ℤ)) :
    PyDict.get? a.parameterDefaults (.sym (sSym n)) = none := get?_none_of_not_key (h.ordinary.mandelstam n hn)

theorem TwoReady.angle (h : TwoReady a M) {s : Sym} (hs : s ∈ PyDict.keys a.angleDefs) :
    PyDict.get? a.parameterDefaults (.sym s) = none := get?_none_of_not_key (h.ordinary.angles s hs)

theorem TwoReady.idx (h : TwoReady a M) (x : Indexed) : Key.idx x ∉ PyDict.keys a.parameterDefaults := fun hk => by
  obtain ⟨s, hs⟩ := h.ordinary.symbols _ hk
  cases hs

theorem provided_cases {s : Sym} (hs : s ∈ providedSymbols) :
    (∃ n ∈ ([0, 1, 2, 3] : List ℤ), s = mSym n) ∨ ∃ n ∈ ([1, 2, 3] : List ℤ), s = sSym n := by
  unfold providedSymbols at hs
  simp only [List.mem_cons, List.not_mem_nil, or_false] at hs
  rcases hs with rfl | rfl | rfl | rfl | rfl | rfl | rfl
  · exact .inl ⟨0, by simp, rfl⟩
  · exact .inl ⟨1, by simp, rfl⟩
  · exact .inl ⟨2, by simp, rfl⟩
  · exact .inl ⟨3, by simp, rfl⟩
  · exact .inr ⟨1, by simp, rfl⟩
  · exact .inr ⟨2, by simp, rfl⟩
  · exact .inr ⟨3, by simp, rfl⟩

theorem atDefaults_mass (h : TwoReady a M) (ι : Interp) {n : ℤ} (hn : n ∈ ([0, 1, 2, 3] : List ℤ)) :
    (atDefaults a ι).sym (mSym n) = (M n : ℂ) := by
  unfold atDefaults
  simp only [h.mass n hn]
  rfl

theorem atDefaults_sigma (h : TwoReady a M) (ι : Interp) {n : ℤ} (hn : n ∈ ([1, 2, 3] : List ℤ)) :
    (atDefaults a ι).sym (sSym n) = ι.sym (sSym n) := by
  unfold atDefaults
  simp only [h.sigma hn]
  rfl

theorem atDefaults_angle (h : TwoReady a M) (ι : Interp) {s : Sym} (hs : s ∈ PyDict.keys a.angleDefs) :
    (atDefaults a ι).sym s = ι.sym s := by
  unfold atDefaults
  simp only [h.angle hs]
  rfl

theorem same_atDefaults (ι : Interp) : SameFunctions ι (atDefaults a ι) := ⟨rfl, rfl, rfl, rfl, rfl⟩

/-- Insertion of the parameters in a definition of an angle. -/
theorem eval_realValues (h : TwoReady a M) (ι : Interp) (e : RExpr) (he : ∀ s ∈ kinematicSymbols e, s ∈ providedSymbols) :
    (e.xreplace (realValues a.parameterDefaults)).eval (fun s => (ι.sym s).re) =
      e.eval fun s => ((atDefaults a ι).sym s).re := by
  refine RExpr.eval_xreplace e fun s hs => ?_
  rw [get?_realValues]
  rcases provided_cases (he s hs) with ⟨n, hn, rfl⟩ | ⟨n, hn, rfl⟩
  · rw [h.mass n hn, atDefaults_mass h ι hn, Complex.ratCast_re]
    rfl
  · rw [h.sigma hn, atDefaults_sigma h ι hn]
    rfl

theorem masses_eq (h : TwoReady a M) :
    (a.masses.map fun x => (x.1, RExpr.num x.2) : PyDict Sym RExpr) = massNums M := by
  rw [h.plot.masses]; rfl

theorem get?_massNums {n : ℤ} (hn : n ∈ ([0, 1, 2, 3] : List ℤ)) : PyDict.get? (massNums M) (mSym n) = some (.num (M n)) := by
  simp only [List.mem_cons, List.not_mem_nil, or_false] at hn
  rcases hn with rfl | rfl | rfl | rfl <;> rfl

theorem get?_massNums_sigma {n : ℤ} (hn : n ∈ ([1, 2, 3] : List ℤ)) : PyDict.get? (massNums M) (sSym n) = none := by
  simp only [List.mem_cons, List.not_mem_nil, or_false] at hn
  rcases hn with rfl | rfl | rfl <;> rfl

/-- Insertion of the masses. -/
theorem eval_massNums (h : TwoReady a M) (ι : Interp) (e : RExpr) (he : ∀ s ∈ kinematicSymbols e, s ∈ providedSymbols) :
    (e.xreplace (massNums M)).eval (fun s => (ι.sym s).re) = e.eval fun s => ((atDefaults a ι).sym s).re := by
  refine RExpr.eval_xreplace e fun s hs => ?_
  rcases provided_cases (he s hs) with ⟨n, hn, rfl⟩ | ⟨n, hn, rfl⟩
  · rw [get?_massNums hn, atDefaults_mass h ι hn, Complex.ratCast_re]
    rfl
  · rw [get?_massNums_sigma hn, atDefaults_sigma h ι hn]
    rfl

theorem perm_mem (h : IsPerm123 i j k) : i ∈ ([1, 2, 3] : List ℤ) ∧ j ∈ ([1, 2, 3] : List ℤ) ∧ k ∈ ([1, 2, 3] : List ℤ) := by
  rcases Angles.perm_cases h with ⟨rfl, rfl, rfl⟩ | ⟨rfl, rfl, rfl⟩ | ⟨rfl, rfl, rfl⟩ |
    ⟨rfl, rfl, rfl⟩ | ⟨rfl, rfl, rfl⟩ | ⟨rfl, rfl, rfl⟩ <;> simp

/-- The definitions of the function without the variable `σk`. -/
def twoDefs (a : AmplitudeModel) (M : ℤ → ℚ) (k : ℤ) : PyDict Sym RExpr :=
  (a.angleDefs.map fun x => (x.1, (x.2.xreplace (realValues a.parameterDefaults)).xreplace
    [(sSym k, (thirdDef k).xreplace (massNums M))])) ++ [(sSym k, (thirdDef k).xreplace (massNums M))]

/-- Every `k` gives a function. -/
theorem get?_intensityFuncs (h : TwoReady a M) (hijk : IsPerm123 i j k) : PyDict.get? (intensityFuncs a) k =
    some ⟨a.fullExpression.insertValues a.parameterDefaults, twoDefs a M k⟩ := by
  have hfun : ∀ n, intensityFunc a (sSym n, thirdDef n) =
      ⟨a.fullExpression.insertValues a.parameterDefaults, twoDefs a M n⟩ := by
    intro n
    unfold intensityFunc intensityExpr twoDefs
    simp only [masses_eq h, List.map_map]
    rfl
  have hd : intensityFuncs a = [(1, intensityFunc a (sSym 1, thirdDef 1)), (2, intensityFunc a (sSym 2, thirdDef 2)),
      (3, intensityFunc a (sSym 3, thirdDef 3))] := by
    unfold intensityFuncs
    rw [h.plot.invariants]
    have h1 : lastDigit (sSym 1) = 1 := by decide +kernel
    have h2 : lastDigit (sSym 2) = 2 := by decide +kernel
    have h3 : lastDigit (sSym 3) = 3 := by decide +kernel
    simp only [List.map_cons, List.map_nil, h1, h2, h3]
    rfl
  rw [hd, hfun, hfun, hfun]
  rcases Angles.perm_cases hijk with ⟨rfl, rfl, rfl⟩ | ⟨rfl, rfl, rfl⟩ | ⟨rfl, rfl, rfl⟩ |
    ⟨rfl, rfl, rfl⟩ | ⟨rfl, rfl, rfl⟩ | ⟨rfl, rfl, rfl⟩ <;> rfl

theorem third_provided (hijk : IsPerm123 i j k) : ∀ s ∈ kinematicSymbols (thirdDef k), s ∈ providedSymbols :=
  fun s hs => split_provided hijk (thirdDef_symbols hijk s hs)

/-- Value of a definition of the function when the third variable has the value of its definition. -/
theorem eval_twoDef (h : TwoReady a M) (hijk : IsPerm123 i j k) {ι : Interp} {x : Sym × RExpr} (hx : x ∈ a.angleDefs)
    (h3 : ((thirdDef k).xreplace (massNums M)).eval (fun s => (ι.sym s).re) = some (ι.sym (sSym k)).re) :
    ((x.2.xreplace (realValues a.parameterDefaults)).xreplace [(sSym k, (thirdDef k).xreplace (massNums M))]).eval
      (fun s => (ι.sym s).re) = x.2.eval fun s => ((atDefaults a ι).sym s).re := by
  rw [RExpr.eval_xreplace (ρ' := fun s => (ι.sym s).re), eval_realValues h ι _ (h.plot.symbols x hx)]
  intro s _
  rw [PyDict.get?_cons, PyDict.get?_nil]
  split
  · rename_i e
    subst e
    exact h3
  · rfl

/-- Data for the function are data for the model at the default values of its parameters, and conversely. -/
theorem twoDefs_data (h : TwoReady a M) (hijk : IsPerm123 i j k) (ι : Interp) :
    (∀ x ∈ twoDefs a M k, Computes ι x) ↔
      (∀ x ∈ a.angleDefs, Computes (atDefaults a ι) x) ∧ Computes (atDefaults a ι) (sSym k, thirdDef k) := by
  obtain ⟨-, -, hk⟩ := perm_mem hijk
  have hthird : Computes ι (sSym k, (thirdDef k).xreplace (massNums M)) ↔ Computes (atDefaults a ι) (sSym k, thirdDef k) := by
    unfold Computes
    simp only [eval_massNums h ι _ (third_provided hijk), atDefaults_sigma h ι hk]
  have hang : Computes ι (sSym k, (thirdDef k).xreplace (massNums M)) → ∀ x ∈ a.angleDefs,
      (Computes ι (x.1, (x.2.xreplace (realValues a.parameterDefaults)).xreplace
        [(sSym k, (thirdDef k).xreplace (massNums M))]) ↔ Computes (atDefaults a ι) x) := by
    rintro ⟨v, h1, h2⟩ x hx
    unfold Computes
    have h2' : ι.sym (sSym k) = v := h2
    simp only [eval_twoDef h hijk hx (show _ = some (ι.sym (sSym k)).re by rw [h2', Complex.ofReal_re]; exact h1),
      atDefaults_angle h ι (List.mem_map.2 ⟨x, hx, rfl⟩)]
  unfold twoDefs
  constructor
  · intro hall
    have h3 := hall _ (List.mem_append_right _ (List.mem_singleton.2 rfl))
    exact ⟨fun x hx => (hang h3 x hx).1 (hall _ (List.mem_append_left _ (List.mem_map.2 ⟨x, hx, rfl⟩))), hthird.1 h3⟩
  · rintro ⟨ha, h3⟩ x hx
    rcases List.mem_append.1 hx with hx | hx
    · obtain ⟨y, hy, rfl⟩ := List.mem_map.1 hx
      exact (hang (hthird.2 h3) y hy).2 (ha y hy)
    · rw [List.mem_singleton.1 hx]
      exact hthird.2 h3

/-- The function has the value of the model at the default values of its parameters. -/
theorem eval_inserted (h : TwoReady a M) (ι : Interp) (η : Sym → ℚ) :
    (a.fullExpression.insertValues a.parameterDefaults).eval ι η = a.fullExpression.eval (atDefaults a ι) η := by
  refine Expr.eval_insertValues (ι := ι) (ι' := atDefaults a ι) (η := η) (same_atDefaults ι) _ (Expr.flat_full a)
    (fun s _ => rfl) (fun x _ => ?_) fun s hs => h.angle (h.wigner s hs)
  rw [get?_none_of_not_key (h.idx x)]
  rfl

theorem third_mem (h : TwoReady a M) (hijk : IsPerm123 i j k) : (sSym k, thirdDef k) ∈ a.invariants := by
  rw [h.plot.invariants]
  rcases Angles.perm_cases hijk with ⟨rfl, rfl, rfl⟩ | ⟨rfl, rfl, rfl⟩ | ⟨rfl, rfl, rfl⟩ |
    ⟨rfl, rfl, rfl⟩ | ⟨rfl, rfl, rfl⟩ | ⟨rfl, rfl, rfl⟩ <;> simp [thirdDef]

/-- The symbols of the definitions. -/
theorem twoDefs_symbols (h : TwoReady a M) (hijk : IsPerm123 i j k) {x : Sym × RExpr} (hx : x ∈ twoDefs a M k) {t : Sym}
    (ht : t ∈ kinematicSymbols x.2) : t = sSym i ∨ t = sSym j := by
  have hthird : ∀ t ∈ kinematicSymbols ((thirdDef k).xreplace (massNums M)), t = sSym i ∨ t = sSym j := by
    intro t ht
    obtain ⟨s, hs, ht⟩ := RExpr.mem_symbols_xreplace _ ht
    have hs := thirdDef_symbols hijk s hs
    have hmass : ∀ n ∈ ([0, 1, 2, 3] : List ℤ), s ≠ mSym n := by
      rintro n hn rfl
      rw [get?_massNums hn] at ht
      cases ht
    have hs' : s = sSym i ∨ s = sSym j := by
      simp only [List.mem_cons, List.not_mem_nil, or_false] at hs
      rcases hs with e | e | e | e | e
      · exact absurd e (hmass 0 (by simp))
      · exact absurd e (hmass 1 (by simp))
      · exact absurd e (hmass 2 (by simp))
      · exact absurd e (hmass 3 (by simp))
      · exact e
    obtain ⟨hi, hj, -⟩ := perm_mem hijk
    rcases hs' with rfl | rfl
    · rw [get?_massNums_sigma hi] at ht
      exact .inl (List.mem_singleton.1 ht)
    · rw [get?_massNums_sigma hj] at ht
      exact .inr (List.mem_singleton.1 ht)
  unfold twoDefs at hx
  rcases List.mem_append.1 hx with hx | hx
  · obtain ⟨y, hy, rfl⟩ := List.mem_map.1 hx
    obtain ⟨s, hs, ht⟩ := RExpr.mem_symbols_xreplace _ ht
    rw [PyDict.get?_cons, PyDict.get?_nil] at ht
    split at ht
    · exact hthird t ht
    · rename_i hne
      rw [List.mem_singleton.1 ht]
      obtain ⟨s', hs', hs⟩ := RExpr.mem_symbols_xreplace _ hs
      have hprov := h.plot.symbols y hy s' hs'
      rw [get?_realValues] at hs
      rcases provided_cases hprov with ⟨n, hn, rfl⟩ | ⟨n, hn, rfl⟩
      · rw [h.mass n hn] at hs
        cases hs
      · rw [h.sigma hn] at hs
        have hs : s = sSym n := List.mem_singleton.1 hs
        subst hs
        have := provided_split hijk hprov (Ne.symm hne)
        simp only [List.mem_cons, List.not_mem_nil, or_false] at this
        have hno : ∀ q ∈ ([0, 1, 2, 3] : List ℤ), sSym n ≠ mSym q := by
          intro q hq e
          have h1 := h.sigma hn
          rw [e, h.mass q hq] at h1
          cases h1
        rcases this with e | e | e | e | e
        · exact absurd e (hno 0 (by simp))
        · exact absurd e (hno 1 (by simp))
        · exact absurd e (hno 2 (by simp))
        · exact absurd e (hno 3 (by simp))
        · exact e
  · rw [List.mem_singleton.1 hx] at ht
    exact hthird t ht

/-- Only two Mandelstam variables are arguments. -/
theorem two_arguments (h : TwoReady a M) (hijk : IsPerm123 i j k) {s : Sym}
    (hs : s ∈ (NumericIntensity.mk (a.fullExpression.insertValues a.parameterDefaults) (twoDefs a M k)).arguments) :
    s = sSym i ∨ s = sSym j := by
  rcases List.mem_append.1 hs with hs | hs
  · obtain ⟨hs, hnot⟩ := List.mem_filter.1 hs
    have hnot : s ∉ PyDict.keys (twoDefs a M k) := by simpa using hnot
    obtain ⟨h1, h2⟩ := (Expr.syms_insertValues _ (fun s hs => h.angle (h.wigner s hs)) s).1 hs
    have hkeys : PyDict.keys (twoDefs a M k) = PyDict.keys a.angleDefs ++ [sSym k] := by
      simp [twoDefs, PyDict.keys, Function.comp_def]
    rw [hkeys] at hnot
    rcases h.closed.symbols s h1 with h3 | h3 | h3
    · exact absurd (List.mem_append_left _ h3) hnot
    · have hne : s ≠ sSym k := fun e => hnot (List.mem_append_right _ (List.mem_singleton.2 e))
      rw [h.plot.invariants] at h3
      simp only [PyDict.keys, List.map_cons, List.map_nil, List.mem_cons, List.not_mem_nil, or_false] at h3
      rcases Angles.perm_cases hijk with ⟨rfl, rfl, rfl⟩ | ⟨rfl, rfl, rfl⟩ | ⟨rfl, rfl, rfl⟩ |
        ⟨rfl, rfl, rfl⟩ | ⟨rfl, rfl, rfl⟩ | ⟨rfl, rfl, rfl⟩ <;> rcases h3 with e | e | e <;>
        first | exact .inl e | exact .inr e | exact absurd e hne
    · obtain ⟨v, hv⟩ := PyDict.mem_keys_iff.1 h3
      rw [h2] at hv
      cases hv
  · obtain ⟨x, hx, hs⟩ := List.mem_flatMap.1 hs
    rw [freeSymbols_eq] at hs
    exact twoDefs_symbols h hijk hx hs

end Verif.ThreeBody
