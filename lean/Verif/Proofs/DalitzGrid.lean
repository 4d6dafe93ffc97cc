import Verif.Model.DalitzGrid
import Verif.Props.Closure
import Verif.Proofs.QrulesIds

namespace Verif.RExpr
open Verif Verif.Spec

/-- Substitution: the value is that for the values of what is inserted. -/
theorem eval_xreplace {d : PyDict Sym RExpr} {ρ ρ' : Sym → ℝ} (e : RExpr)
    (h : ∀ s ∈ kinematicSymbols e, ((d.get? s).getD (.sym s)).eval ρ = some (ρ' s)) : (e.xreplace d).eval ρ = e.eval ρ' := by
  induction e with
  | num q => rfl
  | sym s => exact h s (by simp [kinematicSymbols])
  | add a b iha ihb | sub a b iha ihb | mul a b iha ihb | div a b iha ihb =>
    simp only [RExpr.xreplace, RExpr.eval]
    rw [iha fun s hs => h s (by simp [kinematicSymbols, hs]), ihb fun s hs => h s (by simp [kinematicSymbols, hs])]
  | neg a iha | pow a n iha | sqrt a iha | acos a iha => simp only [RExpr.xreplace, RExpr.eval]; rw [iha h]
  | kallen a b c h1 h2 h3 =>
    simp only [RExpr.xreplace, RExpr.eval]
    rw [h1 fun s hs => h s (by simp [kinematicSymbols, hs]), h2 fun s hs => h s (by simp [kinematicSymbols, hs]),
      h3 fun s hs => h s (by simp [kinematicSymbols, hs])]

theorem mem_symbols_xreplace {d : PyDict Sym RExpr} {t : Sym} (e : RExpr) (h : t ∈ kinematicSymbols (e.xreplace d)) :
    ∃ s ∈ kinematicSymbols e, t ∈ kinematicSymbols ((d.get? s).getD (.sym s)) := by
  induction e with
  | num q => cases h
  | sym s => exact ⟨s, by simp [kinematicSymbols], h⟩
  | add a b iha ihb | sub a b iha ihb | mul a b iha ihb | div a b iha ihb =>
    rcases List.mem_append.1 h with h | h
    · obtain ⟨s, hs, ht⟩ := iha h
      exact ⟨s, List.mem_append_left _ hs, ht⟩
    · obtain ⟨s, hs, ht⟩ := ihb h
      exact ⟨s, List.mem_append_right _ hs, ht⟩
  | neg a iha | pow a n iha | sqrt a iha | acos a iha => exact iha h
  | kallen a b c h1 h2 h3 =>
    rcases List.mem_append.1 h with h | h
    · rcases List.mem_append.1 h with h | h
      · obtain ⟨s, hs, ht⟩ := h1 h
        exact ⟨s, List.mem_append_left _ (List.mem_append_left _ hs), ht⟩
      · obtain ⟨s, hs, ht⟩ := h2 h
        exact ⟨s, List.mem_append_left _ (List.mem_append_right _ hs), ht⟩
    · obtain ⟨s, hs, ht⟩ := h3 h
      exact ⟨s, List.mem_append_right _ hs, ht⟩

end Verif.RExpr

namespace Verif.ThreeBody
open Verif Verif.Spec

/-- The symbols of the masses and of the Mandelstam variables. -/
abbrev mSym (n : ℤ) : Sym := ⟨"m" ++ toString n, .nonneg⟩
abbrev sSym (n : ℤ) : Sym := ⟨"sigma" ++ toString n, .nonneg⟩

/-- What the recipe of the notebooks uses of a model. -/
structure PlotReady (m : AmplitudeModel) (M : ℤ → ℚ) : Prop where
  masses : m.masses = [(mSym 0, M 0), (mSym 1, M 1), (mSym 2, M 2), (mSym 3, M 3)]
  invariants : m.invariants = [(sSym 1, thirdExpr 2 3), (sSym 2, thirdExpr 3 1), (sSym 3, thirdExpr 1 2)]
  keys : ∀ s ∈ PyDict.keys m.angleDefs, s.asm = .real
  symbols : ∀ x ∈ m.angleDefs, ∀ s ∈ kinematicSymbols x.2, s ∈ providedSymbols

theorem remainingId_perm {i j k : ℤ} (h : IsPerm123 i j k) : remainingId i j = k := by
  rcases Angles.perm_cases h with ⟨rfl, rfl, rfl⟩ | ⟨rfl, rfl, rfl⟩ | ⟨rfl, rfl, rfl⟩ |
    ⟨rfl, rfl, rfl⟩ | ⟨rfl, rfl, rfl⟩ | ⟨rfl, rfl, rfl⟩ <;> rfl

/-- The definition of the third Mandelstam variable. -/
def thirdDef (k : ℤ) : RExpr := if k = 1 then thirdExpr 2 3 else if k = 2 then thirdExpr 3 1 else thirdExpr 1 2

variable {m : AmplitudeModel} {M : ℤ → ℚ} {i j k : ℤ}

def massNums (M : ℤ → ℚ) : PyDict Sym RExpr :=
  [(mSym 0, .num (M 0)), (mSym 1, .num (M 1)), (mSym 2, .num (M 2)), (mSym 3, .num (M 3))]

def withThird (m : AmplitudeModel) (k : ℤ) : PyDict Sym RExpr := m.angleDefs ++ [(sSym k, thirdDef k)]

theorem not_key (hp : PlotReady m M) {s : Sym} (hs : s.asm = .nonneg) : s ∉ PyDict.keys m.angleDefs := fun h => by
  rw [hp.keys s h] at hs
  cases hs

theorem dalitzDefinitions_eq (hp : PlotReady m M) (h : IsPerm123 i j k) : dalitzDefinitions m i j =
    .ok ((withThird m k).map fun x => (x.1, (x.2.xreplace (withThird m k)).xreplace (massNums M))) := by
  have ht : listItem m.invariants (k - 1) = .ok (sSym k, thirdDef k) := by
    rw [hp.invariants]
    rcases Angles.perm_cases h with ⟨rfl, rfl, rfl⟩ | ⟨rfl, rfl, rfl⟩ | ⟨rfl, rfl, rfl⟩ |
      ⟨rfl, rfl, rfl⟩ | ⟨rfl, rfl, rfl⟩ | ⟨rfl, rfl, rfl⟩ <;> rfl
  unfold dalitzDefinitions
  rw [remainingId_perm h, ht, hp.masses]
  simp only [bind, Except.bind, pure, Except.pure]
  rw [PyDict.set_of_not_mem _ (not_key hp rfl)]
  rfl

theorem get?_withThird (hp : PlotReady m M) {s : Sym} (hs : s ∈ providedSymbols) :
    PyDict.get? (withThird m k) s = if s = sSym k then some (thirdDef k) else none := by
  have hn : s.asm = .nonneg := by
    revert s
    decide
  have hg : PyDict.get? m.angleDefs s = none := by
    cases hg : PyDict.get? m.angleDefs s with
    | none => rfl
    | some e => exact absurd (PyDict.mem_keys_iff.2 ⟨e, hg⟩) (not_key hp hn)
  unfold withThird
  have happ : ∀ d : PyDict Sym RExpr, PyDict.get? d s = none →
      PyDict.get? (d ++ [(sSym k, thirdDef k)]) s = if s = sSym k then some (thirdDef k) else none := by
    intro d
    induction d with
    | nil =>
      intro _
      simp only [List.nil_append, PyDict.get?_cons, PyDict.get?_nil]
      split
      · rename_i h; rw [if_pos h.symm]
      · rename_i h; rw [if_neg (Ne.symm h)]
    | cons x d ih =>
      intro h
      rw [List.cons_append, PyDict.get?_cons]
      rw [PyDict.get?_cons] at h
      split at h
      · cases h
      · rename_i hx
        rw [if_neg hx]
        exact ih h
  exact happ _ hg

theorem thirdDef_symbols (h : IsPerm123 i j k) : ∀ s ∈ kinematicSymbols (thirdDef k),
    s ∈ ([mSym 0, mSym 1, mSym 2, mSym 3, sSym i, sSym j] : List Sym) := by
  rcases Angles.perm_cases h with ⟨rfl, rfl, rfl⟩ | ⟨rfl, rfl, rfl⟩ | ⟨rfl, rfl, rfl⟩ |
    ⟨rfl, rfl, rfl⟩ | ⟨rfl, rfl, rfl⟩ | ⟨rfl, rfl, rfl⟩ <;> decide +kernel

theorem provided_split (h : IsPerm123 i j k) {s : Sym} (hs : s ∈ providedSymbols) (hk : s ≠ sSym k) :
    s ∈ ([mSym 0, mSym 1, mSym 2, mSym 3, sSym i, sSym j] : List Sym) := by
  revert s
  rcases Angles.perm_cases h with ⟨rfl, rfl, rfl⟩ | ⟨rfl, rfl, rfl⟩ | ⟨rfl, rfl, rfl⟩ |
    ⟨rfl, rfl, rfl⟩ | ⟨rfl, rfl, rfl⟩ | ⟨rfl, rfl, rfl⟩ <;> decide +kernel

theorem split_provided (h : IsPerm123 i j k) {s : Sym}
    (hs : s ∈ ([mSym 0, mSym 1, mSym 2, mSym 3, sSym i, sSym j] : List Sym)) : s ∈ providedSymbols := by
  revert s
  rcases Angles.perm_cases h with ⟨rfl, rfl, rfl⟩ | ⟨rfl, rfl, rfl⟩ | ⟨rfl, rfl, rfl⟩ |
    ⟨rfl, rfl, rfl⟩ | ⟨rfl, rfl, rfl⟩ | ⟨rfl, rfl, rfl⟩ <;> decide +kernel

theorem withThird_symbols (hp : PlotReady m M) (h : IsPerm123 i j k) {x : Sym × RExpr} (hx : x ∈ withThird m k) :
    ∀ s ∈ kinematicSymbols x.2, s ∈ providedSymbols := by
  intro s hs
  rcases List.mem_append.1 hx with hx | hx
  · exact hp.symbols x hx s hs
  · rw [List.mem_singleton.1 hx] at hs
    exact split_provided h (thirdDef_symbols h s hs)

/-- The definitions depend on two Mandelstam variables only. -/
theorem definition_symbols (hp : PlotReady m M) (h : IsPerm123 i j k) {x : Sym × RExpr} (hx : x ∈ withThird m k) {t : Sym}
    (ht : t ∈ kinematicSymbols ((x.2.xreplace (withThird m k)).xreplace (massNums M))) : t = sSym i ∨ t = sSym j := by
  obtain ⟨s, hs, ht⟩ := RExpr.mem_symbols_xreplace _ ht
  obtain ⟨s', hs', hs⟩ := RExpr.mem_symbols_xreplace _ hs
  have hsplit : s ∈ ([mSym 0, mSym 1, mSym 2, mSym 3, sSym i, sSym j] : List Sym) := by
    have hp' := withThird_symbols hp h hx s' hs'
    rw [get?_withThird hp hp'] at hs
    split at hs
    · exact thirdDef_symbols h s hs
    · rename_i hne
      rw [List.mem_singleton.1 hs]
      exact provided_split h hp' hne
  have hmass : s ∈ ([mSym 0, mSym 1, mSym 2, mSym 3] : List Sym) → ∃ q, PyDict.get? (massNums M) s = some (.num q) := by
    intro hs
    simp only [List.mem_cons, List.not_mem_nil, or_false] at hs
    rcases hs with rfl | rfl | rfl | rfl
    · exact ⟨M 0, rfl⟩
    · exact ⟨M 1, rfl⟩
    · exact ⟨M 2, rfl⟩
    · exact ⟨M 3, rfl⟩
  rcases List.mem_append.1 (show s ∈ [mSym 0, mSym 1, mSym 2, mSym 3] ++ [sSym i, sSym j] from hsplit) with hs | hs
  · obtain ⟨q, hq⟩ := hmass hs
    rw [hq] at ht
    cases ht
  · have hno : PyDict.get? (massNums M) s = none := by
      simp only [List.mem_cons, List.not_mem_nil, or_false] at hs
      rcases hs with rfl | rfl <;> rcases Angles.perm_cases h with ⟨rfl, rfl, rfl⟩ | ⟨rfl, rfl, rfl⟩ | ⟨rfl, rfl, rfl⟩ |
        ⟨rfl, rfl, rfl⟩ | ⟨rfl, rfl, rfl⟩ | ⟨rfl, rfl, rfl⟩ <;> rfl
    rw [hno] at ht
    rw [List.mem_singleton.1 ht]
    simpa using hs

/-- At a point with the masses of the model and the sum rule, the replacements do not change the value. -/
theorem definition_eval (hp : PlotReady m M) (h : IsPerm123 i j k) {x : Sym × RExpr} (hx : x ∈ withThird m k) {ρ : Sym → ℝ}
    (hρ : ∀ n ∈ ([0, 1, 2, 3] : List ℤ), ρ (mSym n) = M n)
    (hs : sSym k ∈ kinematicSymbols x.2 → (thirdDef k).eval ρ = some (ρ (sSym k))) :
    ((x.2.xreplace (withThird m k)).xreplace (massNums M)).eval ρ = x.2.eval ρ := by
  rw [RExpr.eval_xreplace (ρ' := ρ), RExpr.eval_xreplace (ρ' := ρ)]
  · intro s hs'
    rw [get?_withThird hp (withThird_symbols hp h hx s hs')]
    split
    · rename_i e
      rw [e]
      exact hs (e ▸ hs')
    · rfl
  · intro s _
    unfold massNums
    simp only [PyDict.get?_cons, PyDict.get?_nil]
    split
    · rename_i e; subst e; exact congrArg some (hρ 0 (by simp)).symm
    split
    · rename_i e; subst e; exact congrArg some (hρ 1 (by simp)).symm
    split
    · rename_i e; subst e; exact congrArg some (hρ 2 (by simp)).symm
    split
    · rename_i e; subst e; exact congrArg some (hρ 3 (by simp)).symm
    · rfl

theorem thirdDef_eval (h : IsPerm123 i j k) (ρ : Sym → ℝ) : (thirdDef k).eval ρ = some (ρ (sSym k)) ↔ SumRule ρ := by
  have hm : ∀ x y : ℤ, (thirdExpr x y).eval ρ = some (ρ ⟨"m0", .nonneg⟩ ^ 2 + ρ ⟨"m1", .nonneg⟩ ^ 2 +
    ρ ⟨"m2", .nonneg⟩ ^ 2 + ρ ⟨"m3", .nonneg⟩ ^ 2 - ρ ⟨"sigma" ++ toString x, .nonneg⟩ -
    ρ ⟨"sigma" ++ toString y, .nonneg⟩) := fun x y => rfl
  have s1 : ("sigma" ++ toString (1:ℤ)) = "sigma1" := rfl
  have s2 : ("sigma" ++ toString (2:ℤ)) = "sigma2" := rfl
  have s3 : ("sigma" ++ toString (3:ℤ)) = "sigma3" := rfl
  have hk : k = 1 ∨ k = 2 ∨ k = 3 := by
    rcases Angles.perm_cases h with h | h | h | h | h | h <;> simp [h.2.2]
  rcases hk with rfl | rfl | rfl
  · show (thirdExpr 2 3).eval ρ = some (ρ ⟨"sigma1", .nonneg⟩) ↔ SumRule ρ
    simp only [hm, SumRule, s2, s3, Option.some.injEq]
    constructor <;> intro h <;> linarith
  · show (thirdExpr 3 1).eval ρ = some (ρ ⟨"sigma2", .nonneg⟩) ↔ SumRule ρ
    simp only [hm, SumRule, s1, s3, Option.some.injEq]
    constructor <;> intro h <;> linarith
  · show (thirdExpr 1 2).eval ρ = some (ρ ⟨"sigma3", .nonneg⟩) ↔ SumRule ρ
    simp only [hm, SumRule, s1, s2, Option.some.injEq]
    constructor <;> intro h <;> linarith

theorem get?_mapVal (d : PyDict Sym RExpr) (f : RExpr → RExpr) (s : Sym) :
    PyDict.get? (d.map fun x => (x.1, f x.2)) s = (PyDict.get? d s).map f := by
  induction d with
  | nil => rfl
  | cons x d ih =>
    rw [List.map_cons, PyDict.get?_cons, PyDict.get?_cons, ih]
    split <;> rfl

theorem third_not_mem (h : IsPerm123 i j k) : sSym k ∉ kinematicSymbols (thirdDef k) := by
  rcases Angles.perm_cases h with ⟨rfl, rfl, rfl⟩ | ⟨rfl, rfl, rfl⟩ | ⟨rfl, rfl, rfl⟩ |
    ⟨rfl, rfl, rfl⟩ | ⟨rfl, rfl, rfl⟩ | ⟨rfl, rfl, rfl⟩ <;> decide +kernel

theorem dalitzRange_eq (hp : PlotReady m M) (h : IsPerm123 i j k) : dalitzRange m i j =
    .ok ((PlotRange.mk ((M j + M k) ^ 2) ((M 0 - M i) ^ 2)).widened,
      (PlotRange.mk ((M i + M k) ^ 2) ((M 0 - M j) ^ 2)).widened) := by
  have hsort : (PyDict.keys m.masses).mergeSort (fun a b => decide (a.name ≤ b.name)) = [mSym 0, mSym 1, mSym 2, mSym 3] := by
    rw [hp.masses]
    exact List.mergeSort_of_pairwise (l := [mSym 0, mSym 1, mSym 2, mSym 3]) (by decide +kernel)
  unfold dalitzRange
  rw [remainingId_perm h, hsort, hp.masses]
  rcases Angles.perm_cases h with ⟨rfl, rfl, rfl⟩ | ⟨rfl, rfl, rfl⟩ | ⟨rfl, rfl, rfl⟩ |
    ⟨rfl, rfl, rfl⟩ | ⟨rfl, rfl, rfl⟩ | ⟨rfl, rfl, rfl⟩ <;> rfl

end Verif.ThreeBody
