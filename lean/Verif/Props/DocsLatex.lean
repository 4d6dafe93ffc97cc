import Verif.Props.Lc2ppiK

/-!
Property C122: the translation of names to LaTeX in the documentation.
-/
namespace Verif.Serialization
open Verif Verif.ThreeBody

theorem dropWhile_absent {c : Char} {l : List Char} (h : c ∉ l) : l.dropWhile (· == c) = l := by
  cases l with
  | nil => rfl
  | cons a t =>
    rw [List.dropWhile_cons_of_neg]
    simp only [beq_iff_eq]
    rintro rfl
    exact h List.mem_cons_self

theorem stripChar_absent {c : Char} {l : List Char} (h : c ∉ l) : stripChar c l = l := by
  unfold stripChar
  rw [dropWhile_absent h, dropWhile_absent (by simpa using h), List.reverse_reverse]

/-- The four ways in which `to_latex` translates a name. -/
theorem docsToLatex_cases {name : String} (h1 : '(' ∉ name.toList) (h2 : ')' ∉ name.toList) :
    (name = "Lc" ∧ docsToLatex name = "\\Lambda_c^+") ∨ (name = "pi" ∧ docsToLatex name = "\\pi^+") ∨
    (name = "K" ∧ docsToLatex name = "K^-") ∨
    (∃ x pre rest, name.toList = x :: rest ∧ (x, pre) ∈ [('D', "D"), ('K', "K"), ('L', "\\Lambda")] ∧
      (docsToLatex name).toList = pre.toList ++ '(' :: rest ++ [')']) ∨
    (docsToLatex name = name ∧ ∀ x ∈ name.toList.head?, x ∉ ['D', 'K', 'L']) := by
  unfold docsToLatex
  simp only [PyDict.get?_cons]
  split_ifs with e1 e2 e3 e4
  · exact .inl ⟨e1.symm, rfl⟩
  · exact .inr (.inl ⟨e2.symm, rfl⟩)
  · exact .inr (.inr (.inl ⟨e3.symm, rfl⟩))
  · subst e4
    exact .inr (.inr (.inr (.inr ⟨rfl, by decide⟩)))
  · simp only [PyDict.get?_nil]
    generalize hl : name.toList = l at *
    match l, h1, h2 with
    | [], _, _ =>
      have : name = "" := String.toList_inj.1 hl
      subst this
      exact .inr (.inr (.inr (.inr ⟨rfl, by simp⟩)))
    | x :: rest, h1, h2 =>
      simp only [List.mem_cons, not_or] at h1 h2
      simp only [stripChar_absent h1.2, stripChar_absent h2.2]
      right; right; right
      split_ifs with d1 d2 d3
      · exact .inl ⟨x, "D", rest, rfl, by simp [← d1], by simp⟩
      · exact .inl ⟨x, "K", rest, rfl, by simp [← d2], by simp⟩
      · exact .inl ⟨x, "\\Lambda", rest, rfl, by simp [← d3], by simp⟩
      · refine .inr ⟨rfl, ?_⟩
        simp only [List.head?_cons, Option.mem_some_iff, forall_eq', List.mem_cons, List.not_mem_nil, or_false, not_or]
        exact ⟨Ne.symm d1, Ne.symm d2, Ne.symm d3⟩

/-- C122: the function `to_latex` of the documentation gives different results for different names without
parentheses and backslashes. -/
theorem C122_to_latex_injective {a b : String} (ha : ∀ x ∈ ['(', ')', '\\'], x ∉ a.toList)
    (hb : ∀ x ∈ ['(', ')', '\\'], x ∉ b.toList) (h : docsToLatex a = docsToLatex b) : a = b := by
  have hp : ∀ {c : String} {pre : String} {rest : List Char},
      (docsToLatex c).toList = pre.toList ++ '(' :: rest ++ [')'] → '(' ∈ (docsToLatex c).toList := by
    intro c pre rest h
    rw [h]; simp
  have n1 : '(' ∉ "\\Lambda_c^+".toList := by decide
  have n2 : '(' ∉ "\\pi^+".toList := by decide
  have n3 : '(' ∉ "K^-".toList := by decide
  have hap : '(' ∉ a.toList := ha _ (by simp)
  have hbp : '(' ∉ b.toList := hb _ (by simp)
  have has : '\\' ∉ a.toList := ha _ (by simp)
  have hbs : '\\' ∉ b.toList := hb _ (by simp)
  rcases docsToLatex_cases hap (ha _ (by simp)) with ⟨a1, a2⟩ | ⟨a1, a2⟩ | ⟨a1, a2⟩ | ⟨x, p, r, a1, a2, a3⟩ | ⟨a1, a2⟩ <;>
  rcases docsToLatex_cases hbp (hb _ (by simp)) with ⟨b1, b2⟩ | ⟨b1, b2⟩ | ⟨b1, b2⟩ | ⟨y, q, t, b1, b2, b3⟩ | ⟨b1, b2⟩
  all_goals first
    | exact a1.trans b1.symm
    | (exfalso; rw [a2, b2] at h; revert h; decide)
    | (exfalso; have := hp b3; rw [← h, a2] at this; first | exact n1 this | exact n2 this | exact n3 this)
    | (exfalso; have := hp a3; rw [h, b2] at this; first | exact n1 this | exact n2 this | exact n3 this)
    | (exfalso; have := hp b3; rw [← h, a1] at this; exact hap this)
    | (exfalso; have := hp a3; rw [h, b1] at this; exact hbp this)
    | (exfalso; rw [a2, b1] at h; rw [← h] at hbs b2; revert hbs b2; decide)
    | (exfalso; rw [a1, b2] at h; rw [h] at has a2; revert has a2; decide)
    | (rw [a1, b1] at h; exact h)
    | skip
  rw [h, b3] at a3
  refine String.toList_inj.1 ?_
  rw [a1, b1]
  simp only [List.mem_cons, Prod.mk.injEq, List.not_mem_nil, or_false] at a2 b2
  rcases a2 with ⟨rfl, rfl⟩ | ⟨rfl, rfl⟩ | ⟨rfl, rfl⟩ <;> rcases b2 with ⟨rfl, rfl⟩ | ⟨rfl, rfl⟩ | ⟨rfl, rfl⟩ <;>
    simp_all

/-- C122: names that differ by the parentheses only have the same LaTeX. -/
theorem C122_to_latex_parentheses {x : Char} (hx : x ∈ ['D', 'K', 'L']) {mass : List Char} (hm : 2 ≤ mass.length)
    (h1 : '(' ∉ mass) (h2 : ')' ∉ mass) :
    docsToLatex (String.ofList (x :: '(' :: mass ++ [')'])) = docsToLatex (String.ofList (x :: mass)) := by
  have key : ∀ l : List Char, 3 ≤ l.length →
      PyDict.get? [("Lc", "\\Lambda_c^+"), ("pi", "\\pi^+"), ("K", "K^-"), ("p", "p")] (String.ofList l) = none := by
    intro l hl
    have : ∀ s : String, s.toList.length < 3 → s ≠ String.ofList l := by
      rintro s hs rfl
      rw [String.toList_ofList] at hs
      omega
    simp only [PyDict.get?_cons, PyDict.get?_nil]
    rw [if_neg (this _ (by decide)), if_neg (this _ (by decide)), if_neg (this _ (by decide)), if_neg (this _ (by decide))]
  have hs : stripChar ')' (stripChar '(' ('(' :: mass ++ [')'])) = stripChar ')' (stripChar '(' mass) := by
    rw [stripChar_absent h1, stripChar_absent h2]
    obtain ⟨u, v, rfl⟩ : ∃ u v, mass = u :: v := by
      cases mass with
      | nil => simp at hm
      | cons u v => exact ⟨u, v, rfl⟩
    obtain ⟨w, z, hz⟩ : ∃ w z, (u :: v).reverse = w :: z := by
      cases h : (u :: v).reverse with
      | nil => simp at h
      | cons w z => exact ⟨w, z, rfl⟩
    have hu : u ≠ '(' := fun h => h1 (by simp [h])
    have hu' : u ≠ ')' := fun h => h2 (by simp [h])
    have hw : w ≠ ')' := fun h => h2 (by rw [← List.mem_reverse, hz]; simp [h])
    have e1 : stripChar '(' ('(' :: (u :: v) ++ [')']) = u :: v ++ [')'] := by
      simp [stripChar, hu]
    rw [e1]
    simp only [stripChar, List.cons_append, List.dropWhile_cons, beq_iff_eq, hu', if_false]
    rw [← List.cons_append, List.reverse_append, hz]
    simp only [List.reverse_cons, List.reverse_nil, List.nil_append, List.singleton_append, List.dropWhile_cons, beq_self_eq_true,
      if_true, beq_iff_eq, hw, if_false]
    rw [← List.reverse_cons, ← hz, List.reverse_reverse]
  unfold docsToLatex
  rw [key _ (by simp), key _ (by simp; omega)]
  simp only [String.toList_ofList, List.cons_append]
  rw [← List.cons_append, hs]
  simp only [List.mem_cons, List.not_mem_nil, or_false] at hx
  rcases hx with rfl | rfl | rfl <;> rfl

theorem lc_names : ∀ c ∈ lcDistribution.chains, ∀ x ∈ ['(', ')', '\\'], x ∉ c.name.toList := by decide +kernel

/-- C122: in the model of the documentation, each of the 26 weights of the file is the default value of its own
parameter. -/
theorem C122_docs_weights (h : formulate lcModel cl docsToLatex (some docsBuilders) = .ok a) {c : ChainDefinition}
    (hc : c ∈ lcDistribution.chains) {re im : ℚ} (hw : c.weight = some (re, im)) :
    PyDict.get? a.parameterDefaults (.sym (weightSymbol docsToLatex c (lcReading c))) =
      some (if im = 0 then .real re else .cplx re im) :=
  C122_weights (fun c hc c' hc' => C122_to_latex_injective (lc_names c hc) (lc_names c' hc')) h hc hw

example : docsToLatex "L1405" = "\\Lambda(1405)" ∧ docsToLatex "L(1405)" = "\\Lambda(1405)" ∧ docsToLatex "K" = "K^-" := by
  decide +kernel

example : ∃ a, formulate lcModel true docsToLatex (some docsBuilders) = .ok a ∧
    ∃ c ∈ lcDistribution.chains, ∃ w, c.weight = some w ∧
      PyDict.get? a.parameterDefaults (.sym (weightSymbol docsToLatex c (lcReading c))) =
        some (if w.2 = 0 then .real w.1 else .cplx w.1 w.2) := by
  obtain ⟨a, ha⟩ := C122_returns docsToLatex true
  have hc : lc0 ∈ lcDistribution.chains := .head _
  exact ⟨a, ha, lc0, hc, _, rfl, C122_docs_weights ha hc rfl⟩

end Verif.Serialization
