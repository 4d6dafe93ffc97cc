import Verif.Spec.IoExpression
import Verif.Proofs.Io

namespace Verif.Io
open Verif

theorem intercalate_inj {p q : List Char} {c : Char} (hp : c ∉ p) {s t : List (List Char)}
    (hs : ∀ x ∈ s, c ∉ x) (ht : ∀ x ∈ t, c ∉ x) (hs' : s ≠ []) (ht' : t ≠ [])
    (h : List.intercalate (p ++ c :: q) s = List.intercalate (p ++ c :: q) t) : s = t := by
  induction s generalizing t with
  | nil => exact absurd rfl hs'
  | cons x s ih =>
    cases t with
    | nil => exact absurd rfl ht'
    | cons y t =>
      have hx := hs x (by simp)
      have hy := ht y (by simp)
      cases s with
      | nil =>
        cases t with
        | nil => simpa using h
        | cons y' t =>
          rw [List.intercalate_singleton, List.intercalate_cons_cons] at h
          exact absurd (by rw [h]; simp) hx
      | cons x' s =>
        cases t with
        | nil =>
          rw [List.intercalate_singleton, List.intercalate_cons_cons] at h
          exact absurd (by rw [← h]; simp) hy
        | cons y' t =>
          rw [List.intercalate_cons_cons, List.intercalate_cons_cons] at h
          have h' : (x ++ p) ++ c :: (q ++ List.intercalate (p ++ c :: q) (x' :: s)) =
              (y ++ p) ++ c :: (q ++ List.intercalate (p ++ c :: q) (y' :: t)) := by
            simpa using h
          obtain ⟨e, h''⟩ := split_unique (by simp [hx, hp]) (by simp [hy, hp]) h'
          obtain rfl := List.append_cancel_right e
          rw [ih (fun z hz => hs z (by simp [hz])) (fun z hz => ht z (by simp [hz])) (by simp) (by simp)
            (List.append_cancel_left h'')]

theorem lines_inj {s t : List (List Char)} {e : List Char} (hs : ∀ x ∈ s, '\n' ∉ x) (ht : ∀ x ∈ t, '\n' ∉ x)
    (he : '\n' ∉ e) (h : (s.flatMap fun x => x ++ ['\n']) ++ e = (t.flatMap fun x => x ++ ['\n']) ++ e) : s = t := by
  induction s generalizing t with
  | nil =>
    cases t with
    | nil => rfl
    | cons y t => exact absurd (by rw [show e = _ from h]; simp) he
  | cons x s ih =>
    cases t with
    | nil => exact absurd (by rw [show e = _ from h.symm]; simp) he
    | cons y t =>
      have h' : x ++ '\n' :: ((s.flatMap fun x => x ++ ['\n']) ++ e) =
          y ++ '\n' :: ((t.flatMap fun x => x ++ ['\n']) ++ e) := by simpa using h
      obtain ⟨rfl, h''⟩ := split_unique (hs x (by simp)) (ht y (by simp)) h'
      rw [ih (fun z hz => hs z (by simp [hz])) (fun z hz => ht z (by simp [hz])) h'']

/-- The line of a row, without the newline. -/
def rowLine (cells : List String) : List Char :=
  "  ".toList ++ List.intercalate " &=& ".toList (cells.map String.toList) ++ " \\\\".toList

theorem intercalate_mem {sep : List Char} {l : List (List Char)} {c : Char} (h : c ∈ List.intercalate sep l) :
    c ∈ sep ∨ ∃ x ∈ l, c ∈ x := by
  induction l with
  | nil => simp at h
  | cons x l ih =>
    cases l with
    | nil => exact .inr ⟨x, by simp, by simpa using h⟩
    | cons y l =>
      rw [List.intercalate_cons_cons, List.mem_append, List.mem_append] at h
      rcases h with (h | h) | h
      · exact .inr ⟨x, by simp, h⟩
      · exact .inl h
      · rcases ih h with h | ⟨z, hz, h⟩
        · exact .inl h
        · exact .inr ⟨z, by simp [hz], h⟩

theorem rowLine_newline {cells : List String} (h : ∀ x ∈ cells, CleanCell x) : '\n' ∉ rowLine cells := by
  intro hm
  rw [rowLine, List.mem_append, List.mem_append] at hm
  rcases hm with (hm | hm) | hm
  · exact absurd hm (by decide)
  · rcases intercalate_mem hm with hm | ⟨x, hx, hm⟩
    · exact absurd hm (by decide)
    · obtain ⟨y, hy, rfl⟩ := List.mem_map.1 hx
      exact (h y hy).2 hm
  · exact absurd hm (by decide)

theorem rowLine_inj {a b : List String} (ha : ∀ x ∈ a, CleanCell x) (hb : ∀ x ∈ b, CleanCell x) (ha' : a ≠ [])
    (hb' : b ≠ []) (h : rowLine a = rowLine b) : a = b := by
  rw [rowLine, rowLine] at h
  have h := List.append_cancel_left (List.append_cancel_right h)
  have := intercalate_inj (p := [' ']) (q := ['=', '&', ' ']) (c := '&') (by decide)
    (s := a.map String.toList) (t := b.map String.toList)
    (by intro x hx; obtain ⟨y, hy, rfl⟩ := List.mem_map.1 hx; exact (ha y hy).1)
    (by intro x hx; obtain ⟨y, hy, rfl⟩ := List.mem_map.1 hx; exact (hb y hy).1)
    (by simpa using ha') (by simpa using hb') h
  exact (List.map_injective_iff.2 fun x y => String.toList_inj.1) this

theorem isArray_iff {s : String} {rows : List (List String)} : IsArray s rows ↔
    s.toList = "\\begin{array}{rcl}\n".toList ++
      (((rows.map rowLine).flatMap fun x => x ++ ['\n']) ++ "\\end{array}".toList) := by
  have : (rows.flatMap fun cells => "  ".toList ++ List.intercalate " &=& ".toList (cells.map String.toList) ++
      " \\\\\n".toList) = ((rows.map rowLine).flatMap fun x => x ++ ['\n']) := by
    rw [List.flatMap_map]
    congr 1
    funext r
    rw [rowLine, List.append_assoc _ _ ['\n']]
    rfl
  rw [IsArray, this, List.append_assoc]

/-- The rows of an array are determined by its text. -/
theorem array_unique {s : String} {a b : List (List String)} (ha : IsArray s a) (hb : IsArray s b)
    (ca : ∀ r ∈ a, r ≠ [] ∧ ∀ x ∈ r, CleanCell x) (cb : ∀ r ∈ b, r ≠ [] ∧ ∀ x ∈ r, CleanCell x) : a = b := by
  rw [isArray_iff] at ha hb
  have h0 := List.append_cancel_left (ha.symm.trans hb)
  have h := lines_inj
    (by intro x hx; obtain ⟨r, hr, rfl⟩ := List.mem_map.1 hx; exact rowLine_newline (ca r hr).2)
    (by intro x hx; obtain ⟨r, hr, rfl⟩ := List.mem_map.1 hx; exact rowLine_newline (cb r hr).2)
    (by decide) h0
  clear ha hb h0
  induction a generalizing b with
  | nil =>
    cases b with
    | nil => rfl
    | cons r b => cases h
  | cons r a ih =>
    cases b with
    | nil => cases h
    | cons r' b =>
      injection h with h1 h2
      rw [rowLine_inj (ca r (by simp)).2 (cb r' (by simp)).2 (ca r (by simp)).1 (cb r' (by simp)).1 h1,
        ih (fun x hx => ca x (by simp [hx])) (fun x hx => cb x (by simp [hx])) h2]

/-- The rows of a defined expression. -/
def rowsOf {K : Type} (P : Printer K) (kwargs : K) (d : DefExpr) : List (List String) :=
  (if d.expression = P.doit d.expression then [P.expr kwargs d.expression]
    else [P.expr P.noKwargs d.expression, P.expr P.noKwargs (P.doit d.expression)]) ::
    d.parameters.map fun x => [P.key x.1, P.val x.2]

theorem foldl_rows {K : Type} (P : Printer K) (l : PyDict Key Val) (acc : String) :
    (l.foldl (fun latex x => latex ++ ("  " ++ P.key x.1 ++ " &=& " ++ P.val x.2 ++ " \\\\" ++ "\n")) acc).toList =
      acc.toList ++ ((l.map fun x => [P.key x.1, P.val x.2]).map rowLine).flatMap fun x => x ++ ['\n'] := by
  induction l generalizing acc with
  | nil => simp
  | cons x l ih =>
    rw [List.foldl_cons, ih]
    simp [rowLine, List.intercalate_cons_cons, String.toList_append]

theorem latexDefined_array {K : Type} (P : Printer K) (kwargs : K) (d : DefExpr) :
    IsArray (latexDefined P kwargs d) (rowsOf P kwargs d) := by
  rw [isArray_iff]
  unfold latexDefined
  simp only [String.toList_append]
  rw [foldl_rows]
  by_cases h : d.expression = P.doit d.expression
  · simp only [rowsOf]
    rw [if_pos h, if_pos h]
    simp [rowLine, String.toList_append]
  · simp only [rowsOf]
    rw [if_neg h, if_neg h]
    simp [rowLine, List.intercalate_cons_cons, String.toList_append]

theorem rowsOf_isRows {K : Type} (P : Printer K) (kwargs : K) (d : DefExpr) (rows : List (List String)) :
    IsRows P kwargs d rows ↔ rows = rowsOf P kwargs d := by
  constructor
  · rintro ⟨h1, h2, h3⟩
    cases rows with
    | nil =>
      by_cases h : P.doit d.expression = d.expression
      · cases h1 h
      · cases h2 h
    | cons r t =>
      rw [List.tail_cons] at h3
      rw [h3, rowsOf]
      by_cases h : P.doit d.expression = d.expression
      · rw [if_pos h.symm, Option.some.inj (h1 h)]
      · rw [if_neg fun e => h e.symm, Option.some.inj (h2 h)]
  · rintro rfl
    refine ⟨fun h => ?_, fun h => ?_, rfl⟩
    · rw [rowsOf, if_pos h.symm]; rfl
    · rw [rowsOf, if_neg fun e => h e.symm]; rfl

theorem rowsOf_clean {K : Type} {P : Printer K} {kwargs : K} {d : DefExpr} (h : CleanDefined P kwargs d) :
    ∀ r ∈ rowsOf P kwargs d, r ≠ [] ∧ ∀ x ∈ r, CleanCell x := by
  intro r hr
  rw [rowsOf, List.mem_cons] at hr
  rcases hr with rfl | hr
  · split
    · refine ⟨by simp, fun x hx => ?_⟩
      rw [List.mem_singleton.1 hx]
      exact h.expr.1
    · refine ⟨by simp, fun x hx => ?_⟩
      simp only [List.mem_cons, List.not_mem_nil, or_false] at hx
      rcases hx with rfl | rfl
      · exact h.expr.2.1
      · exact h.expr.2.2
  · obtain ⟨x, hx, rfl⟩ := List.mem_map.1 hr
    refine ⟨by simp, fun y hy => ?_⟩
    simp only [List.mem_cons, List.not_mem_nil, or_false] at hy
    rcases hy with rfl | rfl
    · exact (h.parameters x hx).1
    · exact (h.parameters x hx).2

/-- A text is split uniquely at the first occurrence of two different characters. -/
theorem split_two {c d : Char} (hcd : c ≠ d) {x y r r' : List Char} (hx : ¬ [c, d] <:+: x) (hy : ¬ [c, d] <:+: y)
    (h : x ++ c :: d :: r = y ++ c :: d :: r') : x = y ∧ r = r' := by
  induction x generalizing y with
  | nil =>
    cases y with
    | nil => injection h with _ h; injection h with _ h; exact ⟨rfl, h⟩
    | cons b y =>
      exfalso
      injection h with h1 h
      cases y with
      | nil => injection h with h2 h; exact hcd h2.symm
      | cons b' y =>
        injection h with h2 h
        subst h1 h2
        exact hy ⟨[], y, rfl⟩
  | cons a x ih =>
    cases y with
    | nil =>
      exfalso
      injection h with h1 h
      cases x with
      | nil => injection h with h2 h; exact hcd h2
      | cons a' x =>
        injection h with h2 h
        subst h1 h2
        exact hx ⟨[], x, rfl⟩
    | cons b y =>
      injection h with h1 h
      obtain ⟨e, er⟩ := ih (fun hi => hx (hi.trans (List.infix_cons List.infix_rfl)))
        (fun hi => hy (hi.trans (List.infix_cons List.infix_rfl))) h
      exact ⟨by rw [h1, e], er⟩

theorem latexIndexed_toList (b : String) (i : List String) : (latexIndexed b i).toList =
    b.toList ++ '_' :: '{' :: (List.intercalate [',', ' '] (i.map String.toList) ++ ['}']) := by
  simp [latexIndexed, String.toList_append, String.toList_intercalate]

theorem latexIndexed_inj {b b' : String} {i i' : List String} (h : CleanIndexed b i) (h' : CleanIndexed b' i')
    (e : latexIndexed b i = latexIndexed b' i') : b = b' ∧ i = i' := by
  have e := congrArg String.toList e
  rw [latexIndexed_toList, latexIndexed_toList] at e
  obtain ⟨e1, e2⟩ := split_two (by decide) h.base h'.base e
  refine ⟨String.toList_inj.1 e1, ?_⟩
  have := intercalate_inj (p := []) (q := [' ']) (c := ',') (by decide)
    (s := i.map String.toList) (t := i'.map String.toList)
    (by intro x hx; obtain ⟨y, hy, rfl⟩ := List.mem_map.1 hx; exact h.comma y hy)
    (by intro x hx; obtain ⟨y, hy, rfl⟩ := List.mem_map.1 hx; exact h'.comma y hy)
    (by simpa using h.nonempty) (by simpa using h'.nonempty) (List.append_cancel_right e2)
  exact (List.map_injective_iff.2 fun x y => String.toList_inj.1) this

end Verif.Io
