import Verif.Proofs.Io
import Verif.Proofs.RationalText

/-! The LaTeX code of a decay can be read back (used for C69). -/
namespace Verif.Io
open Verif Verif.ThreeBody

/-- Texts with blanks in between. -/
def joined : List (List Char) → List Char
  | [] => []
  | [x] => x
  | x :: y :: t => x ++ ' ' :: joined (y :: t)

theorem joined_cons {x : List Char} {t : List (List Char)} (h : t ≠ []) : joined (x :: t) = x ++ ' ' :: joined t := by
  cases t with
  | nil => exact absurd rfl h
  | cons y t => rfl

theorem joined_append {s t : List (List Char)} (hs : s ≠ []) (ht : t ≠ []) :
    joined (s ++ t) = joined s ++ ' ' :: joined t := by
  induction s with
  | nil => exact absurd rfl hs
  | cons x s ih =>
    cases s with
    | nil => exact joined_cons ht
    | cons y s =>
      rw [List.cons_append, joined_cons (by simp), joined_cons (by simp), ih (by simp), List.append_assoc,
        List.cons_append]

theorem joined_inj {s t : List (List Char)} (hs : ∀ x ∈ s, ' ' ∉ x) (ht : ∀ x ∈ t, ' ' ∉ x) (hs' : s ≠ [])
    (ht' : t ≠ []) (h : joined s = joined t) : s = t := by
  induction s generalizing t with
  | nil => exact absurd rfl hs'
  | cons x s ih =>
    cases t with
    | nil => exact absurd rfl ht'
    | cons y t =>
      have hx := hs x (by simp)
      have hy := ht y (by simp)
      by_cases h1 : s = [] <;> by_cases h2 : t = []
      · subst h1 h2
        rw [show x = y from h]
      · subst h1
        rw [joined_cons h2] at h
        exact absurd (by rw [show x = _ from h]; simp) hx
      · subst h2
        rw [joined_cons h1] at h
        exact absurd (by rw [show y = _ from h.symm]; simp) hy
      · rw [joined_cons h1, joined_cons h2] at h
        obtain ⟨rfl, h'⟩ := split_unique hx hy h
        rw [ih (fun z hz => hs z (by simp [hz])) (fun z hz => ht z (by simp [hz])) h1 h2 h']

/-- Closing bracket. -/
def closing : List Char := "\\right)".toList

/-- Opening bracket. -/
def opening : List Char := "\\left(".toList

/-- `u` is `x` with closing brackets. -/
def Closed (x u : List Char) : Prop := ∃ n : ℕ, u = x ++ (List.replicate n closing).flatten

theorem closed_refl (x : List Char) : Closed x x := ⟨0, by simp⟩

theorem closed_step {x u : List Char} (h : Closed x u) : Closed x (u ++ closing) := by
  obtain ⟨n, rfl⟩ := h
  refine ⟨n + 1, ?_⟩
  rw [List.replicate_succ', List.flatten_append, List.append_assoc]
  simp

theorem closed_unique {x y u : List Char} (hx : Closed x u) (hy : Closed y u) (h1 : ¬ closing <:+ x)
    (h2 : ¬ closing <:+ y) : x = y := by
  obtain ⟨n, rfl⟩ := hx
  obtain ⟨k, h⟩ := hy
  induction n generalizing k with
  | zero =>
    cases k with
    | zero => simpa using h
    | succ k =>
      exfalso
      apply h1
      rw [List.replicate_succ', List.flatten_append] at h
      refine ⟨y ++ (List.replicate k closing).flatten, ?_⟩
      simpa using h.symm
  | succ n ih =>
    cases k with
    | zero =>
      exfalso
      apply h2
      rw [List.replicate_succ', List.flatten_append] at h
      refine ⟨x ++ (List.replicate n closing).flatten, ?_⟩
      simpa using h
    | succ k =>
      apply ih k
      rw [List.replicate_succ', List.replicate_succ', List.flatten_append, List.flatten_append, ← List.append_assoc,
        ← List.append_assoc] at h
      exact List.append_cancel_right h

/-- Text of a particle. -/
def nameOf (w : Bool) (o : Obj) : List Char := (latexParticle o.toP w false).toList

/-- The texts in the LaTeX code of a decay, without closing brackets. -/
def pieces (w : Bool) : Node → List (List Char)
  | .leaf o => [nameOf w o]
  | .isobar p a b i => ((match p with | .state _ => [] | .particle _ => opening) ++ nameOf w p) ::
      (renderArrow i).toList :: (pieces w a ++ pieces w b)

theorem pieces_ne (w : Bool) (n : Node) : pieces w n ≠ [] := by cases n <;> simp [pieces]

/-- Adding a closing bracket to the last text. -/
theorem close_last {xs us : List (List Char)} (h : List.Forall₂ Closed xs us) (hne : us ≠ []) :
    ∃ us', us' ≠ [] ∧ List.Forall₂ Closed xs us' ∧ joined us' = joined us ++ closing := by
  induction h with
  | nil => exact absurd rfl hne
  | @cons x u xs us h1 h2 ih =>
    by_cases hu : us = []
    · subst hu
      cases h2
      exact ⟨[u ++ closing], by simp, .cons (closed_step h1) .nil, rfl⟩
    · obtain ⟨us', a, b, c⟩ := ih hu
      refine ⟨u :: us', by simp, .cons h1 b, ?_⟩
      rw [joined_cons a, joined_cons hu, c, List.append_assoc, List.cons_append]

theorem forall₂_append {α β : Type} {R : α → β → Prop} {a c : List α} {b d : List β} (h : List.Forall₂ R a b)
    (h' : List.Forall₂ R c d) : List.Forall₂ R (a ++ c) (b ++ d) := by
  induction h with
  | nil => exact h'
  | cons h1 _ ih => exact .cons h1 ih

theorem latexNode_pieces (w : Bool) (n : Node) : ∃ us, us ≠ [] ∧ List.Forall₂ Closed (pieces w n) us ∧
    (latexNode w false n).toList = joined us := by
  induction n with
  | leaf o => exact ⟨[nameOf w o], by simp, .cons (closed_refl _) .nil, rfl⟩
  | isobar p a b i iha ihb =>
    obtain ⟨ua, a1, a2, a3⟩ := iha
    obtain ⟨ub, b1, b2, b3⟩ := ihb
    have key : ∀ pre : List Char, ∃ us, us ≠ [] ∧ List.Forall₂ Closed ((pre ++ nameOf w p) ::
        (renderArrow i).toList :: (pieces w a ++ pieces w b)) us ∧
        pre ++ (latexParticle p.toP w false ++ " " ++ renderArrow i ++ " " ++ latexNode w false a ++ " " ++
          latexNode w false b).toList = joined us := by
      intro pre
      refine ⟨(pre ++ nameOf w p) :: (renderArrow i).toList :: (ua ++ ub), by simp,
        .cons (closed_refl _) (.cons (closed_refl _) (forall₂_append a2 b2)), ?_⟩
      rw [joined_cons (by simp), joined_cons (by simp [a1]), joined_append a1 b1]
      simp only [String.toList_append, a3, b3, nameOf]
      simp
    unfold latexNode pieces
    cases p with
    | state s =>
      obtain ⟨us, h1, h2, h3⟩ := key []
      exact ⟨us, h1, h2, h3⟩
    | particle q =>
      obtain ⟨us, h1, h2, h3⟩ := key opening
      obtain ⟨us', h4, h5, h6⟩ := close_last h2 h1
      refine ⟨us', h4, h5, ?_⟩
      rw [h6, ← h3, String.toList_append, String.toList_append]
      rfl

/-- Text that starts an arrow. -/
def ArrowText (x : List Char) : Prop := ∃ i, x = (renderArrow i).toList

theorem ratText_eq : ratText = Serialization.ratStr := rfl

theorem arrow_none : (renderArrow none).toList = ['\\', 't', 'o'] := rfl

theorem arrow_some (x : LS) : (renderArrow (some x)).toList = "\\xrightarrow[".toList ++ ("S=".toList ++
    ((ratText x.S).toList ++ (']' :: ("{L=".toList ++ ((toString x.L).toList ++ ['}']))))) := by
  show ("\\xrightarrow[S=" ++ ratText x.S ++ "]{L=" ++ toString x.L ++ "}").toList = _
  rw [String.toList_append, String.toList_append, String.toList_append, String.toList_append]
  rw [show "\\xrightarrow[S=".toList = "\\xrightarrow[".toList ++ "S=".toList from rfl,
    show "]{L=".toList = ']' :: "{L=".toList from rfl, show "}".toList = ['}'] from rfl]
  simp only [List.append_assoc, List.cons_append]

theorem xarrow : "\\xrightarrow[".toList = '\\' :: 'x' :: "rightarrow[".toList := rfl

theorem renderArrow_inj {i j : Option LS} (h : (renderArrow i).toList = (renderArrow j).toList) : i = j := by
  match i, j with
  | none, none => rfl
  | none, some y =>
    rw [arrow_none, arrow_some, xarrow, List.cons_append, List.cons_append] at h
    injection h with _ h
    injection h with h _
    exact absurd h (by decide)
  | some x, none =>
    rw [arrow_none, arrow_some, xarrow, List.cons_append, List.cons_append] at h
    injection h with _ h
    injection h with h _
    exact absurd h (by decide)
  | some x, some y =>
    rw [arrow_some, arrow_some] at h
    have h := List.append_cancel_left (List.append_cancel_left h)
    have no : ∀ q, ']' ∉ (ratText q).toList := fun q => by
      rw [ratText_eq]
      exact Serialization.ratStr_no (by decide) (by decide) (by decide) q
    obtain ⟨h1, h2⟩ := split_unique (c := ']') (no _) (no _) h
    have h2 := toString_int_inj (String.toList_inj.1 (List.append_cancel_right (List.append_cancel_left h2)))
    have h1 := Serialization.ratStr_inj (String.toList_inj.1 h1)
    cases x
    cases y
    simp only at h1 h2
    rw [h1, h2]

theorem renderArrow_space (i : Option LS) : ' ' ∉ (renderArrow i).toList := by
  match i with
  | none =>
    rw [arrow_none]
    decide
  | some x =>
    have h1 : ' ' ∉ (ratText x.S).toList := by
      rw [ratText_eq]
      exact Serialization.ratStr_no (by decide) (by decide) (by decide) _
    have h2 : ' ' ∉ (toString x.L).toList := int_name_no (by decide) (by decide)
    rw [arrow_some]
    simp only [List.mem_append, List.mem_cons, not_or]
    exact ⟨by decide, by decide, h1, by decide, by decide, h2, by decide, by simp⟩

theorem closing_eq : closing = "\\right".toList ++ [')'] := rfl

theorem not_closing {x : List Char} {c : Char} (h : c ≠ ')') : ¬ closing <:+ x ++ [c] := by
  rintro ⟨t, ht⟩
  rw [closing_eq, ← List.append_assoc] at ht
  have := List.append_inj_right' ht rfl
  injection this with h1
  exact h h1.symm

theorem renderArrow_closing (i : Option LS) : ¬ closing <:+ (renderArrow i).toList := by
  match i with
  | none =>
    rw [arrow_none]
    exact not_closing (x := ['\\', 't']) (by decide)
  | some x =>
    rw [arrow_some, ← List.append_assoc, ← List.append_assoc, ← List.cons_append, ← List.append_assoc,
      ← List.append_assoc]
    exact not_closing (by decide)

/-- What is needed of the text of a particle. -/
structure PlainName (x : List Char) : Prop where
  noSpace : ' ' ∉ x
  noArrow : ¬ ArrowText x
  noLeft : ¬ opening <+: x
  noRight : ¬ closing <:+ x

theorem jp_space (p : Particle) : ' ' ∉ (renderJp p).toList ∧ '[' ∉ (renderJp p).toList := by
  have hs : ∀ c : Char, c = ' ' ∨ c = '[' → c ∉ (if p.spin.den = 1 then toString p.spin.num
      else "\\frac{" ++ toString p.spin.num ++ "}{" ++ toString (p.spin.den : ℤ) ++ "}").toList := by
    intro c hc
    have hn : ∀ n : ℤ, c ∉ (toString n).toList := fun n => by
      rcases hc with rfl | rfl <;> exact int_name_no (by decide) (by decide)
    split
    · exact hn _
    · simp only [String.toList_append, List.mem_append, not_or]
      refine ⟨⟨⟨⟨?_, hn _⟩, ?_⟩, hn _⟩, ?_⟩ <;> rcases hc with rfl | rfl <;> decide
  unfold renderJp
  simp only
  split
  · simp only [String.toList_append, List.mem_append, not_or]
    exact ⟨⟨by decide, hs _ (.inl rfl)⟩, ⟨by decide, hs _ (.inr rfl)⟩⟩
  · simp only [String.toList_append, List.mem_append, not_or]
    refine ⟨⟨⟨hs _ (.inl rfl), by decide⟩, ?_⟩, ⟨⟨hs _ (.inr rfl), by decide⟩, ?_⟩⟩ <;> split <;> decide

theorem arrow_cases {x : List Char} (h : ArrowText x) :
    x = ['\\', 't', 'o'] ∨ "\\xrightarrow[".toList <+: x := by
  obtain ⟨i, rfl⟩ := h
  match i with
  | none => exact .inl rfl
  | some y =>
    rw [arrow_some]
    exact .inr (List.prefix_append _ _)

theorem prefix_of_append {P x T : List Char} (hP : '\\' ∉ P) (h : '\\' :: P <+: x ++ '\\' :: T) :
    '\\' :: P <+: x ∨ x = [] := by
  cases x with
  | nil => exact .inr rfl
  | cons a x =>
    left
    rw [List.cons_append, List.cons_prefix_cons] at h
    obtain ⟨rfl, h⟩ := h
    rw [List.cons_prefix_cons]
    refine ⟨rfl, ?_⟩
    rcases List.prefix_or_prefix_of_prefix h (List.prefix_append x _) with h1 | ⟨s, rfl⟩
    · exact h1
    · rw [List.prefix_append_right_inj] at h
      cases s with
      | nil => simp
      | cons b s =>
        rw [List.cons_prefix_cons] at h
        obtain ⟨rfl, -⟩ := h
        exact absurd (by simp) hP

theorem plainName (w : Bool) (o : Obj) (h : PlainLatex o.toP.latex) : PlainName (nameOf w o) := by
  obtain ⟨h1, ⟨h2, h3⟩, h4, h5⟩ := h
  cases w with
  | false =>
    refine ⟨h1, ?_, h4, h5⟩
    intro h
    rcases arrow_cases h with h | h
    · exact h2 (String.toList_inj.1 h)
    · exact h3 h
  | true =>
    have e : nameOf true o = o.toP.latex.toList ++ '\\' :: 'l' :: ("eft[".toList ++ ((renderJp o.toP).toList ++
        "\\right]".toList)) := by
      show (o.toP.latex ++ "\\left[" ++ renderJp o.toP ++ "\\right]").toList = _
      rw [String.toList_append, String.toList_append, String.toList_append]
      rw [show "\\left[".toList = '\\' :: 'l' :: "eft[".toList from rfl]
      simp only [List.append_assoc, List.cons_append]
    obtain ⟨j1, j2⟩ := jp_space o.toP
    refine ⟨?_, ?_, ?_, ?_⟩
    · rw [e]
      simp only [List.mem_append, List.mem_cons, not_or]
      exact ⟨h1, by decide, by decide, by decide, j1, by decide⟩
    · intro h
      rcases arrow_cases h with h | h
      · have : '[' ∈ nameOf true o := by
          rw [e]
          simp only [List.mem_append, List.mem_cons]
          exact .inr (.inr (.inr (.inl (by decide))))
        rw [h] at this
        exact absurd this (by decide)
      · rw [e] at h
        rcases prefix_of_append (P := 'x' :: "rightarrow[".toList) (by decide) h with h' | h'
        · exact h3 h'
        · rw [h', xarrow, List.nil_append, List.cons_prefix_cons, List.cons_prefix_cons] at h
          exact absurd h.2.1 (by decide)
    · intro h
      rw [e] at h
      rcases prefix_of_append (P := "left(".toList) (by decide) h with h' | h'
      · exact h4 h'
      · rw [h', List.nil_append, show opening = '\\' :: 'l' :: "eft(".toList from rfl, List.cons_prefix_cons,
          List.cons_prefix_cons, show "eft(".toList = ['e', 'f', 't', '('] from rfl,
          show "eft[".toList = ['e', 'f', 't', '['] from rfl] at h
        simp at h
    · rw [e, show "\\right]".toList = "\\right".toList ++ [']'] from rfl, ← List.append_assoc, ← List.append_assoc,
        ← List.cons_append, ← List.cons_append, ← List.append_assoc]
      exact not_closing (by decide)

theorem nameOf_iff (w : Bool) (o o' : Obj) (h : ValidParticle o.toP) (h' : ValidParticle o'.toP) :
    nameOf w o = nameOf w o' ↔ SameParticle w o.toP o'.toP := by
  unfold SameParticle nameOf
  rw [String.toList_inj]
  cases w with
  | false => simp [latexParticle]
  | true =>
    have key : renderJp o.toP = renderJp o'.toP ↔ o.toP.spin = o'.toP.spin ∧ o.toP.parity = o'.toP.parity := by
      rw [renderJp_iff]
      refine and_congr_right fun _ => ⟨fun g => ?_, fun g => by rw [g]⟩
      rcases h.2 with h1 | h1 | h1 <;> rcases h'.2 with h2 | h2 | h2 <;> rw [h1, h2] at g ⊢ <;>
        first | rfl | (simp at g)
    rw [← key]
    show o.toP.latex ++ "\\left[" ++ renderJp o.toP ++ "\\right]" =
      o'.toP.latex ++ "\\left[" ++ renderJp o'.toP ++ "\\right]" ↔ _
    constructor
    · intro g
      have g := congrArg (List.reverse ∘ String.toList) g
      simp only [Function.comp, String.toList_append, List.reverse_append, List.append_assoc] at g
      have g := List.append_cancel_left g
      rw [show "\\left[".toList.reverse = '[' :: "\\left".toList.reverse from rfl] at g
      obtain ⟨g1, g2⟩ := split_unique (c := '[') (by simpa using (jp_space o.toP).2)
        (by simpa using (jp_space o'.toP).2) g
      exact ⟨String.toList_inj.1 (List.reverse_injective (List.append_cancel_left g2)),
        fun _ => String.toList_inj.1 (List.reverse_injective g1)⟩
    · rintro ⟨g1, g2⟩
      rw [g1, g2 rfl]

theorem pre_closing {x : List Char} (h : ¬ closing <:+ x) : ¬ closing <:+ opening ++ x := by
  intro g
  rcases List.suffix_or_suffix_of_suffix g (List.suffix_append opening x) with g1 | ⟨t, g1⟩
  · exact h g1
  · obtain ⟨u, gu⟩ := g
    rw [← g1, ← List.append_assoc] at gu
    have hut := List.append_cancel_right gu
    rcases List.eq_nil_or_concat t with rfl | ⟨t', c, rfl⟩
    · apply h
      rw [← g1]
      simp
    · rw [List.concat_eq_append, show opening = "\\left".toList ++ ['('] from rfl, ← List.append_assoc] at hut
      have := List.append_inj_right' hut rfl
      injection this with hc
      subst hc
      have : '(' ∈ closing := by rw [← g1]; simp
      exact absurd this (by decide)

theorem pieces_plain (w : Bool) {n : Node} (h : AllPlain n) :
    (∀ x ∈ pieces w n, ' ' ∉ x ∧ ¬ closing <:+ x) := by
  induction n with
  | leaf o =>
    intro x hx
    simp only [pieces, List.mem_singleton] at hx
    subst hx
    have := plainName w o (h o (by simp [objects])).1
    exact ⟨this.noSpace, this.noRight⟩
  | isobar p a b i iha ihb =>
    intro x hx
    simp only [pieces, List.mem_cons, List.mem_append] at hx
    rcases hx with rfl | rfl | hx | hx
    · have := plainName w p (h p (by simp [objects])).1
      cases p with
      | state s => exact ⟨this.noSpace, this.noRight⟩
      | particle q =>
        refine ⟨?_, pre_closing this.noRight⟩
        rw [List.mem_append]
        rintro (g | g)
        · exact absurd (show ' ' ∈ opening from g) (by decide)
        · exact this.noSpace g
    · exact ⟨renderArrow_space i, renderArrow_closing i⟩
    · exact iha (fun o ho => h o (by simp [objects, ho])) x hx
    · exact ihb (fun o ho => h o (by simp [objects, ho])) x hx

theorem pieces_head (w : Bool) {n : Node} (h : AllPlain n) : ∃ x t, pieces w n = x :: t ∧ ¬ ArrowText x := by
  cases n with
  | leaf o => exact ⟨_, _, rfl, (plainName w o (h o (by simp [objects])).1).noArrow⟩
  | isobar p a b i =>
    refine ⟨_, _, rfl, ?_⟩
    cases p with
    | state s => exact (plainName w _ (h _ (by simp [objects])).1).noArrow
    | particle q =>
      intro g
      rcases arrow_cases g with g | g
      · rw [show opening = '\\' :: 'l' :: "eft(".toList from rfl, List.cons_append, List.cons_append] at g
        injection g with _ g
        injection g with g _
        exact absurd g (by decide)
      · rw [show opening = '\\' :: 'l' :: "eft(".toList from rfl, xarrow, List.cons_append, List.cons_append,
          List.cons_prefix_cons, List.cons_prefix_cons] at g
        exact absurd g.2.1 (by decide)

theorem pieces_read (w : Bool) (n n' : Node) (h : AllPlain n) (h' : AllPlain n') (r r' : List (List Char))
    (hr : ∀ x t, r = x :: t → ¬ ArrowText x) (hr' : ∀ x t, r' = x :: t → ¬ ArrowText x)
    (heq : pieces w n ++ r = pieces w n' ++ r') : SameDecay w n n' ∧ r = r' := by
  induction n generalizing n' r r' with
  | leaf o =>
    cases n' with
    | leaf o' =>
      simp only [pieces, List.cons_append, List.nil_append] at heq
      injection heq with e1 e2
      exact ⟨(nameOf_iff w o o' (h _ (by simp [objects])).2 (h' _ (by simp [objects])).2).1 e1, e2⟩
    | isobar p' a' b' i' =>
      simp only [pieces, List.cons_append, List.nil_append] at heq
      injection heq with e1 e2
      exact absurd ⟨i', rfl⟩ (hr _ _ e2)
  | isobar p a b i iha ihb =>
    cases n' with
    | leaf o' =>
      simp only [pieces, List.cons_append, List.nil_append] at heq
      injection heq with e1 e2
      exact absurd ⟨i, rfl⟩ (hr' _ _ e2.symm)
    | isobar p' a' b' i' =>
      simp only [pieces, List.cons_append, List.append_assoc] at heq
      injection heq with e1 e2
      injection e2 with e2 e3
      have hb : AllPlain b := fun o ho => h o (by simp [objects, ho])
      have hb' : AllPlain b' := fun o ho => h' o (by simp [objects, ho])
      have head : ∀ {n : Node}, AllPlain n → ∀ r x t, pieces w n ++ r = x :: t → ¬ ArrowText x := by
        intro n hn r x t g
        obtain ⟨y, s, g1, g2⟩ := pieces_head w hn
        rw [g1, List.cons_append] at g
        injection g with g _
        exact g ▸ g2
      obtain ⟨f1, f2⟩ := iha a' (fun o ho => h o (by simp [objects, ho])) (fun o ho => h' o (by simp [objects, ho]))
        _ _ (head hb r) (head hb' r') e3
      obtain ⟨f3, f4⟩ := ihb b' hb hb' r r' hr hr' f2
      have hp := h p (by simp [objects])
      have hp' := h' p' (by simp [objects])
      have n1 := (plainName w p hp.1).noLeft
      have n2 := (plainName w p' hp'.1).noLeft
      have : nameOf w p = nameOf w p' ∧ (IsStateObj p ↔ IsStateObj p') := by
        cases p with
        | state s =>
          cases p' with
          | state s' => exact ⟨e1, ⟨fun _ => ⟨_, rfl⟩, fun _ => ⟨_, rfl⟩⟩⟩
          | particle q' => exact absurd ⟨_, e1.symm⟩ n1
        | particle q =>
          cases p' with
          | state s' => exact absurd ⟨_, e1⟩ n2
          | particle q' =>
            exact ⟨List.append_cancel_left e1, ⟨(by rintro ⟨_, ⟨⟩⟩), (by rintro ⟨_, ⟨⟩⟩)⟩⟩
      exact ⟨⟨(nameOf_iff w p p' hp.2 hp'.2).1 this.1, this.2, renderArrow_inj e2, f1, f3⟩, f4⟩

theorem same_pieces (w : Bool) (n n' : Node) (h : AllPlain n) (h' : AllPlain n') (hs : SameDecay w n n') :
    latexNode w false n = latexNode w false n' := by
  induction n generalizing n' with
  | leaf o =>
    cases n' with
    | leaf o' =>
      exact String.toList_inj.1 ((nameOf_iff w o o' (h _ (by simp [objects])).2 (h' _ (by simp [objects])).2).2 hs)
    | isobar p' a' b' i' => exact hs.elim
  | isobar p a b i iha ihb =>
    cases n' with
    | leaf o' => exact hs.elim
    | isobar p' a' b' i' =>
      obtain ⟨s1, s2, rfl, s4, s5⟩ := hs
      have e1 := String.toList_inj.1 ((nameOf_iff w p p' (h _ (by simp [objects])).2 (h' _ (by simp [objects])).2).2 s1)
      have e2 := iha a' (fun o ho => h o (by simp [objects, ho])) (fun o ho => h' o (by simp [objects, ho])) s4
      have e3 := ihb b' (fun o ho => h o (by simp [objects, ho])) (fun o ho => h' o (by simp [objects, ho])) s5
      cases p with
      | state s =>
        obtain ⟨s', rfl⟩ := s2.1 ⟨_, rfl⟩
        simp only [latexNode, e1, e2, e3]
      | particle q =>
        cases p' with
        | state s' =>
          obtain ⟨_, ⟨⟩⟩ := s2.2 ⟨_, rfl⟩
        | particle q' => simp only [latexNode, e1, e2, e3]

theorem latexNode_iff (w : Bool) (n n' : Node) (h : AllPlain n) (h' : AllPlain n') :
    latexNode w false n = latexNode w false n' ↔ SameDecay w n n' := by
  constructor
  · intro g
    obtain ⟨us, a1, a2, a3⟩ := latexNode_pieces w n
    obtain ⟨us', b1, b2, b3⟩ := latexNode_pieces w n'
    have key : ∀ {xs us : List (List Char)}, List.Forall₂ Closed xs us → (∀ x ∈ xs, ' ' ∉ x ∧ ¬ closing <:+ x) →
        ∀ u ∈ us, ' ' ∉ u := by
      intro xs us f hx
      induction f with
      | nil => simp
      | @cons x u xs us f1 f2 ih =>
        intro v hv
        rcases List.mem_cons.1 hv with rfl | hv
        · obtain ⟨n, rfl⟩ := f1
          rw [List.mem_append]
          rintro (g | g)
          · exact (hx x (by simp)).1 g
          · obtain ⟨l, hl, g⟩ := List.mem_flatten.1 g
            rw [List.eq_of_mem_replicate hl] at g
            exact absurd g (by decide)
        · exact ih (fun y hy => hx y (by simp [hy])) v hv
    have p1 := pieces_plain w h
    have p2 := pieces_plain w h'
    have e := joined_inj (key a2 p1) (key b2 p2) a1 b1 (by rw [← a3, ← b3, g])
    subst e
    have uniq : ∀ {xs ys us : List (List Char)}, List.Forall₂ Closed xs us → List.Forall₂ Closed ys us →
        (∀ x ∈ xs, ' ' ∉ x ∧ ¬ closing <:+ x) → (∀ x ∈ ys, ' ' ∉ x ∧ ¬ closing <:+ x) → xs = ys := by
      intro xs ys us f
      induction f generalizing ys with
      | nil =>
        intro f' _ _
        cases f'
        rfl
      | @cons x u xs us f1 f2 ih =>
        intro f' g1 g2
        cases f' with
        | @cons y _ ys _ f3 f4 =>
          rw [closed_unique f1 f3 (g1 x (by simp)).2 (g2 y (by simp)).2,
            ih f4 (fun z hz => g1 z (by simp [hz])) (fun z hz => g2 z (by simp [hz]))]
    have e := uniq a2 b2 p1 p2
    refine (pieces_read w n n' h h' [] [] ?_ ?_ (by rw [e])).1 <;> rintro x t ⟨⟩
  · exact same_pieces w n n' h h'

end Verif.Io
