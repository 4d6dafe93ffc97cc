import Verif.Model.Text
import Verif.Spec.Text
import Mathlib.Tactic.Ring
import Mathlib.Tactic.FieldSimp
import Mathlib.Tactic.Push

/-! Lemmas about the reading of numbers (C105). -/
namespace Verif.Serialization
open Verif

theorem natOf_append (l : List Char) (c : Char) : natOf (l ++ [c]) = 10 * natOf l + (c.toNat - 48) := by
  simp [natOf]

theorem natOf_eq (l : List Char) : natOf l = decimal l := by
  induction l using List.reverseRecOn with
  | nil => rfl
  | append_singleton l c ih =>
    rw [natOf_append, ih]
    unfold decimal
    rw [List.reverse_append, List.map_append]
    simp only [List.reverse_singleton, List.map_cons, List.map_nil, List.singleton_append, Nat.ofDigits_cons]
    rw [show '0'.toNat = 48 from rfl]
    ring

theorem decimal_append (l m : List Char) : decimal (l ++ m) = decimal l * 10 ^ m.length + decimal m := by
  unfold decimal
  rw [List.reverse_append, List.map_append, Nat.ofDigits_append]
  simp only [List.length_map, List.length_reverse]
  ring

/-- What cannot continue a decimal number. -/
def Stops (r : List Char) : Prop := ∀ c ∈ r.head?, c.isDigit = false ∧ c ≠ '.' ∧ c ≠ 'e' ∧ c ≠ 'E'

theorem span_digits {ds r : List Char} (hd : ∀ c ∈ ds, c.isDigit = true) (hr : ∀ c ∈ r.head?, c.isDigit = false) :
    (ds ++ r).takeWhile Char.isDigit = ds ∧ (ds ++ r).dropWhile Char.isDigit = r := by
  induction ds with
  | nil =>
    cases r with
    | nil => exact ⟨rfl, rfl⟩
    | cons c r =>
      have := hr c (by simp)
      simp [List.takeWhile, List.dropWhile, this]
  | cons c t ih =>
    have h1 := hd c (by simp)
    obtain ⟨i1, i2⟩ := ih fun x hx => hd x (by simp [hx])
    simp only [List.cons_append, List.takeWhile_cons, List.dropWhile_cons, h1, if_true, i1, i2, and_self]

theorem digit_ne {c : Char} (h : c.isDigit = true) : c ≠ '+' ∧ c ≠ '-' ∧ c ≠ '.' ∧ c ≠ 'e' ∧ c ≠ 'E' ∧ c ≠ 'j' ∧
    c ≠ 'J' ∧ c ≠ 'i' ∧ c ≠ '(' ∧ c ≠ '/' ∧ c ≠ ')' ∧ isSpace c = false := by
  have hn : 48 ≤ c.toNat ∧ c.toNat ≤ 57 := by
    simp only [Char.isDigit, Bool.and_eq_true, decide_eq_true_eq, UInt32.le_iff_toNat_le] at h
    exact h
  refine ⟨?_, ?_, ?_, ?_, ?_, ?_, ?_, ?_, ?_, ?_, ?_, ?_⟩ <;> try (rintro rfl; revert hn; decide)
  simp only [isSpace, Bool.or_eq_false_iff, Bool.and_eq_false_iff, decide_eq_false_iff_not, beq_eq_false_iff_ne]
  omega

theorem takeSign_text (s : Sign) {l : List Char} (h : s = .none → ∀ c ∈ l.head?, c ≠ '+' ∧ c ≠ '-') :
    takeSign (s.text ++ l) = (s.value, l) := by
  cases s with
  | plus => rfl
  | minus => rfl
  | none =>
    cases l with
    | nil => rfl
    | cons c t =>
      obtain ⟨h1, h2⟩ := h rfl c rfl
      simp only [Sign.text, List.nil_append, Sign.value]
      unfold takeSign
      split
      · rename_i e; cases e; exact absurd rfl h1
      · rename_i e; cases e; exact absurd rfl h2
      · rfl

theorem takeSign_inv (l : List Char) : ∃ s : Sign, l = s.text ++ (takeSign l).2 ∧ (takeSign l).1 = s.value := by
  unfold takeSign
  split
  · exact ⟨.plus, rfl, rfl⟩
  · exact ⟨.minus, rfl, rfl⟩
  · exact ⟨.none, rfl, rfl⟩

theorem takeExponent_text {e : Option (Char × Sign × List Char)}
    (he : ∀ x ∈ e, (x.1 = 'e' ∨ x.1 = 'E') ∧ x.2.2 ≠ [] ∧ ∀ c ∈ x.2.2, c.isDigit = true) {r : List Char}
    (hr : Stops r) : takeExponent (exponentText e ++ r) = (exponentValue e, r) := by
  cases e with
  | none =>
    cases r with
    | nil => rfl
    | cons c t =>
      obtain ⟨-, -, h3, h4⟩ := hr c rfl
      simp only [exponentText, List.nil_append, exponentValue]
      unfold takeExponent
      simp only
      rw [if_neg (by tauto)]
  | some x =>
    obtain ⟨c, s, ds⟩ := x
    obtain ⟨h1, h2, h3⟩ := he _ rfl
    simp only at h1 h2 h3
    have e1 : takeSign (s.text ++ (ds ++ r)) = (s.value, ds ++ r) := by
      apply takeSign_text
      intro _ x hx
      cases ds with
      | nil => exact absurd rfl h2
      | cons d ds =>
        obtain rfl : d = x := by simpa using hx
        exact ⟨(digit_ne (h3 d (by simp))).1, (digit_ne (h3 d (by simp))).2.1⟩
    obtain ⟨e2, e3⟩ := span_digits h3 (r := r) fun c hc => (hr c hc).1
    simp only [exponentText, List.cons_append, List.append_assoc, exponentValue]
    unfold takeExponent
    simp only
    rw [if_pos h1]
    simp only [e1, e2, e3, if_neg h2, natOf_eq]

theorem takeWhile_digits (l : List Char) : ∀ c ∈ l.takeWhile Char.isDigit, c.isDigit = true := by
  have := List.all_takeWhile (p := Char.isDigit) (l := l)
  exact List.all_eq_true.1 this

theorem takeExponent_inv (l : List Char) : ∃ e : Option (Char × Sign × List Char),
    (∀ x ∈ e, (x.1 = 'e' ∨ x.1 = 'E') ∧ x.2.2 ≠ [] ∧ ∀ c ∈ x.2.2, c.isDigit = true) ∧
    l = exponentText e ++ (takeExponent l).2 ∧ (takeExponent l).1 = exponentValue e := by
  cases l with
  | nil => exact ⟨none, by simp, rfl, rfl⟩
  | cons c t =>
    unfold takeExponent
    simp only
    by_cases h : c = 'e' ∨ c = 'E'
    · rw [if_pos h]
      obtain ⟨s, h1, h2⟩ := takeSign_inv t
      by_cases h3 : (takeSign t).2.takeWhile Char.isDigit = []
      · rw [if_pos h3]
        exact ⟨none, by simp, rfl, rfl⟩
      · rw [if_neg h3]
        refine ⟨some (c, s, (takeSign t).2.takeWhile Char.isDigit), ?_, ?_, ?_⟩
        · intro x hx
          obtain rfl := Option.some.inj hx
          exact ⟨h, h3, takeWhile_digits _⟩
        · simp only [exponentText, List.cons_append, List.append_assoc, List.takeWhile_append_dropWhile]
          rw [← h1]
        · simp only [exponentValue, natOf_eq, h2]
    · rw [if_neg h]
      exact ⟨none, by simp, rfl, rfl⟩

theorem value_eq (s : ℤ) (w f : List Char) (e : ℤ) :
    (s : ℚ) * (decimal (w ++ f) : ℕ) * (10 : ℚ) ^ (e - f.length) =
      s * (decimal w + decimal f / 10 ^ f.length) * 10 ^ e := by
  rw [decimal_append, zpow_sub₀ (by norm_num), zpow_natCast]
  push_cast
  field_simp

/-- A decimal number at the beginning of a text is read. -/
theorem takeFloat_text {a : Literal} (ha : a.Valid) {r : List Char} (hr : Stops r) :
    takeFloat (a.text ++ r) = some (a.value, r) := by
  obtain ⟨s, w, p, f, e⟩ := a
  obtain ⟨h1, h2, h3, h4⟩ := ha
  simp only at h1 h2 h3 h4
  have hw : ∀ c ∈ w, c.isDigit = true := fun c hc => h1 c (by simp [hc])
  have hf : ∀ c ∈ f, c.isDigit = true := fun c hc => h1 c (by simp [hc])
  have he : ∀ c ∈ (exponentText e ++ r).head?, c.isDigit = false ∧ c ≠ '.' := by
    intro c hc
    cases e with
    | none => exact ⟨(hr c hc).1, (hr c hc).2.1⟩
    | some x =>
      obtain ⟨y, s, ds⟩ := x
      have g := (h4 _ rfl).1
      obtain rfl : y = c := by simpa [exponentText] using hc
      simp only at g
      rcases g with rfl | rfl <;> decide
  have e1 : takeSign (s.text ++ (w ++ ((if p then ['.'] else []) ++ (f ++ (exponentText e ++ r))))) =
      (s.value, w ++ ((if p then ['.'] else []) ++ (f ++ (exponentText e ++ r)))) := by
    apply takeSign_text
    intro _ c hc
    cases w with
    | cons d w =>
      obtain rfl : d = c := by simpa using hc
      exact ⟨(digit_ne (hw d (by simp))).1, (digit_ne (hw d (by simp))).2.1⟩
    | nil =>
      cases p with
      | true =>
        obtain rfl : '.' = c := by simpa using hc
        decide
      | false => exact absurd (h3 rfl) (by simpa using h2)
  have e2 : (w ++ ((if p then ['.'] else []) ++ (f ++ (exponentText e ++ r)))).takeWhile Char.isDigit = w ∧
      (w ++ ((if p then ['.'] else []) ++ (f ++ (exponentText e ++ r)))).dropWhile Char.isDigit =
        (if p then ['.'] else []) ++ (f ++ (exponentText e ++ r)) := by
    apply span_digits hw
    intro c hc
    cases p with
    | true =>
      obtain rfl : '.' = c := by simpa using hc
      decide
    | false =>
      rw [h3 rfl] at hc
      exact (he c hc).1
  have e3 : takeFraction ((if p then ['.'] else []) ++ (f ++ (exponentText e ++ r))) = (f, exponentText e ++ r) := by
    cases p with
    | true =>
      obtain ⟨g1, g2⟩ := span_digits hf (r := exponentText e ++ r) fun c hc => (he c hc).1
      change ((f ++ (exponentText e ++ r)).takeWhile Char.isDigit, (f ++ (exponentText e ++ r)).dropWhile Char.isDigit) = _
      rw [g1, g2]
    | false =>
      obtain rfl := h3 rfl
      simp only [List.nil_append, if_false, Bool.false_eq_true]
      unfold takeFraction
      split
      · rename_i heq
        have := he '.' (by rw [heq]; rfl)
        exact absurd rfl this.2
      · rfl
  unfold takeFloat Literal.text
  simp only [List.append_assoc]
  rw [e1]
  simp only
  rw [e2.1, e2.2, e3]
  simp only
  rw [if_neg h2, takeExponent_text h4 hr]
  simp only [natOf_eq]
  rw [value_eq]
  rfl

/-- What is read is a decimal number. -/
theorem takeFloat_inv {l r : List Char} {q : ℚ} (h : takeFloat l = some (q, r)) :
    ∃ a : Literal, a.Valid ∧ l = a.text ++ r ∧ a.value = q := by
  unfold takeFloat at h
  obtain ⟨s, h1, h2⟩ := takeSign_inv l
  simp only at h
  generalize hw : (takeSign l).2.takeWhile Char.isDigit = w at h
  generalize hd : (takeSign l).2.dropWhile Char.isDigit = d at h
  have hwd : (takeSign l).2 = w ++ d := by rw [← hw, ← hd, List.takeWhile_append_dropWhile]
  have hfr : ∃ p : Bool, d = (if p then ['.'] else []) ++ ((takeFraction d).1 ++ (takeFraction d).2) ∧
      (p = false → (takeFraction d).1 = []) ∧ ∀ c ∈ (takeFraction d).1, c.isDigit = true := by
    unfold takeFraction
    split
    · exact ⟨true, by simp [List.takeWhile_append_dropWhile], by simp, takeWhile_digits _⟩
    · exact ⟨false, by simp, by simp, by simp⟩
  obtain ⟨p, p1, p2, p3⟩ := hfr
  generalize hf : (takeFraction d).1 = f at *
  generalize hg : (takeFraction d).2 = g at *
  split_ifs at h with h0
  obtain ⟨e, e1, e2, e3⟩ := takeExponent_inv g
  injection h with h
  injection h with hq hr
  refine ⟨⟨s, w, p, f, e⟩, ⟨?_, h0, p2, e1⟩, ?_, ?_⟩
  · intro c hc
    rcases List.mem_append.1 hc with hc | hc
    · rw [← hw] at hc; exact takeWhile_digits _ c hc
    · exact p3 c hc
  · rw [h1, hwd, p1, e2, hr]
    simp [Literal.text]
  · rw [← hq, e3, h2, natOf_eq, value_eq]
    rfl

/-- The replacement of the imaginary unit. -/
def unitJ (c : Char) : Char := if c = 'i' then 'j' else c

theorem unitJ_eq {c d : Char} (h : unitJ c = d) (hd : d ≠ 'j') : c = d := by
  unfold unitJ at h
  split_ifs at h
  · exact absurd h.symm hd
  · exact h

theorem unitJ_of_ne {c : Char} (h : c ≠ 'i') : unitJ c = c := if_neg h

theorem unitJ_space (c : Char) : isSpace (unitJ c) = isSpace c := by
  unfold unitJ
  split_ifs with h
  · rw [h]; rfl
  · rfl

theorem literal_chars {a : Literal} (ha : a.Valid) : ∀ c ∈ a.text, c.isDigit = true ∨ c = '+' ∨ c = '-' ∨ c = '.' ∨
    c = 'e' ∨ c = 'E' := by
  have hsign : ∀ (s : Sign) (c : Char), c ∈ s.text → c = '+' ∨ c = '-' := by
    intro s c hc
    cases s <;> simp [Sign.text] at hc <;> simp [hc]
  intro c hc
  simp only [Literal.text, List.mem_append] at hc
  rcases hc with (((hc | hc) | hc) | hc) | hc
  · rcases hsign _ _ hc with h | h <;> simp [h]
  · exact .inl (ha.digits c (List.mem_append_left _ hc))
  · split_ifs at hc <;> simp at hc
    simp [hc]
  · exact .inl (ha.digits c (List.mem_append_right _ hc))
  · cases he : a.exponent with
    | none => rw [he] at hc; cases hc
    | some x =>
      obtain ⟨d, s, ds⟩ := x
      obtain ⟨h1, -, h3⟩ := ha.exponent _ he
      rw [he] at hc
      rcases List.mem_cons.1 hc with rfl | hc
      · simp only at h1
        rcases h1 with h | h <;> simp [h]
      · rcases List.mem_append.1 hc with hc | hc
        · rcases hsign _ _ hc with h | h <;> simp [h]
        · exact .inl (h3 c hc)

theorem literal_not {a : Literal} (ha : a.Valid) : ∀ c ∈ a.text,
    c ≠ 'i' ∧ c ≠ 'j' ∧ c ≠ 'J' ∧ c ≠ '(' ∧ c ≠ ')' ∧ c ≠ '/' ∧ isSpace c = false := by
  intro c hc
  rcases literal_chars ha c hc with h | rfl | rfl | rfl | rfl | rfl
  · have := digit_ne h
    tauto
  all_goals decide

theorem map_literal {a : Literal} (ha : a.Valid) : a.text.map unitJ = a.text := by
  conv_rhs => rw [← List.map_id a.text]
  exact List.map_congr_left fun c hc => unitJ_of_ne (literal_not ha c hc).1

theorem of_map_literal {a : Literal} (ha : a.Valid) {l : List Char} (h : l.map unitJ = a.text) : l = a.text := by
  have : ∀ (l m : List Char), (∀ c ∈ m, c ≠ 'j') → l.map unitJ = m → l = m := by
    intro l
    induction l with
    | nil => intro m _ h; exact h
    | cons c t ih =>
      intro m hm h
      cases m with
      | nil => cases h
      | cons d m =>
        injection h with h1 h2
        rw [unitJ_eq h1 (hm d (by simp)), ih m (fun c hc => hm c (by simp [hc])) h2]
  exact this l _ (fun c hc => (literal_not ha c hc).2.1) h

theorem literal_cons {a : Literal} (ha : a.Valid) : ∃ c t, a.text = c :: t ∧
    (a.sign = .none → c ≠ '+' ∧ c ≠ '-') := by
  obtain ⟨s, w, p, f, e⟩ := a
  obtain ⟨h1, h2, h3, -⟩ := ha
  simp only at h1 h2 h3
  cases s with
  | plus => exact ⟨'+', _, rfl, by simp⟩
  | minus => exact ⟨'-', _, rfl, by simp⟩
  | none =>
    cases w with
    | cons d w =>
      refine ⟨d, _, rfl, fun _ => ?_⟩
      have := digit_ne (h1 d (by simp))
      exact ⟨this.1, this.2.1⟩
    | nil =>
      cases p with
      | true => exact ⟨'.', _, rfl, fun _ => by decide⟩
      | false => exact absurd (h3 rfl) (by simpa using h2)

theorem takeFloat_map {l r : List Char} {q : ℚ} (h : takeFloat (l.map unitJ) = some (q, r)) :
    ∃ (a : Literal) (m : List Char), a.Valid ∧ l = a.text ++ m ∧ m.map unitJ = r ∧ a.value = q := by
  obtain ⟨a, ha, h1, h2⟩ := takeFloat_inv h
  obtain ⟨l1, l2, rfl, h3, h4⟩ := List.map_eq_append_iff.1 h1
  exact ⟨a, l2, ha, by rw [of_map_literal ha h3], h4, h2⟩

theorem takeUnit_map {l r : List Char} (h : takeUnit (l.map unitJ) = some r) :
    ∃ u m, ImaginaryUnit u ∧ l = u :: m ∧ m.map unitJ = r := by
  unfold takeUnit at h
  split at h
  · rename_i t heq
    obtain ⟨u, m, rfl, h1, h2⟩ := List.map_eq_cons_iff.1 heq
    cases h
    refine ⟨u, m, ?_, rfl, h2⟩
    unfold unitJ at h1
    split_ifs at h1 with h3
    · exact .inl h3
    · exact .inr (.inl h1)
  · rename_i t heq
    obtain ⟨u, m, rfl, h1, h2⟩ := List.map_eq_cons_iff.1 heq
    cases h
    exact ⟨u, m, .inr (.inr (unitJ_eq h1 (by decide))), rfl, h2⟩
  · cases h

theorem takeUnit_unit {u : Char} (hu : ImaginaryUnit u) (r : List Char) : takeUnit (unitJ u :: r) = some r := by
  rcases hu with rfl | rfl | rfl <;> rfl

theorem unit_stops {u : Char} (hu : ImaginaryUnit u) (r : List Char) : Stops (unitJ u :: r) := by
  intro c hc
  obtain rfl : unitJ u = c := by simpa using hc
  rcases hu with rfl | rfl | rfl <;> decide

theorem sign_cases {s : Sign} (hs : s ≠ .none) : ∃ c, s.text = [c] ∧ (c = '+' ∨ c = '-') ∧
    (if c = '+' then (1 : ℚ) else -1) = s.value ∧ unitJ c = c := by
  cases s with
  | none => exact absurd rfl hs
  | plus => exact ⟨'+', rfl, .inl rfl, rfl, rfl⟩
  | minus => exact ⟨'-', rfl, .inr rfl, by rw [if_neg (by decide)]; norm_num [Sign.value], rfl⟩

theorem sign_of {c : Char} (h : c = '+' ∨ c = '-') : ∃ s : Sign, s ≠ .none ∧ s.text = [c] ∧
    (if c = '+' then (1 : ℚ) else -1) = s.value := by
  rcases h with rfl | rfl
  · exact ⟨.plus, by simp, rfl, rfl⟩
  · exact ⟨.minus, by simp, rfl, by rw [if_neg (by decide)]; norm_num [Sign.value]⟩

theorem takeFloat_unit {c u : Char} (hc : c = '+' ∨ c = '-') (hu : ImaginaryUnit u) (r : List Char) :
    takeFloat (c :: unitJ u :: r) = none ∧ takeFloat (unitJ u :: r) = none := by
  rcases hc with rfl | rfl <;> rcases hu with rfl | rfl | rfl <;> exact ⟨rfl, rfl⟩

/-- What can follow a complex number. -/
def StopsC (r : List Char) : Prop := ∀ c ∈ r.head?, isSpace c = true ∨ c = ')'

theorem stopsC {r : List Char} (h : StopsC r) : Stops r ∧ ∀ c ∈ r.head?, c ≠ '+' ∧ c ≠ '-' ∧ c ≠ 'j' ∧ c ≠ 'J' := by
  have key : ∀ c : Char, isSpace c = true ∨ c = ')' → c.isDigit = false ∧ c ≠ '.' ∧ c ≠ 'e' ∧ c ≠ 'E' ∧ c ≠ '+' ∧
      c ≠ '-' ∧ c ≠ 'j' ∧ c ≠ 'J' := by
    rintro c (h | rfl)
    · refine ⟨?_, ?_, ?_, ?_, ?_, ?_, ?_, ?_⟩
      · cases hd : c.isDigit with
        | false => rfl
        | true => rw [(digit_ne hd).2.2.2.2.2.2.2.2.2.2.2] at h; cases h
      all_goals rintro rfl; revert h; decide
    · decide
  exact ⟨fun c hc => by have := key c (h c hc); tauto, fun c hc => by have := key c (h c hc); tauto⟩

theorem takeUnit_none {r : List Char} (h : ∀ c ∈ r.head?, c ≠ 'j' ∧ c ≠ 'J') : takeUnit r = none := by
  unfold takeUnit
  split
  · exact absurd rfl (h 'j' rfl).1
  · exact absurd rfl (h 'J' rfl).2
  · rfl

theorem takeComplex_text {core r : List Char} {x y : ℚ} (h : ComplexText core x y) (hr : StopsC r) :
    takeComplex (core.map unitJ ++ r) = some ((x, y), r) := by
  obtain ⟨hs, hn⟩ := stopsC hr
  cases h with
  | real a ha =>
    rw [map_literal ha]
    unfold takeComplex
    rw [takeFloat_text ha hs]
    cases r with
    | nil => rfl
    | cons c t =>
      obtain ⟨n1, n2, n3, n4⟩ := hn c rfl
      simp only
      rw [if_neg (by tauto), takeUnit_none (by rintro d ⟨⟩; exact ⟨n3, n4⟩)]
  | imaginary a ha u hu =>
    rw [List.map_append, map_literal ha, List.append_assoc]
    change takeComplex (a.text ++ (unitJ u :: r)) = _
    unfold takeComplex
    rw [takeFloat_text ha (unit_stops hu r)]
    simp only
    rw [if_neg (by rcases hu with rfl | rfl | rfl <;> decide), takeUnit_unit hu]
  | both a b ha hb hsb u hu =>
    rw [List.map_append, List.map_append, map_literal ha, map_literal hb, List.append_assoc, List.append_assoc]
    change takeComplex (a.text ++ (b.text ++ (unitJ u :: r))) = _
    have hb' := takeFloat_text hb (unit_stops hu r)
    obtain ⟨c, t, e, hc⟩ : ∃ c t, b.text = c :: t ∧ (c = '+' ∨ c = '-') := by
      unfold Literal.text
      cases hs : b.sign with
      | none => exact absurd hs hsb
      | plus => exact ⟨'+', _, rfl, .inl rfl⟩
      | minus => exact ⟨'-', _, rfl, .inr rfl⟩
    rw [e] at hb' ⊢
    have hstop : Stops (c :: t ++ (unitJ u :: r)) := by
      intro d hd
      obtain rfl : c = d := by simpa using hd
      rcases hc with rfl | rfl <;> decide
    unfold takeComplex
    rw [takeFloat_text ha hstop]
    simp only [List.cons_append] at hb' ⊢
    rw [if_pos hc, hb']
    simp only [takeUnit_unit hu, Option.map_some]
  | plusUnit a ha s hsn u hu =>
    obtain ⟨c, e, hc, hv, hcj⟩ := sign_cases hsn
    rw [List.map_append, List.map_append, map_literal ha, e, List.append_assoc]
    change takeComplex (a.text ++ (unitJ c :: unitJ u :: r)) = _
    rw [hcj]
    have hstop : Stops (c :: unitJ u :: r) := by
      intro d hd
      obtain rfl : c = d := by simpa using hd
      rcases hc with rfl | rfl <;> decide
    unfold takeComplex
    rw [takeFloat_text ha hstop]
    simp only
    rw [if_pos hc, (takeFloat_unit hc hu r).1]
    simp only [takeUnit_unit hu, Option.map_some, hv]
  | unit s u hu =>
    by_cases hsn : s = .none
    · subst hsn
      change takeComplex (unitJ u :: r) = _
      unfold takeComplex
      rw [(takeFloat_unit (.inl rfl) hu r).2]
      simp only
      rw [if_neg (by rcases hu with rfl | rfl | rfl <;> decide), takeUnit_unit hu]
      rfl
    · obtain ⟨c, e, hc, hv, hcj⟩ := sign_cases hsn
      rw [List.map_append, e]
      change takeComplex (unitJ c :: unitJ u :: r) = _
      rw [hcj]
      unfold takeComplex
      rw [(takeFloat_unit hc hu r).1]
      simp only
      rw [if_pos hc, takeUnit_unit hu]
      simp only [Option.map_some, hv]

theorem takeComplex_inv {l r : List Char} {x y : ℚ} (h : takeComplex (l.map unitJ) = some ((x, y), r)) :
    ∃ core m, ComplexText core x y ∧ l = core ++ m ∧ m.map unitJ = r := by
  unfold takeComplex at h
  split at h
  · rename_i z hf
    obtain ⟨a, m, ha, e1, e2, rfl⟩ := takeFloat_map hf
    simp only [Option.some.injEq, Prod.mk.injEq] at h
    obtain ⟨⟨rfl, rfl⟩, rfl⟩ := h
    exact ⟨a.text, m, .real a ha, e1, e2⟩
  · rename_i z c t hf
    obtain ⟨a, m, ha, e1, e2, rfl⟩ := takeFloat_map hf
    by_cases hc : c = '+' ∨ c = '-'
    · rw [if_pos hc] at h
      split at h
      · rename_i y' u hf2
        rw [← e2] at hf2
        obtain ⟨b, m2, hb, f1, f2, rfl⟩ := takeFloat_map hf2
        obtain ⟨r', hu, hr⟩ := Option.map_eq_some_iff.1 h
        rw [← f2] at hu
        obtain ⟨u, m3, hu1, g1, g2⟩ := takeUnit_map hu
        simp only [Prod.mk.injEq] at hr
        obtain ⟨⟨rfl, rfl⟩, rfl⟩ := hr
        refine ⟨_, m3, .both a b ha hb ?_ u hu1, by simp [e1, f1, g1], g2⟩
        intro hsn
        obtain ⟨d, t', k1, k2⟩ := literal_cons hb
        rw [f1, k1] at e2
        simp only [List.cons_append, List.map_cons, List.cons.injEq] at e2
        obtain ⟨k3, k4⟩ := k2 hsn
        rcases hc with rfl | rfl
        · exact k3 (unitJ_eq e2.1 (by decide))
        · exact k4 (unitJ_eq e2.1 (by decide))
      · obtain ⟨r', hu, hr⟩ := Option.map_eq_some_iff.1 h
        obtain ⟨c0, m2, rfl, h1, h2⟩ := List.map_eq_cons_iff.1 e2
        rw [← h2] at hu
        obtain ⟨u, m3, hu1, rfl, g2⟩ := takeUnit_map hu
        simp only [Prod.mk.injEq] at hr
        obtain ⟨⟨rfl, rfl⟩, rfl⟩ := hr
        obtain ⟨s, k1, k2, k3⟩ := sign_of hc
        have : c0 = c := unitJ_eq h1 (by rcases hc with rfl | rfl <;> decide)
        subst this
        rw [k3]
        exact ⟨_, m3, .plusUnit a ha s k1 u hu1, by simp [e1, k2], g2⟩
    · rw [if_neg hc] at h
      split at h
      · rename_i r' hu
        rw [← e2] at hu
        obtain ⟨u, m3, hu1, rfl, g2⟩ := takeUnit_map hu
        simp only [Option.some.injEq, Prod.mk.injEq] at h
        obtain ⟨⟨rfl, rfl⟩, rfl⟩ := h
        exact ⟨_, m3, .imaginary a ha u hu1, by simp [e1], g2⟩
      · simp only [Option.some.injEq, Prod.mk.injEq] at h
        obtain ⟨⟨rfl, rfl⟩, rfl⟩ := h
        exact ⟨a.text, m, .real a ha, e1, e2⟩
  · split at h
    · cases h
    · rename_i c t heq
      obtain ⟨c0, m, rfl, h1, h2⟩ := List.map_eq_cons_iff.1 heq
      by_cases hc : c = '+' ∨ c = '-'
      · rw [if_pos hc] at h
        obtain ⟨r', hu, hr⟩ := Option.map_eq_some_iff.1 h
        rw [← h2] at hu
        obtain ⟨u, m3, hu1, rfl, g2⟩ := takeUnit_map hu
        simp only [Prod.mk.injEq] at hr
        obtain ⟨⟨rfl, rfl⟩, rfl⟩ := hr
        obtain ⟨s, k1, k2, k3⟩ := sign_of hc
        have : c0 = c := unitJ_eq h1 (by rcases hc with rfl | rfl <;> decide)
        subst this
        rw [k3]
        exact ⟨_, m3, .unit s u hu1, by simp [k2], g2⟩
      · rw [if_neg hc] at h
        obtain ⟨r', hu, hr⟩ := Option.map_eq_some_iff.1 h
        rw [← heq] at hu
        obtain ⟨u, m3, hu1, k, g2⟩ := takeUnit_map hu
        simp only [Prod.mk.injEq] at hr
        obtain ⟨⟨rfl, rfl⟩, rfl⟩ := hr
        exact ⟨[u], m3, .unit .none u hu1, by simp [k], g2⟩

/-! ### Spaces -/

theorem skipSpace_text {v m : List Char} (hv : ∀ c ∈ v, isSpace c = true) (hm : ∀ c ∈ m.head?, isSpace c = false) :
    skipSpace (v ++ m) = m := by
  induction v with
  | nil =>
    cases m with
    | nil => rfl
    | cons c t =>
      have := hm c rfl
      simp [skipSpace, List.dropWhile, this]
  | cons c v ih =>
    have h1 := hv c (by simp)
    have := ih fun x hx => hv x (by simp [hx])
    simpa [skipSpace, List.dropWhile_cons, h1] using this

theorem skipSpace_inv (l : List Char) : ∃ v, (∀ c ∈ v, isSpace c = true) ∧ l = v ++ skipSpace l :=
  ⟨l.takeWhile isSpace, List.all_eq_true.1 (List.all_takeWhile (p := isSpace) (l := l)),
    (List.takeWhile_append_dropWhile (p := isSpace)).symm⟩

theorem skipSpace_map (l : List Char) : skipSpace (l.map unitJ) = (skipSpace l).map unitJ := by
  unfold skipSpace
  rw [List.dropWhile_map]
  congr 1
  congr 1
  funext c
  exact unitJ_space c

theorem dropWhile_nil {p : Char → Bool} {l : List Char} : l.dropWhile p = [] ↔ ∀ c ∈ l, p c = true := by
  induction l with
  | nil => simp
  | cons c t ih =>
    rw [List.dropWhile_cons]
    cases h : p c with
    | true => simp [ih, h]
    | false => simp [h]

theorem skipSpace_nil {v : List Char} : skipSpace v = [] ↔ ∀ c ∈ v, isSpace c = true := by
  unfold skipSpace
  exact dropWhile_nil

theorem white_space {v : List Char} (h : White v) : ∀ c ∈ v, isSpace c = true := by
  intro c hc
  obtain ⟨h1, h2⟩ := h c hc
  simp [isSpace, h1, h2]

theorem space_white {v : List Char} (h : ∀ c ∈ v, isSpace c = true) (hs : ∀ c ∈ v, c ≠ ' ') : White v := by
  intro c hc
  have h1 := h c hc
  have h2 : c.toNat ≠ 32 := by
    intro e
    exact hs c hc (Char.toNat_inj.1 e)
  simp only [isSpace, Bool.or_eq_true, Bool.and_eq_true, decide_eq_true_eq, beq_iff_eq] at h1
  omega

theorem complex_cons {core : List Char} {x y : ℚ} (h : ComplexText core x y) : ∃ c t, core = c :: t ∧
    isSpace c = false ∧ c ≠ '(' := by
  have lit : ∀ {a : Literal}, a.Valid → ∀ m, ∃ c t, a.text ++ m = c :: t ∧ isSpace c = false ∧ c ≠ '(' := by
    intro a ha m
    obtain ⟨c, t, e, -⟩ := literal_cons ha
    have := literal_not ha c (by rw [e]; simp)
    exact ⟨c, t ++ m, by rw [e]; rfl, by tauto, by tauto⟩
  cases h with
  | real a ha => simpa using lit ha []
  | imaginary a ha u hu => exact lit ha _
  | both a b ha hb hs u hu => exact lit ha _
  | plusUnit a ha s hs u hu => exact lit ha _
  | unit s u hu =>
    cases s with
    | plus => exact ⟨'+', _, rfl, by decide⟩
    | minus => exact ⟨'-', _, rfl, by decide⟩
    | none => exact ⟨u, [], rfl, by rcases hu with rfl | rfl | rfl <;> decide⟩

/-- A complex number between spaces, possibly in brackets. -/
theorem complexOf_iff {l : List Char} (hl : ∀ c ∈ l, c ≠ ' ') {x y : ℚ} : complexOf (l.map unitJ) = .ok (x, y) ↔
    ∃ core v w, ComplexText core x y ∧ White v ∧ White w ∧ (l = v ++ (core ++ w) ∨
      ∃ v' w', White v' ∧ White w' ∧ l = v ++ ('(' :: (v' ++ (core ++ (w' ++ (')' :: w)))))) := by
  constructor
  · intro h
    unfold complexOf at h
    rw [skipSpace_map] at h
    obtain ⟨v, hv, e⟩ := skipSpace_inv l
    have hl2 : ∀ c ∈ v ++ skipSpace l, c ≠ ' ' := by rw [← e]; exact hl
    generalize skipSpace l = m at h e hl2
    split at h
    · rename_i t heq
      obtain ⟨c0, t0, rfl, k1, k2⟩ := List.map_eq_cons_iff.1 heq
      obtain rfl : c0 = '(' := unitJ_eq k1 (by decide)
      rw [← k2, skipSpace_map] at h
      obtain ⟨v', hv', e'⟩ := skipSpace_inv t0
      split at h
      · cases h
      · rename_i z r hz
        obtain ⟨core, m, hc, e2, e3⟩ := takeComplex_inv (x := z.1) (y := z.2) hz
        rw [← e3, skipSpace_map] at h
        obtain ⟨w', hw', e4⟩ := skipSpace_inv m
        split at h
        · rename_i u heq2
          obtain ⟨d0, u0, k3, k4, k5⟩ := List.map_eq_cons_iff.1 heq2
          obtain rfl : d0 = ')' := unitJ_eq k4 (by decide)
          rw [← k5, skipSpace_map] at h
          split_ifs at h with hu
          cases h
          rw [List.map_eq_nil_iff, skipSpace_nil] at hu
          rw [e2, e4, k3] at e'
          rw [e'] at e hl2
          refine ⟨core, v, u0, hc, space_white hv ?_, space_white hu ?_, .inr ⟨v', w', space_white hv' ?_,
            space_white hw' ?_, e⟩⟩ <;> intro c hc <;> apply hl2 <;> simp [hc]
        · cases h
    · split at h
      · cases h
      · rename_i z r hz
        obtain ⟨core, m', hc, e2, e3⟩ := takeComplex_inv (x := z.1) (y := z.2) hz
        rw [← e3, skipSpace_map] at h
        split_ifs at h with hu
        cases h
        rw [List.map_eq_nil_iff, skipSpace_nil] at hu
        rw [e2] at e hl2
        refine ⟨core, v, m', hc, space_white hv ?_, space_white hu ?_, .inl e⟩ <;> intro c hc <;> apply hl2 <;> simp [hc]
  · rintro ⟨core, v, w, hc, hv, hw, h⟩
    obtain ⟨c, t, e, s1, s2⟩ := complex_cons hc
    have hmap : ∀ {w : List Char}, White w → ∀ c ∈ w.map unitJ, isSpace c = true := by
      intro w hw c hc
      obtain ⟨d, hd, rfl⟩ := List.mem_map.1 hc
      rw [unitJ_space]
      exact white_space hw d hd
    rcases h with rfl | ⟨v', w', hv', hw', rfl⟩
    · unfold complexOf
      rw [skipSpace_map, skipSpace_text (white_space hv) (by rw [e]; rintro d ⟨⟩; exact s1)]
      have h2 : takeComplex ((core ++ w).map unitJ) = some ((x, y), w.map unitJ) := by
        rw [List.map_append]
        apply takeComplex_text hc
        intro d hd
        exact .inl (hmap hw d (List.mem_of_mem_head? hd))
      split
      · rename_i u heq
        rw [e] at heq
        injection heq with heq _
        exact absurd (unitJ_eq heq (by decide)) s2
      · rw [h2]
        simp only
        rw [if_pos (skipSpace_nil.2 (hmap hw))]
    · have h1 : skipSpace ((v ++ '(' :: (v' ++ (core ++ (w' ++ ')' :: w)))).map unitJ) =
          '(' :: (v' ++ (core ++ (w' ++ ')' :: w))).map unitJ := by
        rw [skipSpace_map, skipSpace_text (white_space hv) (by rintro d ⟨⟩; decide)]
        rfl
      have h2 : skipSpace ((v' ++ (core ++ (w' ++ ')' :: w))).map unitJ) =
          core.map unitJ ++ (w' ++ ')' :: w).map unitJ := by
        rw [skipSpace_map, skipSpace_text (white_space hv') (by rw [e]; rintro d ⟨⟩; exact s1), List.map_append]
      have h3 : takeComplex (core.map unitJ ++ (w' ++ ')' :: w).map unitJ) =
          some ((x, y), (w' ++ ')' :: w).map unitJ) := by
        apply takeComplex_text hc
        intro d hd
        cases w' with
        | nil =>
          obtain rfl : unitJ ')' = d := by simpa using hd
          exact .inr rfl
        | cons a w' =>
          obtain rfl : unitJ a = d := by simpa using hd
          exact .inl (hmap hw' _ (by simp))
      have h4 : skipSpace ((w' ++ ')' :: w).map unitJ) = ')' :: w.map unitJ := by
        rw [skipSpace_map, skipSpace_text (white_space hw') (by rintro d ⟨⟩; decide)]
        rfl
      unfold complexOf
      rw [h1]
      simp only
      rw [h2, h3]
      simp only
      rw [h4]
      simp only
      rw [if_pos (skipSpace_nil.2 (hmap hw))]

theorem fractionOf_iff {l : List Char} {q : ℚ} : fractionOf l = some q ↔
    ∃ (a : Literal) (v w : List Char), a.Valid ∧ (∀ c ∈ v ++ w, isSpace c = true) ∧ l = v ++ (a.text ++ w) ∧ a.value = q := by
  constructor
  · intro h
    unfold fractionOf at h
    obtain ⟨v, hv, e⟩ := skipSpace_inv l
    split at h
    · cases h
    · rename_i q' r hq
      split_ifs at h with hr
      cases h
      obtain ⟨a, ha, e2, e3⟩ := takeFloat_inv hq
      rw [skipSpace_nil] at hr
      refine ⟨a, v, r, ha, ?_, by rw [← e2]; exact e, e3⟩
      intro c hc
      rcases List.mem_append.1 hc with hc | hc
      · exact hv c hc
      · exact hr c hc
  · rintro ⟨a, v, w, ha, hs, rfl, rfl⟩
    obtain ⟨c, t, e, -⟩ := literal_cons ha
    have hw : ∀ c ∈ w, isSpace c = true := fun c hc => hs c (by simp [hc])
    unfold fractionOf
    rw [skipSpace_text (fun c hc => hs c (by simp [hc])) (by
      rw [e]; rintro d ⟨⟩
      have := literal_not ha c (by rw [e]; simp)
      tauto), takeFloat_text ha (stopsC fun c hc => .inl (hw c (List.mem_of_mem_head? hc))).1]
    simp only
    rw [if_pos (skipSpace_nil.2 hw)]

theorem split_slash {p q : List Char} (hp : ∀ c ∈ p, c ≠ '/') :
    (p ++ '/' :: q).takeWhile (· ≠ '/') = p ∧ (p ++ '/' :: q).dropWhile (· ≠ '/') = '/' :: q := by
  induction p with
  | nil => simp
  | cons c t ih =>
    obtain ⟨i1, i2⟩ := ih fun x hx => hp x (by simp [hx])
    have := hp c (by simp)
    simp only [List.cons_append, List.takeWhile_cons, List.dropWhile_cons]
    simp only [this, ne_eq, not_false_eq_true, decide_true, if_true, List.cons.injEq, true_and]
    exact ⟨i1, i2⟩

end Verif.Serialization
