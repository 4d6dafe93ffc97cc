import Verif.Proofs.Text
import Verif.Proofs.Serialization
import Mathlib.Algebra.Order.Floor.Ring
import Mathlib.Tactic.Linarith

/-! Property C105: numbers in the texts of a serialized model. -/
namespace Verif.Serialization
open Verif

/-- C105: a text is read as a weight exactly if it denotes a complex number, and the weight is that number. -/
theorem C105_weight (t : String) (x y : ℚ) : readWeight (.text t) = .ok (x, y) ↔ WeightText t x y :=
  complexOf_iff fun c hc => by simpa using (List.mem_filter.1 hc).2

/-- C105: otherwise a `ValueError` is raised. -/
theorem C105_weight_error (t : String) (h : ¬ ∃ x y, WeightText t x y) : readWeight (.text t) = .error .valueError := by
  cases hr : readWeight (.text t) with
  | ok z => exact absurd ⟨z.1, z.2, (C105_weight t z.1 z.2).1 hr⟩ h
  | error e =>
    unfold readWeight complexOf at hr
    repeat' split at hr
    all_goals first | rfl | (cases hr; done) | (cases hr; rfl)

/-- C105: a text is read as a spin or helicity exactly if it denotes a decimal number or a fraction of two. -/
theorem C105_rational (t : String) (q : ℚ) : readRational (.text t) = .ok q ↔ RationalText t q := by
  have hl : ∀ c ∈ t.toList.filter (· ≠ ' '), c ≠ ' ' := fun c hc => by simpa using (List.mem_filter.1 hc).2
  have white : ∀ {v : List Char}, White v → ∀ c ∈ v, c ≠ '/' := by
    rintro v hv c hc rfl
    have := hv _ hc
    revert this
    decide
  constructor
  · intro h
    unfold readRational at h
    simp only at h
    generalize hL : t.toList.filter (· ≠ ' ') = l at h hl
    split_ifs at h with hcount
    split at h
    · split at h
      · rename_i q' hq
        cases h
        obtain ⟨a, v, w, ha, hs, rfl, rfl⟩ := fractionOf_iff.1 hq
        refine .number a v w ha (space_white (fun c hc => hs c (by simp [hc])) fun c hc => hl c (by simp [hc]))
          (space_white (fun c hc => hs c (by simp [hc])) fun c hc => hl c (by simp [hc])) hL
      · cases h
    · rename_i c den hdrop
      split at h
      · rename_i a b ha hb
        split_ifs at h with h0
        cases h
        have hc : c = '/' := by
          have := List.head?_dropWhile_not (p := fun c : Char => decide (c ≠ '/')) (l := l)
          rw [hdrop] at this
          simpa using this
        subst hc
        have hsplit : l = l.takeWhile (· ≠ '/') ++ '/' :: den := by
          rw [← hdrop, List.takeWhile_append_dropWhile]
        generalize l.takeWhile (· ≠ '/') = num at ha hsplit
        obtain ⟨a, v, w, va, hs, rfl, rfl⟩ := fractionOf_iff.1 ha
        obtain ⟨b, v', w', vb, hs', rfl, rfl⟩ := fractionOf_iff.1 hb
        rw [hsplit] at hL hl
        refine .fraction a b v w v' w' va vb h0 (space_white (fun c hc => hs c (by simp [hc])) ?_)
          (space_white (fun c hc => hs c (by simp [hc])) ?_) (space_white (fun c hc => hs' c (by simp [hc])) ?_)
          (space_white (fun c hc => hs' c (by simp [hc])) ?_) (by rw [hL]; simp) <;>
          intro c hc <;> apply hl <;> simp [hc]
      · cases h
  · intro h
    cases h with
    | number a v w ha hv hw ht =>
      have hno : ∀ c ∈ t.toList.filter (· ≠ ' '), c ≠ '/' := by
        rw [ht]
        intro c hc
        simp only [List.mem_append] at hc
        rcases hc with hc | hc | hc
        · exact white hv c hc
        · exact (literal_not ha c hc).2.2.2.2.2.1
        · exact white hw c hc
      unfold readRational
      simp only
      rw [if_neg (by rw [List.count_eq_zero.2 fun hm => hno _ hm rfl]; simp),
        dropWhile_nil.2 fun c hc => by simpa using hno c hc]
      simp only
      rw [fractionOf_iff.2 ⟨a, v, w, ha, by
        intro c hc
        rcases List.mem_append.1 hc with hc | hc
        · exact white_space hv c hc
        · exact white_space hw c hc, ht, rfl⟩]
    | fraction a b v w v' w' ha hb h0 hv hw hv' hw' ht =>
      have h1 : ∀ c ∈ v ++ (a.text ++ w), c ≠ '/' := by
        intro c hc
        simp only [List.mem_append] at hc
        rcases hc with hc | hc | hc
        · exact white hv c hc
        · exact (literal_not ha c hc).2.2.2.2.2.1
        · exact white hw c hc
      have h2 : ∀ c ∈ v' ++ (b.text ++ w'), c ≠ '/' := by
        intro c hc
        simp only [List.mem_append] at hc
        rcases hc with hc | hc | hc
        · exact white hv' c hc
        · exact (literal_not hb c hc).2.2.2.2.2.1
        · exact white hw' c hc
      have ht' : t.toList.filter (· ≠ ' ') = (v ++ (a.text ++ w)) ++ '/' :: (v' ++ (b.text ++ w')) := by
        rw [ht]; simp
      have hcount : (t.toList.filter (· ≠ ' ')).count '/' = 1 := by
        rw [ht', List.count_append, List.count_cons, List.count_eq_zero.2 fun hm => h1 _ hm rfl,
          List.count_eq_zero.2 fun hm => h2 _ hm rfl]
        simp
      unfold readRational
      simp only
      rw [if_neg (by rw [hcount]; simp)]
      obtain ⟨s1, s2⟩ := split_slash (q := v' ++ (b.text ++ w')) h1
      rw [ht', s1, s2]
      simp only
      rw [fractionOf_iff.2 ⟨a, v, w, ha, by
          intro c hc
          rcases List.mem_append.1 hc with hc | hc
          · exact white_space hv c hc
          · exact white_space hw c hc, rfl, rfl⟩,
        fractionOf_iff.2 ⟨b, v', w', hb, by
          intro c hc
          rcases List.mem_append.1 hc with hc | hc
          · exact white_space hv' c hc
          · exact white_space hw' c hc, rfl, rfl⟩]
      simp only
      rw [if_neg h0]

/-- C105: a text is read as an integer exactly if it consists of digits with an optional sign. -/
theorem C105_integer (t : String) (n : ℤ) : readInt (.text t) = .ok n ↔ IntegerText t n := by
  have space : ∀ c : Char, isSpace c = true ↔ c = ' ' ∨ 9 ≤ c.toNat ∧ c.toNat ≤ 13 := by
    intro c
    simp only [isSpace, Bool.or_eq_true, Bool.and_eq_true, decide_eq_true_eq, beq_iff_eq]
    constructor
    · rintro (h | h)
      · exact .inr h
      · exact .inl (Char.toNat_inj.1 h)
    · rintro (rfl | h)
      · exact .inr rfl
      · exact .inl h
  constructor
  · intro h
    unfold readInt at h
    simp only at h
    obtain ⟨v, hv, e⟩ := skipSpace_inv t.toList
    obtain ⟨s, e1, e2⟩ := takeSign_inv (skipSpace t.toList)
    split_ifs at h with hc
    obtain ⟨h1, h2⟩ := hc
    rw [skipSpace_nil] at h2
    injection h with h
    refine ⟨s, _, v, (takeSign (skipSpace t.toList)).2.dropWhile Char.isDigit, h1, takeWhile_digits _, ?_, ?_, ?_⟩
    · intro c hc
      rw [← space]
      rcases List.mem_append.1 hc with hc | hc
      · exact hv c hc
      · exact h2 c hc
    · rw [List.takeWhile_append_dropWhile, ← e1]
      exact e
    · rw [← h, e2, natOf_eq]
  · rintro ⟨s, ds, v, w, h1, h2, h3, h4, rfl⟩
    have hv : ∀ c ∈ v, isSpace c = true := fun c hc => (space c).2 (h3 c (by simp [hc]))
    have hw : ∀ c ∈ w, isSpace c = true := fun c hc => (space c).2 (h3 c (by simp [hc]))
    have e1 : skipSpace t.toList = s.text ++ (ds ++ w) := by
      rw [h4]
      apply skipSpace_text hv
      intro c hc
      cases s with
      | plus => obtain rfl : '+' = c := by simpa [Sign.text] using hc
                decide
      | minus => obtain rfl : '-' = c := by simpa [Sign.text] using hc
                 decide
      | none =>
        cases ds with
        | nil => exact absurd rfl h1
        | cons d ds =>
          obtain rfl : d = c := by simpa [Sign.text] using hc
          have := digit_ne (h2 d (by simp))
          tauto
    have e2 : takeSign (s.text ++ (ds ++ w)) = (s.value, ds ++ w) := by
      apply takeSign_text
      intro _ c hc
      cases ds with
      | nil => exact absurd rfl h1
      | cons d ds =>
        obtain rfl : d = c := by simpa using hc
        have := digit_ne (h2 d (by simp))
        tauto
    obtain ⟨e3, e4⟩ := span_digits h2 (r := w) fun c hc =>
      ((stopsC (r := w) fun c hc => .inl (hw c (List.mem_of_mem_head? hc))).1 c hc).1
    unfold readInt
    simp only
    rw [e1, e2]
    simp only
    rw [e3, e4, if_pos ⟨h1, skipSpace_nil.2 hw⟩, natOf_eq]

/-- C105: other texts raise. -/
theorem C105_errors (t : String) :
    ((¬ ∃ q, RationalText t q) → ∃ e, readRational (.text t) = .error e) ∧
    ((¬ ∃ n, IntegerText t n) → readInt (.text t) = .error .valueError) := by
  constructor
  · intro h
    cases hr : readRational (.text t) with
    | ok q => exact absurd ⟨q, (C105_rational t q).1 hr⟩ h
    | error e => exact ⟨e, rfl⟩
  · intro h
    cases hr : readInt (.text t) with
    | ok q => exact absurd ⟨q, (C105_integer t q).1 hr⟩ h
    | error e =>
      unfold readInt at hr
      simp only at hr
      split_ifs at hr
      cases hr
      rfl

/-- C105: a number in the file is taken as it is; an integer is truncated towards zero. -/
theorem C105_numbers (q : ℚ) : readWeight (.number q) = .ok (q, 0) ∧ readRational (.number q) = .ok q ∧
    ∃ n : ℤ, readInt (.number q) = .ok n ∧ |(n : ℚ)| ≤ |q| ∧ |q - n| < 1 ∧ ∀ k : ℤ, q = k → n = k := by
  refine ⟨rfl, rfl, _, rfl, ?_⟩
  split_ifs with h
  · have h1 := Int.floor_le q
    have h2 := Int.lt_floor_add_one q
    have h3 : (0 : ℚ) ≤ (⌊q⌋ : ℤ) := by exact_mod_cast Int.floor_nonneg.2 h
    refine ⟨?_, ?_, ?_⟩
    · rw [abs_of_nonneg h3, abs_of_nonneg h]; exact h1
    · rw [abs_of_nonneg (by linarith)]; linarith
    · rintro k rfl; simp
  · have h1 := Int.le_ceil q
    have h2 := Int.ceil_lt_add_one q
    have h3 : ((⌈q⌉ : ℤ) : ℚ) ≤ 0 := by
      have : ⌈q⌉ ≤ 0 := Int.ceil_le.2 (by push_cast; linarith)
      exact_mod_cast this
    refine ⟨?_, ?_, ?_⟩
    · rw [abs_of_nonpos h3, abs_of_nonpos (by linarith)]; linarith
    · rw [abs_of_nonpos (by linarith)]; linarith
    · rintro k rfl; simp

/-- C105: the default value of the weight of a chain is the number that its text denotes, real if the imaginary part
vanishes; a text that denotes no number raises. -/
theorem C105_default_value {c : ChainDefinition} {t : String} (hw : c.weight = (readWeight (.text t)).toOption)
    (tl : String → String) :
    (∀ x y s v, WeightText t x y → getWeight c tl = .ok (s, v) → v = if y = 0 then Val.real x else Val.cplx x y) ∧
    ((¬ ∃ x y, WeightText t x y) → getWeight c tl = .error .valueError) := by
  constructor
  · intro x y s v ht h
    rw [(C105_weight t x y).2 ht] at hw
    unfold getWeight at h
    rw [hw] at h
    simp only [Except.toOption, bind_ok] at h
    obtain ⟨v', h1, r, -, hs, -, h⟩ := h
    cases h1
    cases h
    rfl
  · intro h
    rw [C105_weight_error t h] at hw
    unfold getWeight
    rw [hw]
    rfl

theorem natOf_toDigits (n : ℕ) : decimal (Nat.toDigits 10 n) = n := by
  rw [← natOf_eq]
  unfold natOf
  have := Nat.ofDigitChars_ten_toDigits (n := n)
  rw [Nat.ofDigitChars_eq_foldl] at this
  exact this

/-- The literal of an integer. -/
def intLiteral (n : ℤ) : Literal := ⟨if n < 0 then .minus else .none, Nat.toDigits 10 n.natAbs, false, [], none⟩

theorem intLiteral_valid (n : ℤ) : (intLiteral n).Valid where
  digits c hc := by
    have : c ∈ Nat.toDigits 10 n.natAbs := by simpa [intLiteral] using hc
    exact Nat.isDigit_of_mem_toDigits (by norm_num) (by norm_num) this
  nonempty := by simpa [intLiteral] using Nat.toDigits_ne_nil
  point _ := rfl
  exponent := by rintro e ⟨⟩

theorem intLiteral_value (n : ℤ) : (intLiteral n).value = n := by
  unfold intLiteral Literal.value
  simp only [natOf_toDigits, exponentValue]
  have : decimal [] = 0 := rfl
  rw [this]
  split_ifs with h
  · have e : (n.natAbs : ℚ) = -n := by
      have h1 : (n.natAbs : ℤ) = -n := by omega
      have h2 := congrArg (Int.cast (R := ℚ)) h1
      rw [Int.cast_natCast, Int.cast_neg] at h2
      exact h2
    simp [Sign.value, e]
  · have e : (n.natAbs : ℚ) = n := by
      have h1 : (n.natAbs : ℤ) = n := by omega
      have h2 := congrArg (Int.cast (R := ℚ)) h1
      rw [Int.cast_natCast] at h2
      exact h2
    simp [Sign.value, e]

theorem intLiteral_text (n : ℤ) : (toString n).toList = (intLiteral n).text := by
  cases n with
  | ofNat k =>
    change (k.repr).toList = _
    rw [Nat.toList_repr]
    have : ¬ (Int.ofNat k < 0) := by simp
    simp only [intLiteral, Literal.text, exponentText, if_neg this]
    simp [Sign.text]
  | negSucc k =>
    have e : toString (Int.negSucc k) = "-" ++ (k + 1).repr := rfl
    rw [e, String.toList_append, Nat.toList_repr]
    simp [intLiteral, Literal.text, Sign.text, exponentText, Int.negSucc_lt_zero]

/-- C105: spins and helicities in the usual notation, `n` or `n/2`, are read as such, for all integers. -/
theorem C105_spins (n : ℤ) : readRational (.text (toString n)) = .ok n ∧
    readRational (.text (toString n ++ "/2")) = .ok (n / 2 : ℚ) := by
  have hno : (intLiteral n).text.filter (· ≠ ' ') = (intLiteral n).text := by
    refine List.filter_eq_self.2 fun c hc => ?_
    have := (literal_not (intLiteral_valid n) c hc).2.2.2.2.2.2
    simp only [ne_eq, decide_eq_true_eq]
    rintro rfl
    cases this
  constructor
  · rw [C105_rational]
    have := RationalText.number (t := toString n) (intLiteral n) [] [] (intLiteral_valid n) (by simp [White])
      (by simp [White]) (by rw [intLiteral_text, hno]; simp)
    rwa [intLiteral_value] at this
  · rw [C105_rational]
    have v2 : (intLiteral 2).value = 2 := by rw [intLiteral_value]; norm_num
    have := RationalText.fraction (t := toString n ++ "/2") (intLiteral n) (intLiteral 2) [] [] [] []
      (intLiteral_valid n) (intLiteral_valid 2) (by rw [v2]; norm_num) (by simp [White]) (by simp [White])
      (by simp [White]) (by simp [White]) (by
        rw [String.toList_append, List.filter_append, intLiteral_text, hno]
        rfl)
    rwa [intLiteral_value, v2] at this

/-- Examples: spaces anywhere, both letters of the imaginary unit, exponents, brackets; and texts that are not read:
a capital `I`, two numbers, nothing. -/
example : readWeight (.text "7.5 - 2.5e-1 i") = .ok (15 / 2, -1 / 4) ∧ readWeight (.text "-j") = .ok (0, -1) ∧
    readWeight (.text " ( 1+i ) ") = .ok (1, 1) ∧ readWeight (.text ".5") = .ok (1 / 2, 0) ∧
    readWeight (.text "1+2I") = .error .valueError ∧ readWeight (.text "1,2") = .error .valueError ∧
    readWeight (.text "") = .error .valueError ∧ readWeight (.text "infinity") = .error .valueError ∧
    readRational (.text "-3/2") = .ok (-3 / 2) ∧ readRational (.text "0.5") = .ok (1 / 2) ∧
    readRational (.text "1/0") = .error .zeroDivisionError ∧ readRational (.text "half") = .error .typeError ∧
    readRational (.text "1/2/3") = .error .typeError ∧
    readInt (.text " 2") = .ok 2 ∧ readInt (.text "2.0") = .error .valueError := by
  decide +kernel

end Verif.Serialization
