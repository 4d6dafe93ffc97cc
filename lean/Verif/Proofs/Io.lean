import Verif.Model.Io
import Verif.Spec.Io
import Verif.Proofs.Names
import Mathlib.Algebra.Order.Round
import Mathlib.Tactic.Linarith
import Mathlib.Tactic.Ring
import Mathlib.Tactic.FieldSimp
import Mathlib.Tactic.Push
import Mathlib.Order.Preorder.Finite
import Mathlib.Data.Rat.Floor

/-! Markdown tables. -/
namespace Verif.Io
open Verif Verif.ThreeBody

theorem row_chars {xs : List String} (h : xs ≠ []) : (tableRow xs).toList =
    '|' :: ((xs.map padded).flatMap (fun c => c.toList ++ ['|']) ++ ['\n']) := by
  unfold tableRow
  simp only [String.toList_append, String.toList_intercalate]
  have key : ∀ (x : String) (t : List String),
      ' ' :: (" | ".toList.intercalate ((x :: t).map String.toList) ++ [' ', '|']) =
        ((x :: t).map padded).flatMap (fun c => c.toList ++ ['|']) := by
    intro x t
    induction t generalizing x with
    | nil => simp [padded, List.intercalate]
    | cons y t ih =>
      rw [List.map_cons (f := padded), List.flatMap_cons, ← ih y]
      simp [padded, List.intercalate]
  obtain ⟨x, t, rfl⟩ := List.exists_cons_of_ne_nil h
  rw [← key x t]
  simp

theorem table_chars (rows : List (List String)) (h : ∀ r ∈ rows, r ≠ []) :
    ∀ (acc : String), (rows.foldl (fun s r => s ++ tableRow r) acc).toList =
      acc.toList ++ (rows.map (·.map padded)).flatMap
        (fun r => '|' :: (r.flatMap (fun c => c.toList ++ ['|']) ++ ['\n'])) := by
  induction rows with
  | nil => intro acc; simp
  | cons r t ih =>
    intro acc
    rw [List.foldl_cons, ih (fun r hr => h r (List.mem_cons_of_mem _ hr)), String.toList_append,
      row_chars (h r (List.mem_cons_self ..)), List.map_cons, List.flatMap_cons, List.append_assoc]

theorem clean_padded {x : String} (h : CleanText x) :
    '|' ∉ (padded x).toList ∧ '\n' ∉ (padded x).toList := by
  unfold padded
  simp only [String.toList_append, List.mem_append]
  exact ⟨by simp [h.1], by simp [h.2]⟩

theorem isTable_of_rows {header : List String} {rows : List (List String)} (h0 : header ≠ [])
    (hc0 : ∀ x ∈ header, CleanText x) (h : ∀ r ∈ rows, r ≠ []) (hc : ∀ r ∈ rows, ∀ x ∈ r, CleanText x) :
    IsTable (rows.foldl (fun s r => s ++ tableRow r) (tableHeader header))
      ((header :: (header.map fun _ => "---") :: rows).map (·.map padded)) := by
  refine ⟨?_, ?_⟩
  · rw [table_chars rows h]
    unfold tableHeader
    rw [String.toList_append, row_chars h0, row_chars (by simpa using h0)]
    simp
  · have : ∀ r ∈ header :: (header.map fun _ => "---") :: rows, ∀ x ∈ r, CleanText x := by
      intro r hr
      rcases List.mem_cons.1 hr with rfl | hr
      · exact hc0
      rcases List.mem_cons.1 hr with rfl | hr
      · intro x hx
        obtain ⟨_, -, rfl⟩ := List.mem_map.1 hx
        exact ⟨by decide, by decide⟩
      · exact hc r hr
    intro r hr c hcr
    obtain ⟨r', hr', rfl⟩ := List.mem_map.1 hr
    obtain ⟨x, hx, rfl⟩ := List.mem_map.1 hcr
    exact clean_padded (this r' hr' x hx)

theorem cells_unique {r r' : List String} (h : ∀ c ∈ r, '|' ∉ c.toList) (h' : ∀ c ∈ r', '|' ∉ c.toList)
    (he : r.flatMap (fun c => c.toList ++ ['|']) = r'.flatMap (fun c => c.toList ++ ['|'])) :
    r = r' := by
  induction r generalizing r' with
  | nil =>
    cases r' with
    | nil => rfl
    | cons c t => simp at he
  | cons c t ih =>
    cases r' with
    | nil => simp at he
    | cons c' t' =>
      simp only [List.flatMap_cons, List.append_assoc, List.singleton_append] at he
      obtain ⟨h1, h2⟩ := split_unique (h c (List.mem_cons_self ..)) (h' c' (List.mem_cons_self ..)) he
      rw [String.toList_inj.1 h1, ih (fun x hx => h x (List.mem_cons_of_mem _ hx))
        (fun x hx => h' x (List.mem_cons_of_mem _ hx)) h2]

theorem line_no_newline {r : List String} (h : ∀ c ∈ r, '\n' ∉ c.toList) :
    '\n' ∉ '|' :: r.flatMap (fun c => c.toList ++ ['|']) := by
  intro hm
  rcases List.mem_cons.1 hm with hm | hm
  · exact absurd hm (by decide)
  · obtain ⟨c, hc, hm⟩ := List.mem_flatMap.1 hm
    rcases List.mem_append.1 hm with hm | hm
    · exact h c hc hm
    · exact absurd hm (by decide)

theorem isTable_unique {s : String} {rows rows' : List (List String)} (h : IsTable s rows)
    (h' : IsTable s rows') : rows = rows' := by
  have he := h.1.symm.trans h'.1
  have hc := h.2
  have hc' := h'.2
  clear h h'
  induction rows generalizing rows' with
  | nil =>
    cases rows' with
    | nil => rfl
    | cons c t => simp at he
  | cons r t ih =>
    cases rows' with
    | nil => simp at he
    | cons r' t' =>
      have e1 : ∀ (r : List String) (t : List (List String)), (r :: t).flatMap
          (fun r => '|' :: (r.flatMap (fun c => c.toList ++ ['|']) ++ ['\n'])) =
          ('|' :: r.flatMap (fun c => c.toList ++ ['|'])) ++ '\n' :: t.flatMap
          (fun r => '|' :: (r.flatMap (fun c => c.toList ++ ['|']) ++ ['\n'])) := by
        intro r t; simp
      rw [e1, e1] at he
      obtain ⟨h1, h2⟩ := split_unique
        (line_no_newline fun c hx => (hc r (List.mem_cons_self ..) c hx).2)
        (line_no_newline fun c hx => (hc' r' (List.mem_cons_self ..) c hx).2) he
      rw [ih h2 (fun r hr => hc r (List.mem_cons_of_mem _ hr))
        (fun r hr => hc' r (List.mem_cons_of_mem _ hr)),
        cells_unique (fun c hx => (hc r (List.mem_cons_self ..) c hx).1)
          (fun c hx => (hc' r' (List.mem_cons_self ..) c hx).1) (List.cons.inj h1).2]

theorem cleanText_append {x y : String} (hx : CleanText x) (hy : CleanText y) : CleanText (x ++ y) := by
  unfold CleanText at *
  simp only [String.toList_append, List.mem_append]
  exact ⟨by simp [hx.1, hy.1], by simp [hx.2, hy.2]⟩

theorem cleanText_int (n : ℤ) : CleanText (toString n) :=
  ⟨int_name_no (by decide) (by decide), int_name_no (by decide) (by decide)⟩

theorem cleanText_jp (p : Particle) : CleanText (renderJp p) := by
  have hs : CleanText (if p.spin.den = 1 then toString p.spin.num
      else "\\frac{" ++ toString p.spin.num ++ "}{" ++ toString (p.spin.den : ℤ) ++ "}") := by
    split
    · exact cleanText_int _
    · exact cleanText_append (cleanText_append (cleanText_append (cleanText_append
        (by constructor <;> decide) (cleanText_int _)) (by constructor <;> decide))
        (cleanText_int _)) (by constructor <;> decide)
  unfold renderJp
  simp only
  split
  · exact cleanText_append (by constructor <;> decide) hs
  · refine cleanText_append (cleanText_append hs (by constructor <;> decide)) ?_
    split <;> constructor <;> decide

theorem insertCommas_filter (l : List Char) (h : ',' ∉ l) :
    (insertCommas l).filter (· ≠ ',') = l := by
  fun_induction insertCommas l with
  | case1 a b c d t ih =>
    have ih := ih (fun hm => h (by simp at hm ⊢; tauto))
    have ha : a ≠ ',' := fun e => h (by simp [e])
    have hb : b ≠ ',' := fun e => h (by simp [e])
    have hc : c ≠ ',' := fun e => h (by simp [e])
    rw [List.filter_cons_of_pos (by simpa using ha), List.filter_cons_of_pos (by simpa using hb),
      List.filter_cons_of_pos (by simpa using hc), List.filter_cons_of_neg (by simp), ih]
  | case2 l hl =>
    rw [List.filter_eq_self]
    intro x hx
    simp only [ne_eq, decide_not, Bool.not_eq_eq_eq_not, Bool.not_true, decide_eq_false_iff_not]
    rintro rfl
    exact h hx

theorem toString_neg {n : ℤ} (h : n < 0) : toString n = "-" ++ toString (n.natAbs : ℤ) := by
  cases n with
  | ofNat k => exact absurd h (by simp)
  | negSucc k => rfl

theorem withCommas_filter (n : ℤ) : (withCommas n).toList.filter (· ≠ ',') = (toString n).toList := by
  unfold withCommas
  rw [String.toList_append, List.filter_append, String.toList_ofList, List.filter_reverse,
    insertCommas_filter _ (by rw [List.mem_reverse]; exact int_name_no (by decide) (by decide)),
    List.reverse_reverse]
  split
  · rename_i h
    rw [toString_neg h, String.toList_append]; rfl
  · rename_i h
    rw [Int.natAbs_of_nonneg (by omega)]; rfl

theorem withCommas_inj {m n : ℤ} (h : withCommas m = withCommas n) : m = n := by
  apply toString_int_inj
  rw [← String.toList_inj, ← withCommas_filter, ← withCommas_filter, h]

theorem insertCommas_mem {l : List Char} {x : Char} (h : x ∈ insertCommas l) : x = ',' ∨ x ∈ l := by
  fun_induction insertCommas l with
  | case1 a b c d t ih =>
    simp only [List.mem_cons] at h ih ⊢
    tauto
  | case2 l hl => exact .inr h

theorem withCommas_clean (n : ℤ) : CleanText (withCommas n) := by
  have : ∀ c : Char, c.isDigit = false → c ≠ '-' → c ≠ ',' → c ∉ (withCommas n).toList := by
    intro c h1 h2 h3 hc
    unfold withCommas at hc
    rw [String.toList_append, List.mem_append, String.toList_ofList, List.mem_reverse] at hc
    rcases hc with hc | hc
    · split at hc
      · simp at hc; exact h2 hc
      · simp at hc
    · rcases insertCommas_mem hc with hc | hc
      · exact h3 hc
      · exact int_name_no h1 h2 (List.mem_reverse.1 hc)
  exact ⟨this _ (by decide) (by decide) (by decide), this _ (by decide) (by decide) (by decide)⟩

theorem toMeV_truncation (x : ℚ) : IsTruncation (1000 * x) (toMeV x) := by
  unfold toMeV IsTruncation
  split
  · rename_i h
    right
    have h1 := Int.floor_le (-(1000 * x))
    have h2 := Int.lt_floor_add_one (-(1000 * x))
    refine ⟨by linarith, ?_, ?_⟩
    · push_cast; linarith
    · push_cast; linarith
  · rename_i h
    left
    exact ⟨by linarith, Int.floor_le _, Int.lt_floor_add_one _⟩

theorem truncation_unique {x : ℚ} {m n : ℤ} (h : IsTruncation x m) (h' : IsTruncation x n) : m = n := by
  rcases h with ⟨h0, h1, h2⟩ | ⟨h0, h1, h2⟩ <;> rcases h' with ⟨h0', h1', h2'⟩ | ⟨h0', h1', h2'⟩
  · have a : (m : ℚ) < n + 1 := by linarith
    have b : (n : ℚ) < m + 1 := by linarith
    have a : m < n + 1 := by exact_mod_cast a
    have b : n < m + 1 := by exact_mod_cast b
    omega
  · linarith
  · linarith
  · have a : (m : ℚ) < n + 1 := by linarith
    have b : (n : ℚ) < m + 1 := by linarith
    have a : m < n + 1 := by exact_mod_cast a
    have b : n < m + 1 := by exact_mod_cast b
    omega

theorem mevText (x : ℚ) : IsMeVText x (withCommas (toMeV x)) :=
  ⟨_, toMeV_truncation x, withCommas_filter _⟩

theorem spinText (p : Particle) (h : p.spin.den = 1 ∨ p.spin.den = 2) :
    IsSpinText p.spin (if p.spin.den = 1 then toString p.spin.num
      else "\\frac{" ++ toString p.spin.num ++ "}{" ++ toString (p.spin.den : ℤ) ++ "}") := by
  split
  · rename_i h1
    exact .inl ⟨p.spin.num, ((Rat.den_eq_one_iff _).1 h1).symm, rfl⟩
  · rename_i h1
    have h2 : p.spin.den = 2 := h.resolve_left h1
    refine .inr ⟨p.spin.num, ?_, ?_, ?_⟩
    · have := p.spin.reduced
      rw [h2] at this
      by_contra hodd
      have hd : 2 ∣ Nat.gcd p.spin.num.natAbs 2 := Nat.dvd_gcd (by omega) (dvd_refl 2)
      rw [this] at hd
      exact absurd hd (by decide)
    · conv_lhs => rw [← Rat.num_div_den p.spin, h2]
      rfl
    · rw [h2]
      simp only [String.append_assoc]
      rfl

theorem jpText (p : Particle) (h : ValidParticle p) : IsJpText p.spin p.parity (renderJp p) := by
  refine ⟨_, spinText p h.1, ?_⟩
  unfold renderJp
  rcases h.2 with h2 | h2 | h2
  · exact .inl ⟨h2, by rw [h2]⟩
  · refine .inr (.inl ⟨h2, ?_⟩)
    rw [h2]
    simp only [String.append_assoc]
    rfl
  · refine .inr (.inr ⟨h2, ?_⟩)
    rw [h2]
    simp only [String.append_assoc]
    rfl

/-! Unambiguity of the spin and parity text. -/

theorem int_head (n : ℤ) : ∃ c t, (toString n).toList = c :: t ∧ (c.isDigit ∨ c = '-') := by
  cases h : (toString n).toList with
  | nil =>
    exfalso
    have : toString n = "" := String.toList_inj.1 h
    cases n with
    | ofNat k => exact Nat.repr_ne_empty this
    | negSucc k =>
      have : ("-" ++ Nat.repr (k + 1)).toList = [] := by
        rw [show "-" ++ Nat.repr (k + 1) = toString (Int.negSucc k) from rfl, this]; rfl
      simp at this
  | cons c t => exact ⟨c, t, rfl, intRepr_chars n c (by rw [h]; exact List.mem_cons_self ..)⟩

def spinChars (q : ℚ) : String :=
  if q.den = 1 then toString q.num
  else "\\frac{" ++ toString q.num ++ "}{" ++ toString (q.den : ℤ) ++ "}"

theorem spinChars_inj {q q' : ℚ} (h : spinChars q = spinChars q') : q = q' := by
  have mixed : ∀ (n : ℤ) (s : String), toString n ≠ "\\frac{" ++ s := by
    intro n s he
    obtain ⟨c, t, h1, h2⟩ := int_head n
    have := congrArg String.toList he
    rw [h1, String.toList_append] at this
    have hc : c = '\\' := (List.cons.inj this).1
    rcases h2 with h2 | h2
    · rw [hc] at h2; exact absurd h2 (by decide)
    · rw [hc] at h2; exact absurd h2 (by decide)
  unfold spinChars at h
  split at h <;> split at h
  · rename_i h1 h2
    rw [← (Rat.den_eq_one_iff _).1 h1, ← (Rat.den_eq_one_iff _).1 h2, toString_int_inj h]
  · simp only [String.append_assoc] at h
    exact absurd h (mixed _ _)
  · simp only [String.append_assoc] at h
    exact absurd h.symm (mixed _ _)
  · have h := congrArg String.toList h
    simp only [String.append_assoc, String.toList_append] at h
    have h := List.append_cancel_left h
    have e1 : "}{".toList = '}' :: ['{'] := rfl
    rw [e1] at h
    simp only [List.cons_append] at h
    have no : ∀ n : ℤ, '}' ∉ (toString n).toList := fun n => int_name_no (by decide) (by decide)
    obtain ⟨h1, h2⟩ := split_unique (no _) (no _) h
    simp only [List.nil_append, List.cons.injEq, true_and] at h2
    have e2 : "}".toList = '}' :: [] := rfl
    rw [e2] at h2
    obtain ⟨h3, -⟩ := split_unique (no _) (no _) h2
    have a := toString_int_inj (String.toList_inj.1 h1)
    have b := toString_int_inj (String.toList_inj.1 h3)
    exact Rat.ext a (by exact_mod_cast b)

theorem spinChars_no (q : ℚ) : '^' ∉ (spinChars q).toList ∧ 'J' ∉ (spinChars q).toList := by
  have no : ∀ (c : Char) (n : ℤ), c.isDigit = false → c ≠ '-' → c ∉ (toString n).toList :=
    fun c n h1 h2 => int_name_no h1 h2
  unfold spinChars
  split
  · exact ⟨no _ _ (by decide) (by decide), no _ _ (by decide) (by decide)⟩
  · simp only [String.toList_append, List.mem_append, not_or]
    exact ⟨⟨⟨⟨⟨by decide, no _ _ (by decide) (by decide)⟩, by decide⟩,
      no _ _ (by decide) (by decide)⟩, by decide⟩,
      ⟨⟨⟨by decide, no _ _ (by decide) (by decide)⟩, by decide⟩,
      no _ _ (by decide) (by decide)⟩, by decide⟩

theorem renderJp_eq (p : Particle) : renderJp p =
    match p.parity with
    | none => "J=" ++ spinChars p.spin
    | some parity => spinChars p.spin ++ "^" ++ (if parity < 0 then "-" else "+") := rfl

theorem renderJp_iff (p q : Particle) : renderJp p = renderJp q ↔
    p.spin = q.spin ∧ p.parity.map (· < 0) = q.parity.map (· < 0) := by
  constructor
  · intro h
    rw [renderJp_eq, renderJp_eq] at h
    have mixed : ∀ (a b : ℚ) (s : String), "J=" ++ spinChars a ≠ spinChars b ++ "^" ++ s := by
      intro a b s he
      have he := congrArg String.toList he
      rw [String.append_assoc, String.toList_append, String.toList_append, String.toList_append,
        show "^".toList = '^' :: [] from rfl, List.cons_append] at he
      have : '^' ∉ ("J=".toList ++ (spinChars a).toList) := by
        rw [List.mem_append, not_or]; exact ⟨by decide, (spinChars_no a).1⟩
      rw [he] at this
      exact this (by simp)
    cases hp : p.parity with
    | none =>
      cases hq : q.parity with
      | none =>
        rw [hp, hq] at h
        have h := congrArg String.toList h
        simp only [String.toList_append] at h
        exact ⟨spinChars_inj (String.toList_inj.1 (List.append_cancel_left h)), rfl⟩
      | some b => rw [hp, hq] at h; exact absurd h (mixed _ _ _)
    | some a =>
      cases hq : q.parity with
      | none => rw [hp, hq] at h; exact absurd h.symm (mixed _ _ _)
      | some b =>
        rw [hp, hq] at h
        have h := congrArg String.toList h
        simp only [String.toList_append, List.append_assoc,
          show "^".toList = '^' :: [] from rfl, List.cons_append, List.nil_append] at h
        obtain ⟨h1, h2⟩ := split_unique (spinChars_no _).1 (spinChars_no _).1 h
        refine ⟨spinChars_inj (String.toList_inj.1 h1), ?_⟩
        simp only [Option.map_some, Option.some.injEq, eq_iff_iff]
        by_cases ha : a < 0 <;> by_cases hb : b < 0
        · simp [ha, hb]
        · rw [if_pos ha, if_neg hb] at h2; exact absurd h2 (by decide)
        · rw [if_neg ha, if_pos hb] at h2; exact absurd h2 (by decide)
        · simp [ha, hb]
  · rintro ⟨h1, h2⟩
    rw [renderJp_eq, renderJp_eq, h1]
    cases hp : p.parity <;> cases hq : q.parity <;> rw [hp, hq] at h2
    · cases h2
    · cases h2
    · simp only [Option.map_some, Option.some.injEq, eq_iff_iff] at h2
      simp only [h2]

/-! The types of the items. -/

theorem determine_iff {T : Type} [DecidableEq T] (sub : T → T → Bool)
    (trans : ∀ a b c, sub a b = true → sub b c = true → sub a c = true)
    (antisymm : ∀ a b, sub a b = true → sub b a = true → a = b)
    (types : List T) (t : T) :
    determineItemType sub types = .ok t ↔ t ∈ types ∧ ∀ u ∈ types, u = t ∨ sub u t = true := by
  unfold determineItemType
  have hmem : ∀ u, u ∈ types.dedup.filter (fun typ =>
      !(types.dedup.any fun other => decide (typ ≠ other) && sub typ other)) ↔
      u ∈ types ∧ ∀ o ∈ types, u ≠ o → sub u o = false := by
    intro u
    simp [List.mem_filter]
  have hnodup : (types.dedup.filter (fun typ =>
      !(types.dedup.any fun other => decide (typ ≠ other) && sub typ other))).Nodup :=
    (List.nodup_dedup types).filter _
  -- every element lies under a maximal one
  have hmax : ∀ u ∈ types, ∃ v ∈ types, (u = v ∨ sub u v = true) ∧
      ∀ o ∈ types, v ≠ o → sub v o = false := by
    intro u hu
    classical
    let r : Preorder T :=
      { le := fun a b => a = b ∨ sub a b = true
        le_refl := fun a => .inl rfl
        le_trans := by
          rintro a b c (rfl | h1) (rfl | h2)
          · exact .inl rfl
          · exact .inr h2
          · exact .inr h1
          · exact .inr (trans _ _ _ h1 h2) }
    obtain ⟨v, huv, hv⟩ := types.toFinset.exists_le_maximal (a := u) (by simpa using hu)
    refine ⟨v, by simpa using hv.1, huv, fun o ho hne => ?_⟩
    rw [← Bool.not_eq_true]
    intro hs
    have := hv.2 (y := o) (by simpa using ho) (.inr hs)
    rcases this with h | h
    · exact hne h.symm
    · exact hne (antisymm _ _ hs h)
  generalize hL : types.dedup.filter (fun typ =>
      !(types.dedup.any fun other => decide (typ ≠ other) && sub typ other)) = L at hmem hnodup ⊢
  by_cases h0 : types.length < 1
  · rw [if_pos h0]
    have : types = [] := List.length_eq_zero_iff.1 (by omega)
    simp [this]
  rw [if_neg h0]
  constructor
  · intro h
    have hLt : L = [t] := by
      simp only at h
      rw [hL] at h
      match L, h with
      | [x], h => injection h with h; rw [h]
    have ht := (hmem t).1 (by rw [hLt]; exact List.mem_singleton.2 rfl)
    refine ⟨ht.1, fun u hu => ?_⟩
    obtain ⟨v, hv, huv, hvm⟩ := hmax u hu
    have : v ∈ L := (hmem v).2 ⟨hv, hvm⟩
    rw [hLt, List.mem_singleton] at this
    rwa [this] at huv
  · rintro ⟨ht, hall⟩
    have htL : t ∈ L := by
      refine (hmem t).2 ⟨ht, fun o ho hne => ?_⟩
      rw [← Bool.not_eq_true]
      intro hs
      rcases hall o ho with h | h
      · exact hne h.symm
      · exact hne (antisymm _ _ hs h)
    have hu : ∀ v ∈ L, v = t := by
      intro v hv
      have hv := (hmem v).1 hv
      by_contra hne
      rcases hall v hv.1 with h | h
      · exact hne h
      · rw [hv.2 t ht hne] at h; cases h
    have hLt : L = [t] := by
      match L, htL, hu, hnodup with
      | [x], _, hu, _ => rw [hu x (List.mem_cons_self ..)]
      | x :: y :: l, _, hu, hn =>
        have := hu x (by simp); have := hu y (by simp)
        subst_vars
        simp at hn
    simp only
    rw [hL, hLt]

theorem determine_error {T : Type} [DecidableEq T] (sub : T → T → Bool)
    (trans : ∀ a b c, sub a b = true → sub b c = true → sub a c = true)
    (antisymm : ∀ a b, sub a b = true → sub b a = true → a = b)
    (types : List T) : (∃ t, determineItemType sub types = .ok t) ∨
      determineItemType sub types = .error .valueError := by
  by_cases h : ∃ t, determineItemType sub types = .ok t
  · exact .inl h
  right
  by_cases h0 : types.length < 1
  · unfold determineItemType; rw [if_pos h0]
  have key := h
  unfold determineItemType at h ⊢
  rw [if_neg h0] at h ⊢
  simp only at h ⊢
  split at h <;> rename_i hL
  · -- a maximal element exists
    exfalso
    obtain ⟨u, hu⟩ := List.exists_mem_of_ne_nil types (by rintro rfl; simp at h0)
    classical
    let r : Preorder T :=
      { le := fun a b => a = b ∨ sub a b = true
        le_refl := fun a => .inl rfl
        le_trans := by
          rintro a b c (rfl | h1) (rfl | h2)
          · exact .inl rfl
          · exact .inr h2
          · exact .inr h1
          · exact .inr (trans _ _ _ h1 h2) }
    obtain ⟨v, huv, hv⟩ := types.toFinset.exists_le_maximal (a := u) (by simpa using hu)
    have : v ∈ types.dedup.filter (fun typ =>
      !(types.dedup.any fun other => decide (typ ≠ other) && sub typ other)) := by
      simp only [ne_eq, decide_not, List.mem_filter, List.mem_dedup, Bool.not_eq_eq_eq_not,
        Bool.not_true, List.any_eq_false, Bool.and_eq_true, decide_eq_false_iff_not, not_and]
      refine ⟨by simpa using hv.1, fun o ho hne => ?_⟩
      intro hs
      rcases hv.2 (y := o) (by simpa using ho) (.inr hs) with h | h
      · exact hne h.symm
      · exact hne (antisymm _ _ hs h)
    rw [hL] at this
    cases this
  · exact absurd ⟨_, rfl⟩ h
  · rfl

end Verif.Io
