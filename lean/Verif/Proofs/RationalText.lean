import Verif.Model.SerialAmplitude
import Verif.Proofs.Names
import Mathlib.Data.Rat.Lemmas
import Mathlib.Tactic.Push

/-! How SymPy prints rational numbers: different numbers have different texts. -/
namespace Verif.Serialization
open Verif

theorem nat_toString (n : ℕ) : toString n = toString (n : ℤ) := rfl

theorem ratStr_inj {p q : ℚ} (h : ratStr p = ratStr q) : p = q := by
  have hno : ∀ i : ℤ, '/' ∉ (toString i).toList := fun i => int_name_no (by decide) (by decide)
  unfold ratStr at h
  split at h <;> split at h
  · rename_i h1 h2
    exact Rat.ext (toString_int_inj h) (h1.trans h2.symm)
  · exfalso
    apply hno p.num
    rw [h, String.toList_append, String.toList_append]
    exact List.mem_append_left _ (List.mem_append_right _ (by decide))
  · exfalso
    apply hno q.num
    rw [← h, String.toList_append, String.toList_append]
    exact List.mem_append_left _ (List.mem_append_right _ (by decide))
  · rw [nat_toString, nat_toString] at h
    have h := congrArg String.toList h
    simp only [String.toList_append, List.append_assoc] at h
    obtain ⟨h1, h2⟩ := split_unique (c := '/') (hno _) (hno _) h
    have h2 := toString_int_inj (String.toList_inj.1 h2)
    exact Rat.ext (toString_int_inj (String.toList_inj.1 h1)) (by exact_mod_cast h2)

theorem ratStr_no {c : Char} (h1 : c.isDigit = false) (h2 : c ≠ '-') (h3 : c ≠ '/') (q : ℚ) :
    c ∉ (ratStr q).toList := by
  unfold ratStr
  split
  · exact int_name_no h1 h2
  · rw [nat_toString, String.toList_append, String.toList_append, List.mem_append, List.mem_append]
    rintro ((h | h) | h)
    · exact int_name_no h1 h2 h
    · exact h3 (by simpa using h)
    · exact int_name_no h1 h2 h

theorem ratLatex_toList {q : ℚ} (h : q.den ≠ 1) : (ratLatex q).toList =
    (if q.num < 0 then ['-', ' '] else []) ++ '\\' :: (['f', 'r', 'a', 'c', '{'] ++
      ((toString (q.num.natAbs : ℤ)).toList ++ '}' :: ('{' :: ((toString (q.den : ℤ)).toList ++ ['}'])))) := by
  unfold ratLatex
  rw [if_neg h, nat_toString, nat_toString]
  simp only [String.toList_append, List.append_assoc]
  split <;> rfl

theorem ratLatex_int {q : ℚ} (h : q.den = 1) : ratLatex q = toString q.num := by
  unfold ratLatex
  rw [if_pos h]

theorem ratLatex_inj {p q : ℚ} (h : ratLatex p = ratLatex q) : p = q := by
  have hno : ∀ i : ℤ, '\\' ∉ (toString i).toList := fun i => int_name_no (by decide) (by decide)
  have hno' : ∀ i : ℤ, '}' ∉ (toString i).toList := fun i => int_name_no (by decide) (by decide)
  have hin : ∀ {q : ℚ}, q.den ≠ 1 → '\\' ∈ (ratLatex q).toList := by
    intro q hq
    rw [ratLatex_toList hq]
    exact List.mem_append_right _ List.mem_cons_self
  by_cases h1 : p.den = 1 <;> by_cases h2 : q.den = 1
  · rw [ratLatex_int h1, ratLatex_int h2] at h
    exact Rat.ext (toString_int_inj h) (h1.trans h2.symm)
  · exact absurd (ratLatex_int h1 ▸ h ▸ hin h2) (hno _)
  · exact absurd (ratLatex_int h2 ▸ h ▸ hin h1) (hno _)
  · have h := congrArg String.toList h
    rw [ratLatex_toList h1, ratLatex_toList h2] at h
    have hs : ∀ r : ℚ, '\\' ∉ (if r.num < 0 then ['-', ' '] else []) := by
      intro r
      split <;> decide
    obtain ⟨e1, e2⟩ := split_unique (hs p) (hs q) h
    rw [List.append_cancel_left_eq] at e2
    obtain ⟨e2, e3⟩ := split_unique (hno' _) (hno' _) e2
    rw [List.cons.injEq, List.append_cancel_right_eq] at e3
    have e2 := toString_int_inj (String.toList_inj.1 e2)
    have e3 := toString_int_inj (String.toList_inj.1 e3.2)
    refine Rat.ext ?_ (by exact_mod_cast e3)
    have : (p.num < 0) ↔ (q.num < 0) := by
      by_cases hp : p.num < 0 <;> by_cases hq : q.num < 0 <;> simp [hp, hq] at e1 ⊢
    omega

theorem ratLatex_no_comma (q : ℚ) : ',' ∉ (ratLatex q).toList := by
  have hno : ∀ i : ℤ, ',' ∉ (toString i).toList := fun i => int_name_no (by decide) (by decide)
  by_cases h : q.den = 1
  · rw [ratLatex_int h]; exact hno _
  · rw [ratLatex_toList h]
    have h1 := hno q.num.natAbs
    have h2 := hno q.den
    split <;> simp_all

end Verif.Serialization
