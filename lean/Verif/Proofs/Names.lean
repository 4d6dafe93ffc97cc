import Std.Data.String.ToInt
import Std.Data.String.ToNat
import Mathlib.Data.List.Basic

/-! Injectivity of names built with f-strings from integers. -/
namespace Verif

theorem split_unique {α : Type*} {c : α} {l1 l2 r1 r2 : List α} (h1 : c ∉ l1) (h2 : c ∉ l2)
    (h : l1 ++ c :: r1 = l2 ++ c :: r2) : l1 = l2 ∧ r1 = r2 := by
  induction l1 generalizing l2 with
  | nil =>
    cases l2 with
    | nil => simpa using h
    | cons a t =>
      simp only [List.nil_append, List.cons_append, List.cons.injEq] at h
      exact absurd (by simp [h.1]) h2
  | cons a t ih =>
    cases l2 with
    | nil =>
      simp only [List.nil_append, List.cons_append, List.cons.injEq] at h
      exact absurd (by simp [h.1]) h1
    | cons b t' =>
      simp only [List.cons_append, List.cons.injEq] at h
      obtain ⟨rfl, h⟩ := h
      have := ih (fun hc => h1 (List.mem_cons_of_mem _ hc))
        (fun hc => h2 (List.mem_cons_of_mem _ hc)) h
      exact ⟨by rw [this.1], this.2⟩

theorem intRepr_chars (i : Int) : ∀ c ∈ (toString i).toList, c.isDigit ∨ c = '-' := by
  intro c hc
  have : toString i = Int.repr i := rfl
  rw [this] at hc
  cases i with
  | ofNat n =>
    left
    have : Int.repr (Int.ofNat n) = Nat.repr n := rfl
    rw [this, Nat.repr, String.toList_ofList] at hc
    exact Nat.isDigit_of_mem_toDigits (by decide) (by decide) hc
  | negSucc n =>
    have : Int.repr (Int.negSucc n) = "-" ++ Nat.repr (n + 1) := rfl
    rw [this, String.toList_append, List.mem_append] at hc
    rcases hc with hc | hc
    · right; simpa using hc
    · left
      rw [Nat.repr, String.toList_ofList] at hc
      exact Nat.isDigit_of_mem_toDigits (by decide) (by decide) hc

theorem toString_int_inj {i j : Int} (h : toString i = toString j) : i = j :=
  Int.repr_injective h

theorem int_name_no {i : Int} {c : Char} (h1 : c.isDigit = false) (h2 : c ≠ '-') :
    c ∉ (toString i).toList := by
  intro hc
  rcases intRepr_chars i c hc with h | h
  · rw [h1] at h; exact absurd h (by simp)
  · exact h2 h

end Verif
