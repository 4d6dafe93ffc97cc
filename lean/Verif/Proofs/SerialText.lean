import Verif.Spec.Serialization
import Verif.Model.SerialAmplitude
import Mathlib.Data.List.TakeWhile
import Mathlib.Data.List.DropRight

/-! `str.strip`. -/
namespace Verif.Serialization
open Verif

theorem isSpace_iff (c : Char) : pyIsSpace c = true ↔ IsWhitespace c := by
  unfold pyIsSpace IsWhitespace
  simp only [Bool.or_eq_true, Bool.and_eq_true, decide_eq_true_eq, beq_iff_eq, List.mem_cons,
    List.not_mem_nil, or_false]
  omega

theorem dropWhile_split {α : Type} (p : α → Bool) (l : List α) :
    ∃ a, l = a ++ l.dropWhile p ∧ ∀ c ∈ a, p c = true := by
  refine ⟨l.takeWhile p, (List.takeWhile_append_dropWhile (p := p)).symm, ?_⟩
  intro c hc
  exact List.mem_takeWhile_imp hc

theorem dropWhile_all {α : Type} {p : α → Bool} {a l : List α} (h : ∀ c ∈ a, p c = true) :
    (a ++ l).dropWhile p = l.dropWhile p := by
  induction a with
  | nil => rfl
  | cons x a ih =>
    rw [List.cons_append, List.dropWhile_cons, if_pos (h x (List.mem_cons_self ..))]
    exact ih fun c hc => h c (List.mem_cons_of_mem _ hc)

theorem strip_split (l : List Char) : ∃ a b, l = a ++ pyStrip l ++ b ∧
    (∀ c ∈ a, pyIsSpace c = true) ∧ ∀ c ∈ b, pyIsSpace c = true := by
  obtain ⟨a, ha, ha'⟩ := dropWhile_split pyIsSpace l
  obtain ⟨b, hb, hb'⟩ := dropWhile_split pyIsSpace (l.dropWhile pyIsSpace).reverse
  refine ⟨a, b.reverse, ?_, ha', fun c hc => hb' c (List.mem_reverse.1 hc)⟩
  conv_lhs => rw [ha]
  rw [List.append_assoc]
  congr 1
  unfold pyStrip
  rw [← List.reverse_append, ← hb, List.reverse_reverse]

theorem strip_core {a b core : List Char} (ha : ∀ c ∈ a, pyIsSpace c = true)
    (hb : ∀ c ∈ b, pyIsSpace c = true) (h1 : ∀ c ∈ core.head?, pyIsSpace c = false)
    (h2 : ∀ c ∈ core.getLast?, pyIsSpace c = false) : pyStrip (a ++ core ++ b) = core := by
  unfold pyStrip
  rw [List.append_assoc, dropWhile_all ha]
  cases core with
  | nil =>
    have : b.dropWhile pyIsSpace = [] := by
      rw [List.dropWhile_eq_nil_iff]; exact hb
    simp [this]
  | cons x t =>
    have hx : pyIsSpace x = false := h1 x rfl
    rw [List.cons_append, List.dropWhile_cons, if_neg (by simp [hx]), ← List.cons_append,
      List.reverse_append, dropWhile_all (fun c hc => hb c (List.mem_reverse.1 hc))]
    have : (x :: t).reverse.dropWhile pyIsSpace = (x :: t).reverse := by
      cases hr : (x :: t).reverse with
      | nil => rfl
      | cons y u =>
        have : (x :: t).getLast? = some y := by
          rw [← List.head?_reverse, hr]; rfl
        rw [List.dropWhile_cons, if_neg (by simp [h2 y (by rw [this]; rfl)])]
    rw [this, List.reverse_reverse]

theorem strip_iff (s : String) {core : List Char} (h1 : ∀ c ∈ core.head?, pyIsSpace c = false)
    (h2 : ∀ c ∈ core.getLast?, pyIsSpace c = false) : pyStrip s.toList = core ↔ Surrounded s core := by
  constructor
  · rintro h
    obtain ⟨a, b, h1, h2, h3⟩ := strip_split s.toList
    rw [h] at h1
    exact ⟨a, b, h1, fun c hc => (isSpace_iff c).1 (h2 c hc), fun c hc => (isSpace_iff c).1 (h3 c hc)⟩
  · rintro ⟨a, b, h, ha, hb⟩
    rw [h]
    exact strip_core (fun c hc => (isSpace_iff c).2 (ha c hc)) (fun c hc => (isSpace_iff c).2 (hb c hc))
      h1 h2

end Verif.Serialization
