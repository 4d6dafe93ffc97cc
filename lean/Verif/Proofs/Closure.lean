import Verif.Spec.Closure
import Verif.Proofs.ExprLemmas
import Verif.Proofs.PyDict
import Verif.Model.REval

/-! Free symbols of expressions under unfolding and replacement. -/
namespace Verif
open Verif.Spec

theorem mem_helSymbols_subst (h : Hel) (η : Sym → Option ℚ) (s : Sym)
    (hs : s ∈ helSymbols (h.subst η)) : s ∈ helSymbols h ∧ η s = none := by
  induction h with
  | num q => simp [Hel.subst, helSymbols] at hs
  | sym u =>
    simp only [Hel.subst] at hs
    cases hu : η u with
    | some q => rw [hu] at hs; simp [helSymbols] at hs
    | none =>
      rw [hu] at hs
      simp only [helSymbols, List.mem_singleton] at hs ⊢
      subst hs; exact ⟨rfl, hu⟩
  | add a b iha ihb | sub a b iha ihb =>
    simp only [Hel.subst] at hs
    split at hs
    · simp [helSymbols] at hs
    · simp only [helSymbols, List.mem_append] at hs ⊢
      rcases hs with hs | hs
      · exact ⟨.inl (iha hs).1, (iha hs).2⟩
      · exact ⟨.inr (ihb hs).1, (ihb hs).2⟩
  | neg a iha =>
    simp only [Hel.subst] at hs
    split at hs
    · simp [helSymbols] at hs
    · exact iha hs

theorem hel_eval_congr (h : Hel) {η η' : Sym → ℚ} (hs : ∀ s ∈ helSymbols h, η s = η' s) :
    h.eval η = h.eval η' := by
  induction h with
  | num q => rfl
  | sym u => exact hs u (by simp [helSymbols])
  | add a b iha ihb | sub a b iha ihb =>
    simp only [Hel.eval]
    rw [iha fun s h => hs s (by simp [helSymbols, h]), ihb fun s h => hs s (by simp [helSymbols, h])]
  | neg a iha => simp only [Hel.eval]; rw [iha hs]

namespace Expr

theorem mem_free_addAll (l : List Expr) (s : Sym) :
    s ∈ freeHelicities (addAll l) ↔ ∃ e ∈ l, s ∈ freeHelicities e := by
  induction l with
  | nil => simp [addAll, freeHelicities]
  | cons e t ih => simp [addAll, freeHelicities, ih]

theorem mem_syms_addAll (l : List Expr) (s : Sym) :
    s ∈ (addAll l).syms ↔ ∃ e ∈ l, s ∈ e.syms := by
  induction l with
  | nil => simp [addAll, syms]
  | cons e t ih => simp [addAll, syms, ih]

theorem mem_free_mulS {a b : Expr} {s : Sym} (h : s ∈ freeHelicities (mulS a b)) :
    s ∈ freeHelicities a ∨ s ∈ freeHelicities b := by
  unfold mulS at h
  split at h
  · simp [freeHelicities] at h
  · simpa [freeHelicities] using h

theorem mem_syms_mulS {a b : Expr} {s : Sym} (h : s ∈ (mulS a b).syms) :
    s ∈ a.syms ∨ s ∈ b.syms := by
  unfold mulS at h
  split at h
  · simp [syms] at h
  · simpa [syms] using h

/-- Helicity symbols that remain after unfolding were free before and have no value. -/
theorem mem_free_doit (e : Expr) : ∀ (η : Sym → Option ℚ) (s : Sym),
    s ∈ freeHelicities (e.doit η) → s ∈ freeHelicities e ∧ η s = none := by
  induction e with
  | num | I | sym => intro η s h; simp [doit, freeHelicities] at h
  | idx y =>
    intro η s h
    simp only [doit, freeHelicities, List.mem_flatMap, List.mem_map] at h ⊢
    obtain ⟨x, ⟨z, hz, rfl⟩, h⟩ := h
    have := mem_helSymbols_subst z η s h
    exact ⟨⟨z, hz, this.1⟩, this.2⟩
  | phase y => intro η s h; exact mem_helSymbols_subst y η s h
  | kron a b =>
    intro η s h
    simp only [doit] at h
    split at h
    · simp [freeHelicities] at h
    · simp only [freeHelicities, List.mem_append] at h ⊢
      rcases h with h | h
      · have := mem_helSymbols_subst a η s h; exact ⟨.inl this.1, this.2⟩
      · have := mem_helSymbols_subst b η s h; exact ⟨.inr this.1, this.2⟩
  | wig j a b θ =>
    intro η s h
    simp only [doit, freeHelicities, List.mem_append] at h ⊢
    rcases h with h | h
    · have := mem_helSymbols_subst a η s h; exact ⟨.inl this.1, this.2⟩
    · have := mem_helSymbols_subst b η s h; exact ⟨.inr this.1, this.2⟩
  | cg j1 m1 j2 m2 j3 m3 =>
    intro η s h
    simp only [doit, freeHelicities, List.mem_flatMap, List.mem_cons, List.not_mem_nil, or_false] at h ⊢
    obtain ⟨x, hx, h⟩ := h
    rcases hx with rfl | rfl | rfl | rfl | rfl | rfl <;>
      exact ⟨⟨_, by tauto, (mem_helSymbols_subst _ η s h).1⟩, (mem_helSymbols_subst _ η s h).2⟩
  | mul a b iha ihb =>
    intro η s h
    simp only [doit] at h
    simp only [freeHelicities, List.mem_append]
    rcases mem_free_mulS h with h | h
    · exact ⟨.inl (iha η s h).1, (iha η s h).2⟩
    · exact ⟨.inr (ihb η s h).1, (ihb η s h).2⟩
  | add a b iha ihb | sub a b iha ihb | div a b iha ihb =>
    intro η s h
    simp only [doit, freeHelicities, List.mem_append] at h ⊢
    rcases h with h | h
    · exact ⟨.inl (iha η s h).1, (iha η s h).2⟩
    · exact ⟨.inr (ihb η s h).1, (ihb η s h).2⟩
  | neg a iha | pow a n iha | sqrt a iha | exp a iha | abs a iha => intro η s h; exact iha η s h
  | ff a b c L d h1 h2 h3 h4 =>
    intro η s h
    simp only [doit, freeHelicities, List.mem_append] at h ⊢
    rcases h with ((h | h) | h) | h
    · have := h1 η s h; exact ⟨by simp [this.1], this.2⟩
    · have := h2 η s h; exact ⟨by simp [this.1], this.2⟩
    · have := h3 η s h; exact ⟨by simp [this.1], this.2⟩
    · have := h4 η s h; exact ⟨by simp [this.1], this.2⟩
  | edw a b c d e L f p h1 h2 h3 h4 h5 h6 =>
    intro η s h
    simp only [doit, freeHelicities, List.mem_append] at h ⊢
    rcases h with ((((h | h) | h) | h) | h) | h
    · have := h1 η s h; exact ⟨by simp [this.1], this.2⟩
    · have := h2 η s h; exact ⟨by simp [this.1], this.2⟩
    · have := h3 η s h; exact ⟨by simp [this.1], this.2⟩
    · have := h4 η s h; exact ⟨by simp [this.1], this.2⟩
    · have := h5 η s h; exact ⟨by simp [this.1], this.2⟩
    · have := h6 η s h; exact ⟨by simp [this.1], this.2⟩
  | bmom a b c h1 h2 h3 =>
    intro η s h
    simp only [doit, freeHelicities, List.mem_append] at h ⊢
    rcases h with (h | h) | h
    · have := h1 η s h; exact ⟨by simp [this.1], this.2⟩
    · have := h2 η s h; exact ⟨by simp [this.1], this.2⟩
    · have := h3 η s h; exact ⟨by simp [this.1], this.2⟩
  | psum body ixs ih =>
    intro η s h
    simp only [doit, mem_free_addAll, List.mem_map] at h
    obtain ⟨e, ⟨a, ha, rfl⟩, h⟩ := h
    obtain ⟨h1, h2⟩ := ih _ s h
    rw [override_some] at h2
    simp only [Option.or_eq_none_iff] at h2
    refine ⟨?_, h2.2⟩
    simp only [freeHelicities, List.mem_filter, decide_eq_true_eq]
    refine ⟨h1, fun hm => ?_⟩
    have := (look_combos ha s).2 hm
    rw [h2.1] at this; simp at this

/-- Symbols that remain after unfolding were there before. -/
theorem mem_syms_doit (e : Expr) : ∀ (η : Sym → Option ℚ) (s : Sym),
    s ∈ (e.doit η).syms → s ∈ e.syms := by
  induction e with
  | num | I | idx | phase | cg => intro η s h; simp [doit, syms] at h
  | sym | wig => intro η s h; exact h
  | kron a b => intro η s h; simp only [doit] at h; split at h <;> simp [syms] at h
  | mul a b iha ihb =>
    intro η s h
    simp only [doit] at h
    simp only [syms, List.mem_append]
    exact (mem_syms_mulS h).imp (iha η s) (ihb η s)
  | add a b iha ihb | sub a b iha ihb | div a b iha ihb =>
    intro η s h
    simp only [doit, syms, List.mem_append] at h ⊢
    exact h.imp (iha η s) (ihb η s)
  | neg a iha | pow a n iha | sqrt a iha | exp a iha | abs a iha => intro η s h; exact iha η s h
  | ff a b c L d h1 h2 h3 h4 =>
    intro η s h
    simp only [doit, syms, List.mem_append] at h ⊢
    exact h.imp (Or.imp (Or.imp (h1 η s) (h2 η s)) (h3 η s)) (h4 η s)
  | edw a b c d e L f p h1 h2 h3 h4 h5 h6 =>
    intro η s h
    simp only [doit, syms, List.mem_append] at h ⊢
    exact h.imp (Or.imp (Or.imp (Or.imp (Or.imp (h1 η s) (h2 η s)) (h3 η s)) (h4 η s)) (h5 η s)) (h6 η s)
  | bmom a b c h1 h2 h3 =>
    intro η s h
    simp only [doit, syms, List.mem_append] at h ⊢
    exact h.imp (Or.imp (h1 η s) (h2 η s)) (h3 η s)
  | psum body ixs ih =>
    intro η s h
    simp only [doit, mem_syms_addAll, List.mem_map] at h
    obtain ⟨e, ⟨a, ha, rfl⟩, h⟩ := h
    exact ih _ s h

theorem syms_substHel (e : Expr) : ∀ η : Sym → Option ℚ, (e.substHel η).syms = e.syms := by
  induction e with
  | num | I | idx | phase | cg | sym | wig | kron => intro η; rfl
  | add a b iha ihb | sub a b iha ihb | mul a b iha ihb | div a b iha ihb =>
    intro η; simp only [substHel, syms, iha η, ihb η]
  | neg a iha | pow a n iha | sqrt a iha | exp a iha | abs a iha => intro η; exact iha η
  | ff a b c L d h1 h2 h3 h4 => intro η; simp only [substHel, syms, h1 η, h2 η, h3 η, h4 η]
  | edw a b c d e L f p h1 h2 h3 h4 h5 h6 =>
    intro η; simp only [substHel, syms, h1 η, h2 η, h3 η, h4 η, h5 η, h6 η]
  | bmom a b c h1 h2 h3 => intro η; simp only [substHel, syms, h1 η, h2 η, h3 η]
  | psum body ixs ih => intro η; exact ih _

theorem syms_cleanup (e : Expr) : e.cleanup.syms = e.syms := by
  cases e with
  | psum body ixs =>
    simp only [cleanup]
    split
    · exact syms_substHel _ _
    · exact syms_substHel _ _
  | _ => rfl

theorem mem_free_psum {body : Expr} {ixs : List (Sym × List ℚ)} {η : Sym → Option ℚ}
    {x : Sym} (h : x ∈ freeHelicities ((Expr.psum body ixs).doit η)) :
    ∃ a ∈ combos ixs, x ∈ freeHelicities (body.doit fun u => (look a u).or (η u)) := by
  simp only [doit, mem_free_addAll, List.mem_map] at h
  obtain ⟨e, ⟨a, ha, rfl⟩, hx⟩ := h
  rw [override_some] at hx
  exact ⟨a, ha, hx⟩

theorem mem_free_cleanup {body : Expr} {ixs : List (Sym × List ℚ)}
    (hn : (ixs.map Prod.fst).Nodup) (hne : ∀ x ∈ ixs, x.2 ≠ []) {η : Sym → Option ℚ}
    {x : Sym} (h : x ∈ freeHelicities ((Expr.psum body ixs).cleanup.doit η)) :
    ∃ a ∈ combos ixs, x ∈ freeHelicities (body.doit fun u => (look a u).or (η u)) := by
  have hl := look_manies hn hne
  have key : ∀ a ∈ combos (manies ixs), ∃ b ∈ combos ixs, look b =
      fun s => (look (singles ixs) s).or (look a s) := by
    intro a ha
    have : (fun s => (look (singles ixs) s).or (look a s)) ∈ (combos ixs).map look := by
      rw [hl]; exact List.mem_map.2 ⟨a, ha, rfl⟩
    exact List.mem_map.1 this
  rw [cleanup_psum] at h
  split at h
  · rename_i hm
    obtain ⟨b, hb, hb'⟩ := key [] (by rw [hm]; simp [combos])
    refine ⟨b, hb, ?_⟩
    rw [doit_substHel] at h
    have : (fun u => (look b u).or (η u)) = fun u => (look (singles ixs) u).or (η u) := by
      funext u; rw [hb']; simp [look_nil]
    rw [this]; exact h
  · obtain ⟨a, ha, hx⟩ := mem_free_psum h
    obtain ⟨b, hb, hb'⟩ := key a ha
    refine ⟨b, hb, ?_⟩
    rw [doit_substHel] at hx
    have : (fun u => (look b u).or (η u)) =
        fun u => (look (singles ixs) u).or ((look a u).or (η u)) := by
      funext u; rw [hb']; simp [Option.or_assoc]
    rw [this]; exact hx

/-- Helicity symbols after a replacement. -/
theorem mem_free_xreplace (d : PyDict Indexed Expr) (e : Expr) : ∀ s : Sym,
    s ∈ freeHelicities (e.xreplace d) →
      s ∈ freeHelicities e ∨
      ∃ y ∈ e.indexeds, ∃ v, PyDict.get? d y = some v ∧ s ∈ freeHelicities v := by
  induction e with
  | num | I | sym | phase | wig | cg | kron => intro s h; exact .inl h
  | idx y =>
    intro s h
    simp only [xreplace] at h
    cases hy : PyDict.get? d y with
    | none => rw [hy] at h; exact .inl h
    | some v => rw [hy] at h; exact .inr ⟨y, by simp [indexeds], v, hy, h⟩
  | add a b iha ihb | sub a b iha ihb | mul a b iha ihb | div a b iha ihb =>
    intro s h
    simp only [xreplace, freeHelicities, indexeds, List.mem_append] at h ⊢
    rcases h with h | h
    · rcases iha s h with h | ⟨y, hy, h⟩
      · exact .inl (.inl h)
      · exact .inr ⟨y, .inl hy, h⟩
    · rcases ihb s h with h | ⟨y, hy, h⟩
      · exact .inl (.inr h)
      · exact .inr ⟨y, .inr hy, h⟩
  | neg a iha | pow a n iha | sqrt a iha | exp a iha | abs a iha => intro s h; exact iha s h
  | ff a b c L d h1 h2 h3 h4 =>
    intro s h
    simp only [xreplace, freeHelicities, indexeds, List.mem_append] at h ⊢
    rcases h with ((h | h) | h) | h
    · rcases h1 s h with h | ⟨y, hy, h⟩
      · exact .inl (by simp [h])
      · exact .inr ⟨y, by simp [hy], h⟩
    · rcases h2 s h with h | ⟨y, hy, h⟩
      · exact .inl (by simp [h])
      · exact .inr ⟨y, by simp [hy], h⟩
    · rcases h3 s h with h | ⟨y, hy, h⟩
      · exact .inl (by simp [h])
      · exact .inr ⟨y, by simp [hy], h⟩
    · rcases h4 s h with h | ⟨y, hy, h⟩
      · exact .inl (by simp [h])
      · exact .inr ⟨y, by simp [hy], h⟩
  | edw a b c d e L f p h1 h2 h3 h4 h5 h6 =>
    intro s h
    simp only [xreplace, freeHelicities, indexeds, List.mem_append] at h ⊢
    rcases h with ((((h | h) | h) | h) | h) | h
    · rcases h1 s h with h | ⟨y, hy, h⟩
      · exact .inl (by simp [h])
      · exact .inr ⟨y, by simp [hy], h⟩
    · rcases h2 s h with h | ⟨y, hy, h⟩
      · exact .inl (by simp [h])
      · exact .inr ⟨y, by simp [hy], h⟩
    · rcases h3 s h with h | ⟨y, hy, h⟩
      · exact .inl (by simp [h])
      · exact .inr ⟨y, by simp [hy], h⟩
    · rcases h4 s h with h | ⟨y, hy, h⟩
      · exact .inl (by simp [h])
      · exact .inr ⟨y, by simp [hy], h⟩
    · rcases h5 s h with h | ⟨y, hy, h⟩
      · exact .inl (by simp [h])
      · exact .inr ⟨y, by simp [hy], h⟩
    · rcases h6 s h with h | ⟨y, hy, h⟩
      · exact .inl (by simp [h])
      · exact .inr ⟨y, by simp [hy], h⟩
  | bmom a b c h1 h2 h3 =>
    intro s h
    simp only [xreplace, freeHelicities, indexeds, List.mem_append] at h ⊢
    rcases h with (h | h) | h
    · rcases h1 s h with h | ⟨y, hy, h⟩
      · exact .inl (by simp [h])
      · exact .inr ⟨y, by simp [hy], h⟩
    · rcases h2 s h with h | ⟨y, hy, h⟩
      · exact .inl (by simp [h])
      · exact .inr ⟨y, by simp [hy], h⟩
    · rcases h3 s h with h | ⟨y, hy, h⟩
      · exact .inl (by simp [h])
      · exact .inr ⟨y, by simp [hy], h⟩
  | psum body ixs ih =>
    intro s h
    simp only [xreplace, freeHelicities, List.mem_filter, indexeds] at h ⊢
    rcases ih s h.1 with h' | h'
    · exact .inl ⟨h', h.2⟩
    · exact .inr h'

theorem mem_syms_xreplace (d : PyDict Indexed Expr) (e : Expr) : ∀ s : Sym,
    s ∈ (e.xreplace d).syms →
      s ∈ e.syms ∨ ∃ y ∈ e.indexeds, ∃ v, PyDict.get? d y = some v ∧ s ∈ v.syms := by
  induction e with
  | num | I | sym | phase | wig | cg | kron => intro s h; exact .inl h
  | idx y =>
    intro s h
    simp only [xreplace] at h
    cases hy : PyDict.get? d y with
    | none => rw [hy] at h; exact .inl h
    | some v => rw [hy] at h; exact .inr ⟨y, by simp [indexeds], v, hy, h⟩
  | add a b iha ihb | sub a b iha ihb | mul a b iha ihb | div a b iha ihb =>
    intro s h
    simp only [xreplace, syms, indexeds, List.mem_append] at h ⊢
    rcases h with h | h
    · rcases iha s h with h | ⟨y, hy, h⟩
      · exact .inl (.inl h)
      · exact .inr ⟨y, .inl hy, h⟩
    · rcases ihb s h with h | ⟨y, hy, h⟩
      · exact .inl (.inr h)
      · exact .inr ⟨y, .inr hy, h⟩
  | neg a iha | pow a n iha | sqrt a iha | exp a iha | abs a iha => intro s h; exact iha s h
  | ff a b c L d h1 h2 h3 h4 =>
    intro s h
    simp only [xreplace, syms, indexeds, List.mem_append] at h ⊢
    rcases h with ((h | h) | h) | h
    · rcases h1 s h with h | ⟨y, hy, h⟩
      · exact .inl (by simp [h])
      · exact .inr ⟨y, by simp [hy], h⟩
    · rcases h2 s h with h | ⟨y, hy, h⟩
      · exact .inl (by simp [h])
      · exact .inr ⟨y, by simp [hy], h⟩
    · rcases h3 s h with h | ⟨y, hy, h⟩
      · exact .inl (by simp [h])
      · exact .inr ⟨y, by simp [hy], h⟩
    · rcases h4 s h with h | ⟨y, hy, h⟩
      · exact .inl (by simp [h])
      · exact .inr ⟨y, by simp [hy], h⟩
  | edw a b c d e L f p h1 h2 h3 h4 h5 h6 =>
    intro s h
    simp only [xreplace, syms, indexeds, List.mem_append] at h ⊢
    rcases h with ((((h | h) | h) | h) | h) | h
    · rcases h1 s h with h | ⟨y, hy, h⟩
      · exact .inl (by simp [h])
      · exact .inr ⟨y, by simp [hy], h⟩
    · rcases h2 s h with h | ⟨y, hy, h⟩
      · exact .inl (by simp [h])
      · exact .inr ⟨y, by simp [hy], h⟩
    · rcases h3 s h with h | ⟨y, hy, h⟩
      · exact .inl (by simp [h])
      · exact .inr ⟨y, by simp [hy], h⟩
    · rcases h4 s h with h | ⟨y, hy, h⟩
      · exact .inl (by simp [h])
      · exact .inr ⟨y, by simp [hy], h⟩
    · rcases h5 s h with h | ⟨y, hy, h⟩
      · exact .inl (by simp [h])
      · exact .inr ⟨y, by simp [hy], h⟩
    · rcases h6 s h with h | ⟨y, hy, h⟩
      · exact .inl (by simp [h])
      · exact .inr ⟨y, by simp [hy], h⟩
  | bmom a b c h1 h2 h3 =>
    intro s h
    simp only [xreplace, syms, indexeds, List.mem_append] at h ⊢
    rcases h with (h | h) | h
    · rcases h1 s h with h | ⟨y, hy, h⟩
      · exact .inl (by simp [h])
      · exact .inr ⟨y, by simp [hy], h⟩
    · rcases h2 s h with h | ⟨y, hy, h⟩
      · exact .inl (by simp [h])
      · exact .inr ⟨y, by simp [hy], h⟩
    · rcases h3 s h with h | ⟨y, hy, h⟩
      · exact .inl (by simp [h])
      · exact .inr ⟨y, by simp [hy], h⟩
  | psum body ixs ih => intro s h; exact ih s h

/-- The value depends on the free symbols only. -/
theorem eval_congr {ι ι' : Interp} (hf : SameFunctions ι ι') (e : Expr) : e.Flat → ∀ {η η' : Sym → ℚ},
    (∀ s ∈ e.syms, ι.sym s = ι'.sym s) →
    (∀ x ∈ e.indexeds, ∀ η, (Expr.idx x).eval ι η = (Expr.idx x).eval ι' η) →
    (∀ s ∈ freeHelicities e, η s = η' s) → e.eval ι η = e.eval ι' η' := by
  induction e with
  | num | I => intros; rfl
  | sym s => intro hF η η' h1 h2 h3; exact h1 s (by simp [syms])
  | idx x =>
    intro hF η η' h1 h2 h3
    simp only [eval]
    refine (h2 x (by simp [indexeds]) η).trans ?_
    simp only [eval]
    congr 1
    apply List.map_congr_left
    intro y hy
    exact hel_eval_congr y fun s hs => h3 s (by
      simp only [freeHelicities, List.mem_flatMap]; exact ⟨y, hy, hs⟩)
  | phase y =>
    intro hF η η' h1 h2 h3
    simp only [eval]
    rw [hel_eval_congr y h3]
  | kron a b =>
    intro hF η η' h1 h2 h3
    simp only [eval]
    rw [hel_eval_congr a fun s hs => h3 s (by simp [freeHelicities, hs]),
      hel_eval_congr b fun s hs => h3 s (by simp [freeHelicities, hs])]
  | wig j a b θ =>
    intro hF η η' h1 h2 h3
    simp only [eval]
    rw [hel_eval_congr a fun s hs => h3 s (by simp [freeHelicities, hs]),
      hel_eval_congr b fun s hs => h3 s (by simp [freeHelicities, hs]), hf.wig,
      h1 θ (by simp [syms])]
  | cg j1 m1 j2 m2 j3 m3 =>
    intro hF η η' h1 h2 h3
    simp only [eval]
    rw [hel_eval_congr j1 fun s hs => h3 s (by simp [freeHelicities, hs]),
      hel_eval_congr m1 fun s hs => h3 s (by simp [freeHelicities, hs]),
      hel_eval_congr j2 fun s hs => h3 s (by simp [freeHelicities, hs]),
      hel_eval_congr m2 fun s hs => h3 s (by simp [freeHelicities, hs]),
      hel_eval_congr j3 fun s hs => h3 s (by simp [freeHelicities, hs]),
      hel_eval_congr m3 fun s hs => h3 s (by simp [freeHelicities, hs]), hf.cg]
  | add a b iha ihb | sub a b iha ihb | mul a b iha ihb | div a b iha ihb =>
    intro hF η η' h1 h2 h3
    simp only [eval]
    rw [iha hF.1 (fun s hs => h1 s (by simp [syms, hs])) (fun s hs => h2 s (by simp [indexeds, hs]))
        (fun s hs => h3 s (by simp [freeHelicities, hs])),
      ihb hF.2 (fun s hs => h1 s (by simp [syms, hs])) (fun s hs => h2 s (by simp [indexeds, hs]))
        (fun s hs => h3 s (by simp [freeHelicities, hs]))]
  | neg a iha | pow a n iha | sqrt a iha | exp a iha | abs a iha =>
    intro hF η η' h1 h2 h3
    simp only [eval]
    rw [iha hF h1 h2 h3]
  | ff a b c L d i1 i2 i3 i4 =>
    intro hF η η' h1 h2 h3
    simp only [eval]
    rw [i1 hF.1 (fun s hs => h1 s (by simp [syms, hs])) (fun s hs => h2 s (by simp [indexeds, hs]))
        (fun s hs => h3 s (by simp [freeHelicities, hs])),
      i2 hF.2.1 (fun s hs => h1 s (by simp [syms, hs])) (fun s hs => h2 s (by simp [indexeds, hs]))
        (fun s hs => h3 s (by simp [freeHelicities, hs])),
      i3 hF.2.2.1 (fun s hs => h1 s (by simp [syms, hs])) (fun s hs => h2 s (by simp [indexeds, hs]))
        (fun s hs => h3 s (by simp [freeHelicities, hs])),
      i4 hF.2.2.2 (fun s hs => h1 s (by simp [syms, hs])) (fun s hs => h2 s (by simp [indexeds, hs]))
        (fun s hs => h3 s (by simp [freeHelicities, hs])), hf.ff]
  | edw a b c d e L f p i1 i2 i3 i4 i5 i6 =>
    intro hF η η' h1 h2 h3
    simp only [eval]
    rw [i1 hF.1 (fun s hs => h1 s (by simp [syms, hs])) (fun s hs => h2 s (by simp [indexeds, hs]))
        (fun s hs => h3 s (by simp [freeHelicities, hs])),
      i2 hF.2.1 (fun s hs => h1 s (by simp [syms, hs])) (fun s hs => h2 s (by simp [indexeds, hs]))
        (fun s hs => h3 s (by simp [freeHelicities, hs])),
      i3 hF.2.2.1 (fun s hs => h1 s (by simp [syms, hs])) (fun s hs => h2 s (by simp [indexeds, hs]))
        (fun s hs => h3 s (by simp [freeHelicities, hs])),
      i4 hF.2.2.2.1 (fun s hs => h1 s (by simp [syms, hs])) (fun s hs => h2 s (by simp [indexeds, hs]))
        (fun s hs => h3 s (by simp [freeHelicities, hs])),
      i5 hF.2.2.2.2.1 (fun s hs => h1 s (by simp [syms, hs])) (fun s hs => h2 s (by simp [indexeds, hs]))
        (fun s hs => h3 s (by simp [freeHelicities, hs])),
      i6 hF.2.2.2.2.2 (fun s hs => h1 s (by simp [syms, hs])) (fun s hs => h2 s (by simp [indexeds, hs]))
        (fun s hs => h3 s (by simp [freeHelicities, hs])), hf.edw]
  | bmom a b c i1 i2 i3 =>
    intro hF η η' h1 h2 h3
    simp only [eval]
    rw [i1 hF.1 (fun s hs => h1 s (by simp [syms, hs])) (fun s hs => h2 s (by simp [indexeds, hs]))
        (fun s hs => h3 s (by simp [freeHelicities, hs])),
      i2 hF.2.1 (fun s hs => h1 s (by simp [syms, hs])) (fun s hs => h2 s (by simp [indexeds, hs]))
        (fun s hs => h3 s (by simp [freeHelicities, hs])),
      i3 hF.2.2 (fun s hs => h1 s (by simp [syms, hs])) (fun s hs => h2 s (by simp [indexeds, hs]))
        (fun s hs => h3 s (by simp [freeHelicities, hs])), hf.bmom]
  | psum body ixs ih => intro hF; exact hF.elim

theorem flat_xreplace (d : PyDict Indexed Expr) (hd : ∀ x ∈ d, x.2.Flat) (e : Expr) (hF : e.Flat) :
    (e.xreplace d).Flat := by
  induction e with
  | num | I | sym | phase | wig | cg | kron => trivial
  | idx y =>
    simp only [xreplace]
    cases hy : PyDict.get? d y with
    | none => trivial
    | some v => exact hd _ (PyDict.mem_of_get? hy)
  | add a b iha ihb | sub a b iha ihb | mul a b iha ihb | div a b iha ihb =>
    exact ⟨iha hF.1, ihb hF.2⟩
  | neg a iha | pow a n iha | sqrt a iha | exp a iha | abs a iha => exact iha hF
  | ff a b c L d h1 h2 h3 h4 => exact ⟨h1 hF.1, h2 hF.2.1, h3 hF.2.2.1, h4 hF.2.2.2⟩
  | edw a b c d e L f p h1 h2 h3 h4 h5 h6 =>
    exact ⟨h1 hF.1, h2 hF.2.1, h3 hF.2.2.1, h4 hF.2.2.2.1, h5 hF.2.2.2.2.1, h6 hF.2.2.2.2.2⟩
  | bmom a b c h1 h2 h3 => exact ⟨h1 hF.1, h2 hF.2.1, h3 hF.2.2⟩
  | psum body ixs ih => exact hF.elim

theorem flat_full (m : ThreeBody.AmplitudeModel) : m.fullExpression.Flat := by
  apply flat_xreplace
  · intro x hx
    obtain ⟨y, -, rfl⟩ := List.mem_map.1 hx
    exact flat_doit _ _
  · exact flat_doit _ _

end Expr

theorem RExpr.eval_congr (e : RExpr) {ρ ρ' : Sym → ℝ} (h : ∀ s ∈ kinematicSymbols e, ρ s = ρ' s) :
    e.eval ρ = e.eval ρ' := by
  induction e with
  | num q => rfl
  | sym s => simp only [RExpr.eval]; rw [h s (by simp [kinematicSymbols])]
  | add a b iha ihb | sub a b iha ihb | mul a b iha ihb | div a b iha ihb =>
    simp only [RExpr.eval]
    rw [iha fun s hs => h s (by simp [kinematicSymbols, hs]),
      ihb fun s hs => h s (by simp [kinematicSymbols, hs])]
  | neg a iha | pow a n iha | sqrt a iha | acos a iha => simp only [RExpr.eval]; rw [iha h]
  | kallen a b c h1 h2 h3 =>
    simp only [RExpr.eval]
    rw [h1 fun s hs => h s (by simp [kinematicSymbols, hs]),
      h2 fun s hs => h s (by simp [kinematicSymbols, hs]),
      h3 fun s hs => h s (by simp [kinematicSymbols, hs])]

end Verif
