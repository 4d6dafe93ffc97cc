import Verif.Model.FreeParameters
import Verif.Spec.FreeParameters
import Verif.Proofs.Closure

/-! Lemmas for C130. -/
namespace Verif
open Verif.Spec

theorem Val.eval_toExpr (v : Val) (ι : Interp) (η : Sym → ℚ) : v.toExpr.eval ι η = v.toC := by
  cases v <;> rfl

theorem Val.syms_toExpr (v : Val) : v.toExpr.syms = [] ∧ v.toExpr.indexeds = [] ∧ freeHelicities v.toExpr = [] := by
  cases v <;> exact ⟨rfl, rfl, rfl⟩

namespace Expr

theorem wignerAngles_subset (e : Expr) : ∀ s ∈ e.wignerAngles, s ∈ e.syms := by
  induction e with
  | num | I | idx | phase | kron | cg | sym => intro s hs; cases hs
  | wig j a b θ => intro s hs; exact hs
  | neg a ih | pow a n ih | sqrt a ih | exp a ih | abs a ih => exact ih
  | psum body ixs ih => exact ih
  | add a b h1 h2 | sub a b h1 h2 | mul a b h1 h2 | div a b h1 h2 =>
    intro s hs
    simp only [wignerAngles, syms, List.mem_append] at hs ⊢
    exact hs.imp (h1 s) (h2 s)
  | bmom a b c h1 h2 h3 =>
    intro s hs
    simp only [wignerAngles, syms, List.mem_append] at hs ⊢
    exact hs.imp (Or.imp (h1 s) (h2 s)) (h3 s)
  | ff a b c L d h1 h2 h3 h4 =>
    intro s hs
    simp only [wignerAngles, syms, List.mem_append] at hs ⊢
    exact hs.imp (Or.imp (Or.imp (h1 s) (h2 s)) (h3 s)) (h4 s)
  | edw a b c d e L f p h1 h2 h3 h4 h5 h6 =>
    intro s hs
    simp only [wignerAngles, syms, List.mem_append] at hs ⊢
    exact hs.imp (Or.imp (Or.imp (Or.imp (Or.imp (h1 s) (h2 s)) (h3 s)) (h4 s)) (h5 s)) (h6 s)

theorem mem_wigner_addAll (l : List Expr) (s : Sym) :
    s ∈ (addAll l).wignerAngles ↔ ∃ e ∈ l, s ∈ e.wignerAngles := by
  induction l with
  | nil => simp [addAll, wignerAngles]
  | cons e t ih => simp [addAll, wignerAngles, ih]

theorem mem_wigner_mulS {a b : Expr} {s : Sym} (h : s ∈ (mulS a b).wignerAngles) :
    s ∈ a.wignerAngles ∨ s ∈ b.wignerAngles := by
  unfold mulS at h
  split at h
  · simp [wignerAngles] at h
  · simpa [wignerAngles] using h

theorem mem_wigner_doit (e : Expr) : ∀ (η : Sym → Option ℚ) (s : Sym),
    s ∈ (e.doit η).wignerAngles → s ∈ e.wignerAngles := by
  induction e with
  | num | I | idx | phase | cg => intro η s h; simp [doit, wignerAngles] at h
  | sym | wig => intro η s h; exact h
  | kron a b => intro η s h; simp only [doit] at h; split at h <;> simp [wignerAngles] at h
  | mul a b iha ihb =>
    intro η s h
    simp only [doit] at h
    simp only [wignerAngles, List.mem_append]
    exact (mem_wigner_mulS h).imp (iha η s) (ihb η s)
  | add a b iha ihb | sub a b iha ihb | div a b iha ihb =>
    intro η s h
    simp only [doit, wignerAngles, List.mem_append] at h ⊢
    exact h.imp (iha η s) (ihb η s)
  | neg a iha | pow a n iha | sqrt a iha | exp a iha | abs a iha => intro η s h; exact iha η s h
  | ff a b c L d h1 h2 h3 h4 =>
    intro η s h
    simp only [doit, wignerAngles, List.mem_append] at h ⊢
    exact h.imp (Or.imp (Or.imp (h1 η s) (h2 η s)) (h3 η s)) (h4 η s)
  | edw a b c d e L f p h1 h2 h3 h4 h5 h6 =>
    intro η s h
    simp only [doit, wignerAngles, List.mem_append] at h ⊢
    exact h.imp (Or.imp (Or.imp (Or.imp (Or.imp (h1 η s) (h2 η s)) (h3 η s)) (h4 η s)) (h5 η s)) (h6 η s)
  | bmom a b c h1 h2 h3 =>
    intro η s h
    simp only [doit, wignerAngles, List.mem_append] at h ⊢
    exact h.imp (Or.imp (h1 η s) (h2 η s)) (h3 η s)
  | psum body ixs ih =>
    intro η s h
    simp only [doit, mem_wigner_addAll, List.mem_map] at h
    obtain ⟨e, ⟨a, ha, rfl⟩, h⟩ := h
    exact ih _ s h

theorem mem_wigner_xreplace (d : PyDict Indexed Expr) (e : Expr) : ∀ s : Sym,
    s ∈ (e.xreplace d).wignerAngles →
      s ∈ e.wignerAngles ∨ ∃ y ∈ e.indexeds, ∃ v, PyDict.get? d y = some v ∧ s ∈ v.wignerAngles := by
  induction e with
  | num | I | sym | phase | wig | cg | kron => intro s h; exact .inl h
  | idx y =>
    intro s h
    simp only [xreplace] at h
    cases hy : PyDict.get? d y with
    | none => rw [hy] at h; exact .inl h
    | some v => rw [hy] at h; exact .inr ⟨y, by simp [indexeds], v, hy, h⟩
  | add a b iha ihb | sub a b iha ihb | mul a b iha ihb | div a b iha ihb =>
    intro s h
    simp only [xreplace, wignerAngles, indexeds, List.mem_append] at h ⊢
    rcases h with h | h
    · rcases iha s h with h | ⟨y, hy, h⟩
      · exact .inl (.inl h)
      · exact .inr ⟨y, .inl hy, h⟩
    · rcases ihb s h with h | ⟨y, hy, h⟩
      · exact .inl (.inr h)
      · exact .inr ⟨y, .inr hy, h⟩
  | neg a iha | pow a n iha | sqrt a iha | exp a iha | abs a iha => intro s h; exact iha s h
  | ff a b c L d h1 h2 h3 h4 =>
    intro s h
    simp only [xreplace, wignerAngles, indexeds, List.mem_append] at h ⊢
    rcases h with ((h | h) | h) | h
    · rcases h1 s h with h | ⟨y, hy, h⟩
      · exact .inl (by simp [h])
      · exact .inr ⟨y, by simp [hy], h⟩
    · rcases h2 s h with h | ⟨y, hy, h⟩
      · exact .inl (by simp [h])
      · exact .inr ⟨y, by simp [hy], h⟩
    · rcases h3 s h with h | ⟨y, hy, h⟩
      · exact .inl (by simp [h])
      · exact .inr ⟨y, by simp [hy], h⟩
    · rcases h4 s h with h | ⟨y, hy, h⟩
      · exact .inl (by simp [h])
      · exact .inr ⟨y, by simp [hy], h⟩
  | edw a b c d e L f p h1 h2 h3 h4 h5 h6 =>
    intro s h
    simp only [xreplace, wignerAngles, indexeds, List.mem_append] at h ⊢
    rcases h with ((((h | h) | h) | h) | h) | h
    · rcases h1 s h with h | ⟨y, hy, h⟩
      · exact .inl (by simp [h])
      · exact .inr ⟨y, by simp [hy], h⟩
    · rcases h2 s h with h | ⟨y, hy, h⟩
      · exact .inl (by simp [h])
      · exact .inr ⟨y, by simp [hy], h⟩
    · rcases h3 s h with h | ⟨y, hy, h⟩
      · exact .inl (by simp [h])
      · exact .inr ⟨y, by simp [hy], h⟩
    · rcases h4 s h with h | ⟨y, hy, h⟩
      · exact .inl (by simp [h])
      · exact .inr ⟨y, by simp [hy], h⟩
    · rcases h5 s h with h | ⟨y, hy, h⟩
      · exact .inl (by simp [h])
      · exact .inr ⟨y, by simp [hy], h⟩
    · rcases h6 s h with h | ⟨y, hy, h⟩
      · exact .inl (by simp [h])
      · exact .inr ⟨y, by simp [hy], h⟩
  | bmom a b c h1 h2 h3 =>
    intro s h
    simp only [xreplace, wignerAngles, indexeds, List.mem_append] at h ⊢
    rcases h with (h | h) | h
    · rcases h1 s h with h | ⟨y, hy, h⟩
      · exact .inl (by simp [h])
      · exact .inr ⟨y, by simp [hy], h⟩
    · rcases h2 s h with h | ⟨y, hy, h⟩
      · exact .inl (by simp [h])
      · exact .inr ⟨y, by simp [hy], h⟩
    · rcases h3 s h with h | ⟨y, hy, h⟩
      · exact .inl (by simp [h])
      · exact .inr ⟨y, by simp [hy], h⟩
  | psum body ixs ih => intro s h; exact ih s h

/-- Inserting values and evaluating is evaluating with these values. -/
theorem eval_insertValues {d : PyDict Key Val} {ι ι' : Interp} (hf : SameFunctions ι ι') {η : Sym → ℚ} (e : Expr) : e.Flat →
    (∀ s ∈ e.syms, ι'.sym s = ((PyDict.get? d (.sym s)).map Val.toC).getD (ι.sym s)) →
    (∀ x ∈ e.indexeds, (Expr.idx x).eval ι' η = ((PyDict.get? d (.idx x)).map Val.toC).getD ((Expr.idx x).eval ι η)) →
    (∀ s ∈ e.wignerAngles, PyDict.get? d (.sym s) = none) → (e.insertValues d).eval ι η = e.eval ι' η := by
  induction e with
  | num | I | phase | kron => intros; rfl
  | sym s =>
    intro _ h1 _ _
    rw [eval, h1 s (by simp [syms])]
    simp only [insertValues]
    cases PyDict.get? d (.sym s) with
    | none => rfl
    | some v => exact v.eval_toExpr ι η
  | idx x =>
    intro _ _ h2 _
    rw [h2 x (by simp [indexeds])]
    simp only [insertValues]
    cases PyDict.get? d (.idx x) with
    | none => rfl
    | some v => exact v.eval_toExpr ι η
  | wig j a b θ =>
    intro _ h1 _ h3
    simp only [insertValues, eval]
    rw [h1 θ (by simp [syms]), h3 θ (by simp [wignerAngles]), hf.wig]
    rfl
  | cg => intros; simp only [insertValues, eval]; rw [hf.cg]
  | add a b iha ihb | sub a b iha ihb | mul a b iha ihb | div a b iha ihb =>
    intro hF h1 h2 h3
    simp only [insertValues, eval]
    rw [iha hF.1 (fun s hs => h1 s (by simp [syms, hs])) (fun s hs => h2 s (by simp [indexeds, hs]))
        (fun s hs => h3 s (by simp [wignerAngles, hs])),
      ihb hF.2 (fun s hs => h1 s (by simp [syms, hs])) (fun s hs => h2 s (by simp [indexeds, hs]))
        (fun s hs => h3 s (by simp [wignerAngles, hs]))]
  | neg a iha | pow a n iha | sqrt a iha | exp a iha | abs a iha =>
    intro hF h1 h2 h3
    simp only [insertValues, eval]
    rw [iha hF h1 h2 h3]
  | ff a b c L d i1 i2 i3 i4 =>
    intro hF h1 h2 h3
    simp only [insertValues, eval]
    rw [i1 hF.1 (fun s hs => h1 s (by simp [syms, hs])) (fun s hs => h2 s (by simp [indexeds, hs]))
        (fun s hs => h3 s (by simp [wignerAngles, hs])),
      i2 hF.2.1 (fun s hs => h1 s (by simp [syms, hs])) (fun s hs => h2 s (by simp [indexeds, hs]))
        (fun s hs => h3 s (by simp [wignerAngles, hs])),
      i3 hF.2.2.1 (fun s hs => h1 s (by simp [syms, hs])) (fun s hs => h2 s (by simp [indexeds, hs]))
        (fun s hs => h3 s (by simp [wignerAngles, hs])),
      i4 hF.2.2.2 (fun s hs => h1 s (by simp [syms, hs])) (fun s hs => h2 s (by simp [indexeds, hs]))
        (fun s hs => h3 s (by simp [wignerAngles, hs])), hf.ff]
  | edw a b c d e L f p i1 i2 i3 i4 i5 i6 =>
    intro hF h1 h2 h3
    simp only [insertValues, eval]
    rw [i1 hF.1 (fun s hs => h1 s (by simp [syms, hs])) (fun s hs => h2 s (by simp [indexeds, hs]))
        (fun s hs => h3 s (by simp [wignerAngles, hs])),
      i2 hF.2.1 (fun s hs => h1 s (by simp [syms, hs])) (fun s hs => h2 s (by simp [indexeds, hs]))
        (fun s hs => h3 s (by simp [wignerAngles, hs])),
      i3 hF.2.2.1 (fun s hs => h1 s (by simp [syms, hs])) (fun s hs => h2 s (by simp [indexeds, hs]))
        (fun s hs => h3 s (by simp [wignerAngles, hs])),
      i4 hF.2.2.2.1 (fun s hs => h1 s (by simp [syms, hs])) (fun s hs => h2 s (by simp [indexeds, hs]))
        (fun s hs => h3 s (by simp [wignerAngles, hs])),
      i5 hF.2.2.2.2.1 (fun s hs => h1 s (by simp [syms, hs])) (fun s hs => h2 s (by simp [indexeds, hs]))
        (fun s hs => h3 s (by simp [wignerAngles, hs])),
      i6 hF.2.2.2.2.2 (fun s hs => h1 s (by simp [syms, hs])) (fun s hs => h2 s (by simp [indexeds, hs]))
        (fun s hs => h3 s (by simp [wignerAngles, hs])), hf.edw]
  | bmom a b c i1 i2 i3 =>
    intro hF h1 h2 h3
    simp only [insertValues, eval]
    rw [i1 hF.1 (fun s hs => h1 s (by simp [syms, hs])) (fun s hs => h2 s (by simp [indexeds, hs]))
        (fun s hs => h3 s (by simp [wignerAngles, hs])),
      i2 hF.2.1 (fun s hs => h1 s (by simp [syms, hs])) (fun s hs => h2 s (by simp [indexeds, hs]))
        (fun s hs => h3 s (by simp [wignerAngles, hs])),
      i3 hF.2.2 (fun s hs => h1 s (by simp [syms, hs])) (fun s hs => h2 s (by simp [indexeds, hs]))
        (fun s hs => h3 s (by simp [wignerAngles, hs])), hf.bmom]
  | psum body ixs ih => intro hF; exact hF.elim

/-- What is left after inserting values. -/
theorem syms_insertValues {d : PyDict Key Val} (e : Expr) (h : ∀ s ∈ e.wignerAngles, PyDict.get? d (.sym s) = none) :
    ∀ s, s ∈ (e.insertValues d).syms ↔ s ∈ e.syms ∧ PyDict.get? d (.sym s) = none := by
  induction e with
  | num | I | phase | kron | cg => intro s; simp [insertValues, syms]
  | sym t =>
    intro s
    simp only [insertValues]
    cases ht : PyDict.get? d (.sym t) with
    | none =>
      simp only [syms, List.mem_singleton]
      exact ⟨fun e => ⟨e, e ▸ ht⟩, fun e => e.1⟩
    | some v =>
      simp only [syms, List.mem_singleton]
      rw [(v.syms_toExpr).1]
      refine ⟨fun e => (by cases e), ?_⟩
      rintro ⟨rfl, e⟩
      rw [ht] at e
      cases e
  | idx x =>
    intro s
    simp only [insertValues]
    cases PyDict.get? d (.idx x) with
    | none => simp [syms]
    | some v => simp only; rw [(v.syms_toExpr).1]; simp [syms]
  | wig j a b θ =>
    intro s
    simp only [insertValues, syms, List.mem_singleton]
    exact ⟨fun e => ⟨e, e ▸ h θ (by simp [wignerAngles])⟩, fun e => e.1⟩
  | neg a ih | pow a n ih | sqrt a ih | exp a ih | abs a ih => exact ih h
  | psum body ixs ih => exact ih h
  | add a b h1 h2 | sub a b h1 h2 | mul a b h1 h2 | div a b h1 h2 =>
    intro s
    simp only [wignerAngles, List.mem_append] at h
    simp only [insertValues, syms, List.mem_append]
    rw [h1 (fun s hs => h s (by simp [hs])), h2 (fun s hs => h s (by simp [hs]))]
    simp only [or_and_right]
  | bmom a b c h1 h2 h3 =>
    intro s
    simp only [wignerAngles, List.mem_append] at h
    simp only [insertValues, syms, List.mem_append]
    rw [h1 (fun s hs => h s (by simp [hs])), h2 (fun s hs => h s (by simp [hs])), h3 (fun s hs => h s (by simp [hs]))]
    simp only [or_and_right]
  | ff a b c L d h1 h2 h3 h4 =>
    intro s
    simp only [wignerAngles, List.mem_append] at h
    simp only [insertValues, syms, List.mem_append]
    rw [h1 (fun s hs => h s (by simp [hs])), h2 (fun s hs => h s (by simp [hs])), h3 (fun s hs => h s (by simp [hs])),
      h4 (fun s hs => h s (by simp [hs]))]
    simp only [or_and_right]
  | edw a b c d e L f p h1 h2 h3 h4 h5 h6 =>
    intro s
    simp only [wignerAngles, List.mem_append] at h
    simp only [insertValues, syms, List.mem_append]
    rw [h1 (fun s hs => h s (by simp [hs])), h2 (fun s hs => h s (by simp [hs])), h3 (fun s hs => h s (by simp [hs])),
      h4 (fun s hs => h s (by simp [hs])), h5 (fun s hs => h s (by simp [hs])), h6 (fun s hs => h s (by simp [hs]))]
    simp only [or_and_right]

theorem indexeds_insertValues {d : PyDict Key Val} (e : Expr) :
    ∀ x, x ∈ (e.insertValues d).indexeds ↔ x ∈ e.indexeds ∧ PyDict.get? d (.idx x) = none := by
  induction e with
  | num | I | phase | kron | cg | wig => intro s; simp [insertValues, indexeds]
  | sym t =>
    intro x
    simp only [insertValues]
    cases PyDict.get? d (.sym t) with
    | none => simp [indexeds]
    | some v => simp only; rw [(v.syms_toExpr).2.1]; simp [indexeds]
  | idx y =>
    intro x
    simp only [insertValues]
    cases hy : PyDict.get? d (.idx y) with
    | none =>
      simp only [indexeds, List.mem_singleton]
      exact ⟨fun e => ⟨e, e ▸ hy⟩, fun e => e.1⟩
    | some v =>
      simp only [indexeds, List.mem_singleton]
      rw [(v.syms_toExpr).2.1]
      refine ⟨fun e => (by cases e), ?_⟩
      rintro ⟨rfl, e⟩
      rw [hy] at e
      cases e
  | neg a ih | pow a n ih | sqrt a ih | exp a ih | abs a ih => exact ih
  | psum body ixs ih => exact ih
  | add a b h1 h2 | sub a b h1 h2 | mul a b h1 h2 | div a b h1 h2 =>
    intro x
    simp only [insertValues, indexeds, List.mem_append]
    rw [h1, h2]
    simp only [or_and_right]
  | bmom a b c h1 h2 h3 =>
    intro x
    simp only [insertValues, indexeds, List.mem_append]
    rw [h1, h2, h3]
    simp only [or_and_right]
  | ff a b c L d h1 h2 h3 h4 =>
    intro x
    simp only [insertValues, indexeds, List.mem_append]
    rw [h1, h2, h3, h4]
    simp only [or_and_right]
  | edw a b c d e L f p h1 h2 h3 h4 h5 h6 =>
    intro x
    simp only [insertValues, indexeds, List.mem_append]
    rw [h1, h2, h3, h4, h5, h6]
    simp only [or_and_right]

end Expr
end Verif
