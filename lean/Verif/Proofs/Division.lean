import Verif.Spec.Division
import Verif.Proofs.Closure

/-! Lemmas for C81. -/
namespace Verif.Expr
open Verif Verif.Spec

variable {ι : Interp}

theorem safe_addAll (η : Sym → ℚ) (l : List Expr) :
    NoZeroDivision ι η (addAll l) ↔ ∀ e ∈ l, NoZeroDivision ι η e := by
  induction l with
  | nil => simp [addAll, NoZeroDivision]
  | cons e t ih => simp [addAll, NoZeroDivision, ih]

theorem safe_mulS {η : Sym → ℚ} {a b : Expr} (ha : NoZeroDivision ι η a) (hb : NoZeroDivision ι η b) :
    NoZeroDivision ι η (mulS a b) := by
  unfold mulS
  split
  · trivial
  · exact ⟨ha, hb⟩

theorem safe_substHel (e : Expr) : ∀ (s : Sym → Option ℚ) (η : Sym → ℚ),
    NoZeroDivision ι η (e.substHel s) ↔ NoZeroDivision ι (fun u => (s u).getD (η u)) e := by
  induction e with
  | num | I | sym | idx | phase | kron | wig | cg => intros; simp only [substHel, NoZeroDivision]
  | add a b iha ihb | sub a b iha ihb | mul a b iha ihb =>
    intro s η; simp only [substHel, NoZeroDivision, iha, ihb]
  | div a b iha ihb => intro s η; simp only [substHel, NoZeroDivision, iha, ihb, eval_substHel]
  | neg a iha | pow a n iha | sqrt a iha | exp a iha | abs a iha =>
    intro s η; simp only [substHel, NoZeroDivision, iha]
  | ff a b c L d h1 h2 h3 h4 => intro s η; simp only [substHel, NoZeroDivision, h1, h2, h3, h4]
  | edw a b c d e L f p h1 h2 h3 h4 h5 h6 =>
    intro s η; simp only [substHel, NoZeroDivision, h1, h2, h3, h4, h5, h6]
  | bmom a b c h1 h2 h3 => intro s η; simp only [substHel, NoZeroDivision, h1, h2, h3]
  | psum body ixs ih =>
    intro s η
    simp only [substHel, NoZeroDivision]
    refine forall₂_congr fun a ha => ?_
    rw [ih]
    refine iff_of_eq (congrArg (fun f => NoZeroDivision ι f body) ?_)
    funext u
    rw [override_id, override_id]
    have := look_combos ha u
    by_cases hu : u ∈ ixs.map Prod.fst
    · rw [if_pos hu]
      obtain ⟨v, hv⟩ := Option.isSome_iff_exists.1 (this.2 hu)
      simp [hv]
    · rw [if_neg hu]
      have : look a u = none := by
        cases h : look a u with
        | none => rfl
        | some v => exact absurd (this.1 (by simp [h])) hu
      simp [this]

/-- Unfolding sums introduces no division by zero. -/
theorem safe_doit (e : Expr) : ∀ (s : Sym → Option ℚ) (η : Sym → ℚ),
    NoZeroDivision ι (fun u => (s u).getD (η u)) e → NoZeroDivision ι η (e.doit s) := by
  induction e with
  | num | I | sym | idx | phase | wig | cg => intros; simp only [doit, NoZeroDivision]
  | kron a b => intro s η _; simp only [doit]; split <;> simp only [NoZeroDivision]
  | mul a b iha ihb => intro s η h; exact safe_mulS (iha _ _ h.1) (ihb _ _ h.2)
  | add a b iha ihb | sub a b iha ihb => intro s η h; exact ⟨iha _ _ h.1, ihb _ _ h.2⟩
  | div a b iha ihb =>
    intro s η h
    exact ⟨iha _ _ h.1, ihb _ _ h.2.1, by rw [eval_doit]; exact h.2.2⟩
  | neg a iha | pow a n iha | sqrt a iha | exp a iha | abs a iha => intro s η h; exact iha _ _ h
  | ff a b c L d h1 h2 h3 h4 =>
    intro s η h; exact ⟨h1 _ _ h.1, h2 _ _ h.2.1, h3 _ _ h.2.2.1, h4 _ _ h.2.2.2⟩
  | edw a b c d e L f p h1 h2 h3 h4 h5 h6 =>
    intro s η h
    exact ⟨h1 _ _ h.1, h2 _ _ h.2.1, h3 _ _ h.2.2.1, h4 _ _ h.2.2.2.1, h5 _ _ h.2.2.2.2.1,
      h6 _ _ h.2.2.2.2.2⟩
  | bmom a b c h1 h2 h3 => intro s η h; exact ⟨h1 _ _ h.1, h2 _ _ h.2.1, h3 _ _ h.2.2⟩
  | psum body ixs ih =>
    intro s η h
    simp only [doit]
    rw [safe_addAll]
    intro e he
    obtain ⟨a, ha, rfl⟩ := List.mem_map.1 he
    apply ih
    have := h a ha
    refine (congrArg (fun f => NoZeroDivision ι f body) ?_).mp this
    funext u
    rw [override_some, override_id]
    cases look a u <;> simp

/-- The expression contains no division. -/
def Undivided : Expr → Prop
  | .num _ | .I | .sym _ | .idx _ | .phase _ | .kron .. | .wig .. | .cg .. => True
  | .add a b | .sub a b | .mul a b => a.Undivided ∧ b.Undivided
  | .div _ _ => False
  | .neg a | .pow a _ | .sqrt a | .exp a | .abs a => a.Undivided
  | .ff s m1 m2 _ R => s.Undivided ∧ m1.Undivided ∧ m2.Undivided ∧ R.Undivided
  | .edw s m0 g0 m1 m2 _ R _ => s.Undivided ∧ m0.Undivided ∧ g0.Undivided ∧ m1.Undivided ∧ m2.Undivided ∧ R.Undivided
  | .bmom s m1 m2 => s.Undivided ∧ m1.Undivided ∧ m2.Undivided
  | .psum body _ => body.Undivided

theorem undivided_addAll (l : List Expr) : (addAll l).Undivided ↔ ∀ e ∈ l, e.Undivided := by
  induction l with
  | nil => simp [addAll, Undivided]
  | cons e t ih => simp [addAll, Undivided, ih]

theorem undivided_doit (e : Expr) : ∀ s, e.Undivided → (e.doit s).Undivided := by
  induction e with
  | num | I | sym | idx | phase | wig | cg => intros; simp only [doit, Undivided]
  | kron a b => intro s _; simp only [doit]; split <;> simp only [Undivided]
  | mul a b iha ihb =>
    intro s h
    simp only [doit, mulS]
    split
    · trivial
    · exact ⟨iha _ h.1, ihb _ h.2⟩
  | add a b iha ihb | sub a b iha ihb => intro s h; exact ⟨iha _ h.1, ihb _ h.2⟩
  | div a b => intro s h; exact h.elim
  | neg a iha | pow a n iha | sqrt a iha | exp a iha | abs a iha => intro s h; exact iha _ h
  | ff a b c L d h1 h2 h3 h4 =>
    intro s h; exact ⟨h1 _ h.1, h2 _ h.2.1, h3 _ h.2.2.1, h4 _ h.2.2.2⟩
  | edw a b c d e L f p h1 h2 h3 h4 h5 h6 =>
    intro s h
    exact ⟨h1 _ h.1, h2 _ h.2.1, h3 _ h.2.2.1, h4 _ h.2.2.2.1, h5 _ h.2.2.2.2.1, h6 _ h.2.2.2.2.2⟩
  | bmom a b c h1 h2 h3 => intro s h; exact ⟨h1 _ h.1, h2 _ h.2.1, h3 _ h.2.2⟩
  | psum body ixs ih =>
    intro s h
    simp only [doit]
    rw [undivided_addAll]
    intro e he
    obtain ⟨a, ha, rfl⟩ := List.mem_map.1 he
    exact ih _ h

theorem undivided_substHel (e : Expr) : ∀ s, (e.substHel s).Undivided ↔ e.Undivided := by
  induction e with
  | num | I | sym | idx | phase | kron | wig | cg => intros; simp only [substHel, Undivided]
  | add a b iha ihb | sub a b iha ihb | mul a b iha ihb =>
    intro s; simp only [substHel, Undivided, iha, ihb]
  | div a b => intro s; simp only [substHel, Undivided]
  | neg a iha | pow a n iha | sqrt a iha | exp a iha | abs a iha =>
    intro s; simp only [substHel, Undivided, iha]
  | ff a b c L d h1 h2 h3 h4 => intro s; simp only [substHel, Undivided, h1, h2, h3, h4]
  | edw a b c d e L f p h1 h2 h3 h4 h5 h6 =>
    intro s; simp only [substHel, Undivided, h1, h2, h3, h4, h5, h6]
  | bmom a b c h1 h2 h3 => intro s; simp only [substHel, Undivided, h1, h2, h3]
  | psum body ixs ih => intro s; simp only [substHel, Undivided, ih]

theorem undivided_cleanup {e : Expr} (h : e.Undivided) : e.cleanup.Undivided := by
  cases e with
  | psum body ixs =>
    simp only [cleanup]
    split
    · exact (undivided_substHel _ _).2 h
    · exact (undivided_substHel _ _).2 h
  | _ => exact h

/-- Replacing symbols in an expression without divisions. -/
theorem safe_xreplace {η : Sym → ℚ} (d : PyDict Indexed Expr) (hd : ∀ x ∈ d, NoZeroDivision ι η x.2)
    (e : Expr) (hF : e.Flat) (h : e.Undivided) : NoZeroDivision ι η (e.xreplace d) := by
  induction e with
  | num | I | sym | phase | wig | cg | kron => trivial
  | idx y =>
    simp only [xreplace]
    cases hy : PyDict.get? d y with
    | none => trivial
    | some v => exact hd _ (PyDict.mem_of_get? hy)
  | add a b iha ihb | sub a b iha ihb | mul a b iha ihb => exact ⟨iha hF.1 h.1, ihb hF.2 h.2⟩
  | div a b => exact h.elim
  | neg a iha | pow a n iha | sqrt a iha | exp a iha | abs a iha => exact iha hF h
  | ff a b c L d h1 h2 h3 h4 =>
    exact ⟨h1 hF.1 h.1, h2 hF.2.1 h.2.1, h3 hF.2.2.1 h.2.2.1, h4 hF.2.2.2 h.2.2.2⟩
  | edw a b c d e L f p h1 h2 h3 h4 h5 h6 =>
    exact ⟨h1 hF.1 h.1, h2 hF.2.1 h.2.1, h3 hF.2.2.1 h.2.2.1, h4 hF.2.2.2.1 h.2.2.2.1,
      h5 hF.2.2.2.2.1 h.2.2.2.2.1, h6 hF.2.2.2.2.2 h.2.2.2.2.2⟩
  | bmom a b c h1 h2 h3 => exact ⟨h1 hF.1 h.1, h2 hF.2.1 h.2.1, h3 hF.2.2 h.2.2⟩
  | psum body ixs ih => exact hF.elim

theorem undivided_safe (e : Expr) : ∀ η : Sym → ℚ, e.Undivided → NoZeroDivision ι η e := by
  induction e with
  | num | I | sym | phase | wig | cg | kron | idx => intros; trivial
  | add a b iha ihb | sub a b iha ihb | mul a b iha ihb => intro η h; exact ⟨iha η h.1, ihb η h.2⟩
  | div a b => intro η h; exact h.elim
  | neg a iha | pow a n iha | sqrt a iha | exp a iha | abs a iha => intro η h; exact iha η h
  | ff a b c L d h1 h2 h3 h4 => intro η h; exact ⟨h1 η h.1, h2 η h.2.1, h3 η h.2.2.1, h4 η h.2.2.2⟩
  | edw a b c d e L f p h1 h2 h3 h4 h5 h6 =>
    intro η h
    exact ⟨h1 η h.1, h2 η h.2.1, h3 η h.2.2.1, h4 η h.2.2.2.1, h5 η h.2.2.2.2.1, h6 η h.2.2.2.2.2⟩
  | bmom a b c h1 h2 h3 => intro η h; exact ⟨h1 η h.1, h2 η h.2.1, h3 η h.2.2⟩
  | psum body ixs ih => intro η h a _; exact ih _ h

end Verif.Expr
