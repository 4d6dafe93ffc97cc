import Verif.Model.ExprEval

/-! Substitution, unfolding of sums and evaluation of expressions. -/
namespace Verif

/-- The value that a list of assignments gives to a symbol. -/
def look (a : List (Sym × ℚ)) (s : Sym) : Option ℚ := (a.find? (fun x => x.1 = s)).map Prod.snd

theorem look_nil (s : Sym) : look [] s = none := rfl

theorem look_cons (s : Sym) (v : ℚ) (a : List (Sym × ℚ)) (u : Sym) :
    look ((s, v) :: a) u = if s = u then some v else look a u := by
  unfold look
  by_cases h : s = u <;> simp [h]

theorem override_eq {α : Type} (f : ℚ → α) (η : Sym → α) (a : List (Sym × ℚ)) (s : Sym) :
    override f η a s = match look a s with
      | some q => f q
      | none => η s := by
  unfold override look
  cases a.find? (fun x => x.1 = s) <;> rfl

theorem override_some (η : Sym → Option ℚ) (a : List (Sym × ℚ)) :
    override some η a = fun s => (look a s).or (η s) := by
  funext s
  rw [override_eq]
  cases look a s <;> rfl

theorem override_id (η : Sym → ℚ) (a : List (Sym × ℚ)) :
    override id η a = fun s => (look a s).getD (η s) := by
  funext s
  rw [override_eq]
  cases look a s <;> rfl

/-- Assignments of a sum give values to exactly its indices. -/
theorem look_combos {ixs : List (Sym × List ℚ)} {a : List (Sym × ℚ)} (ha : a ∈ combos ixs) (s : Sym) :
    (look a s).isSome ↔ s ∈ ixs.map Prod.fst := by
  induction ixs generalizing a with
  | nil => simp only [combos, List.mem_singleton] at ha; subst ha; simp [look_nil]
  | cons x t ih =>
    obtain ⟨u, vals⟩ := x
    simp only [combos, List.mem_flatMap, List.mem_map] at ha
    obtain ⟨v, _, c, hc, rfl⟩ := ha
    rw [look_cons]
    by_cases h : u = s
    · simp [h]
    · rw [if_neg h, ih hc]
      simp [Ne.symm h]

/-- Assignments of a sum take values in the ranges. -/
theorem look_combos_mem {ixs : List (Sym × List ℚ)} {a : List (Sym × ℚ)} (ha : a ∈ combos ixs)
    (hn : (ixs.map Prod.fst).Nodup) {s : Sym} {vals : List ℚ} (hs : (s, vals) ∈ ixs) :
    ∃ v ∈ vals, look a s = some v := by
  induction ixs generalizing a with
  | nil => simp at hs
  | cons x t ih =>
    obtain ⟨u, vals'⟩ := x
    simp only [combos, List.mem_flatMap, List.mem_map] at ha
    obtain ⟨v, hv, c, hc, rfl⟩ := ha
    simp only [List.map_cons, List.nodup_cons] at hn
    rw [look_cons]
    rcases List.mem_cons.1 hs with h | h
    · cases h; exact ⟨v, hv, by simp⟩
    · have : u ≠ s := by
        rintro rfl
        exact hn.1 (List.mem_map.2 ⟨_, h, rfl⟩)
      rw [if_neg this]
      exact ih hc hn.2 h

/-- The singletons among the indices. -/
def singles (ixs : List (Sym × List ℚ)) : List (Sym × ℚ) :=
  ixs.filterMap fun x => match x.2 with
      | [v] => some (x.1, v)
      | _ => none

/-- The other indices. -/
def manies (ixs : List (Sym × List ℚ)) : List (Sym × List ℚ) := ixs.filter fun x => 2 ≤ x.2.length

theorem look_singles_none {ixs : List (Sym × List ℚ)} {s : Sym} (h : s ∉ ixs.map Prod.fst) :
    look (singles ixs) s = none := by
  induction ixs with
  | nil => rfl
  | cons x t ih =>
    obtain ⟨u, vals⟩ := x
    simp only [List.map_cons, List.mem_cons, not_or] at h
    have := ih h.2
    match vals with
    | [] => exact this
    | [v] =>
      change look ((u, v) :: singles t) s = none
      rw [look_cons, if_neg (Ne.symm h.1), this]
    | _ :: _ :: _ => exact this

theorem look_manies {ixs : List (Sym × List ℚ)} (hn : (ixs.map Prod.fst).Nodup)
    (hne : ∀ x ∈ ixs, x.2 ≠ []) :
    (combos ixs).map look =
      (combos (manies ixs)).map fun a s => (look (singles ixs) s).or (look a s) := by
  induction ixs with
  | nil => rfl
  | cons x t ih =>
    obtain ⟨u, vals⟩ := x
    simp only [List.map_cons, List.nodup_cons] at hn
    have ih' := ih hn.2 (fun x hx => hne x (by simp [hx]))
    have hF : ∀ v : ℚ, (fun c => look ((u, v) :: c)) =
        (fun (g : Sym → Option ℚ) s => if u = s then some v else g s) ∘ look := by
      intro v; funext c s; simp [look_cons]
    have hsn := look_singles_none hn.1
    match vals, hne (u, vals) (by simp) with
    | [v], _ =>
      have e1 : combos ((u, [v]) :: t) = (combos t).map fun c => (u, v) :: c := by
        simp [combos]
      have e2 : manies ((u, [v]) :: t) = manies t := by simp [manies]
      have e3 : singles ((u, [v]) :: t) = (u, v) :: singles t := rfl
      rw [e1, e2, e3, List.map_map]
      change (combos t).map (fun c => look ((u, v) :: c)) = _
      rw [hF, ← List.map_map, ih', List.map_map]
      apply List.map_congr_left
      intro a _
      funext s
      simp only [Function.comp, look_cons]
      by_cases h : u = s <;> simp [h]
    | v :: w :: vs, _ =>
      have e2 : manies ((u, v :: w :: vs) :: t) = (u, v :: w :: vs) :: manies t := by
        simp [manies]
      have e3 : singles ((u, v :: w :: vs) :: t) = singles t := rfl
      rw [e2, e3]
      simp only [combos, List.map_flatMap, List.map_map]
      congr 1
      funext q
      change (combos t).map (fun c => look ((u, q) :: c)) = _
      rw [hF, ← List.map_map, ih', List.map_map]
      apply List.map_congr_left
      intro a _
      funext s
      simp only [Function.comp, look_cons]
      by_cases h : u = s
      · subst h; simp [hsn]
      · simp [h]

theorem cleanup_psum (body : Expr) (ixs : List (Sym × List ℚ)) :
    (Expr.psum body ixs).cleanup =
      if manies ixs = [] then body.substHel (look (singles ixs))
      else .psum (body.substHel (look (singles ixs))) (manies ixs) := by
  have : override some (fun _ => none) (singles ixs) = look (singles ixs) := by
    rw [override_some]; funext s; simp
  unfold Expr.cleanup
  change (if manies ixs = [] then body.substHel (override some (fun _ => none) (singles ixs))
    else .psum (body.substHel (override some (fun _ => none) (singles ixs))) (manies ixs)) = _
  rw [this]

/-! ### Helicity expressions -/

theorem Hel.subst_subst (s η : Sym → Option ℚ) (h : Hel) :
    (h.subst s).subst η = h.subst fun u => (s u).or (η u) := by
  induction h with
  | num q => rfl
  | sym u =>
    simp only [Hel.subst]
    cases hs : s u with
    | none => simp [Hel.subst]
    | some q => simp [Hel.subst]
  | add a b iha ihb =>
    simp only [Hel.subst]
    rw [← iha, ← ihb]
    cases a.subst s <;> cases b.subst s <;> simp [Hel.subst]
  | sub a b iha ihb =>
    simp only [Hel.subst]
    rw [← iha, ← ihb]
    cases a.subst s <;> cases b.subst s <;> simp [Hel.subst]
  | neg a iha =>
    simp only [Hel.subst]
    rw [← iha]
    cases a.subst s <;> simp [Hel.subst]

theorem Hel.eval_subst (s : Sym → Option ℚ) (η : Sym → ℚ) (h : Hel) :
    (h.subst s).eval η = h.eval fun u => (s u).getD (η u) := by
  induction h with
  | num q => rfl
  | sym u =>
    simp only [Hel.subst, Hel.eval]
    cases s u <;> rfl
  | add a b iha ihb =>
    simp only [Hel.subst, Hel.eval]
    rw [← iha, ← ihb]
    split
    · rename_i ha hb; rw [ha, hb]; rfl
    · rfl
  | sub a b iha ihb =>
    simp only [Hel.subst, Hel.eval]
    rw [← iha, ← ihb]
    split
    · rename_i ha hb; rw [ha, hb]; rfl
    · rfl
  | neg a iha =>
    simp only [Hel.subst, Hel.eval]
    rw [← iha]
    split
    · rename_i ha; rw [ha]; rfl
    · rfl

theorem Hel.subst_num {η : Sym → Option ℚ} {η' : Sym → ℚ} {h : Hel} {q : ℚ}
    (hq : h.subst η = .num q) : h.eval (fun u => (η u).getD (η' u)) = q := by
  rw [← Hel.eval_subst, hq]; rfl

/-! ### Expressions -/

theorem Expr.doit_substHel (e : Expr) : ∀ s η : Sym → Option ℚ,
    (e.substHel s).doit η = e.doit fun u => (s u).or (η u) := by
  induction e with
  | num | I | sym => intros; rfl
  | idx x =>
    intro s η
    simp only [substHel, doit, List.map_map, Expr.idx.injEq, Indexed.mk.injEq, true_and]
    apply List.map_congr_left
    intro h _
    exact Hel.subst_subst s η h
  | phase h => intro s η; simp only [substHel, doit, Hel.subst_subst]
  | kron a b => intro s η; simp only [substHel, doit, Hel.subst_subst]
  | wig => intro s η; simp only [substHel, doit, Hel.subst_subst]
  | cg => intro s η; simp only [substHel, doit, Hel.subst_subst]
  | add a b iha ihb | sub a b iha ihb | mul a b iha ihb | div a b iha ihb =>
    intro s η; simp only [substHel, doit, iha, ihb]
  | neg a iha | pow a n iha | sqrt a iha | exp a iha | abs a iha =>
    intro s η; simp only [substHel, doit, iha]
  | ff a b c L d h1 h2 h3 h4 => intro s η; simp only [substHel, doit, h1, h2, h3, h4]
  | edw a b c d e L f p h1 h2 h3 h4 h5 h6 =>
    intro s η; simp only [substHel, doit, h1, h2, h3, h4, h5, h6]
  | bmom a b c h1 h2 h3 => intro s η; simp only [substHel, doit, h1, h2, h3]
  | psum body ixs ih =>
    intro s η
    simp only [substHel, doit]
    congr 1
    apply List.map_congr_left
    intro a ha
    rw [ih]
    congr 1
    funext u
    rw [override_some, override_some]
    have := look_combos ha u
    by_cases hu : u ∈ ixs.map Prod.fst
    · rw [if_pos hu]
      obtain ⟨v, hv⟩ := Option.isSome_iff_exists.1 (this.2 hu)
      simp [hv]
    · rw [if_neg hu]
      have : look a u = none := by
        cases h : look a u with
        | none => rfl
        | some v => exact absurd (this.1 (by simp [h])) hu
      simp [this]

theorem Expr.eval_addAll (ι : Interp) (η : Sym → ℚ) (l : List Expr) :
    (addAll l).eval ι η = (l.map fun e => e.eval ι η).sum := by
  induction l with
  | nil => simp [addAll, eval]
  | cons e t ih => simp [addAll, eval, ih]

theorem Expr.eval_mulS (ι : Interp) (η : Sym → ℚ) (a b : Expr) :
    (mulS a b).eval ι η = a.eval ι η * b.eval ι η := by
  unfold mulS
  split
  · rename_i h
    rcases h with rfl | rfl <;> simp [eval]
  · rfl

theorem Expr.eval_substHel (ι : Interp) (e : Expr) : ∀ (s : Sym → Option ℚ) (η : Sym → ℚ),
    (e.substHel s).eval ι η = e.eval ι fun u => (s u).getD (η u) := by
  induction e with
  | num | I | sym => intros; rfl
  | idx x =>
    intro s η
    simp only [substHel, eval, List.map_map]
    congr 1
    apply List.map_congr_left
    intro h _
    exact Hel.eval_subst s η h
  | phase h => intro s η; simp only [substHel, eval, Hel.eval_subst]
  | kron a b => intro s η; simp only [substHel, eval, Hel.eval_subst]
  | wig => intro s η; simp only [substHel, eval, Hel.eval_subst]
  | cg => intro s η; simp only [substHel, eval, Hel.eval_subst]
  | add a b iha ihb | sub a b iha ihb | mul a b iha ihb | div a b iha ihb =>
    intro s η; simp only [substHel, eval, iha, ihb]
  | neg a iha | pow a n iha | sqrt a iha | exp a iha | abs a iha =>
    intro s η; simp only [substHel, eval, iha]
  | ff a b c L d h1 h2 h3 h4 => intro s η; simp only [substHel, eval, h1, h2, h3, h4]
  | edw a b c d e L f p h1 h2 h3 h4 h5 h6 =>
    intro s η; simp only [substHel, eval, h1, h2, h3, h4, h5, h6]
  | bmom a b c h1 h2 h3 => intro s η; simp only [substHel, eval, h1, h2, h3]
  | psum body ixs ih =>
    intro s η
    simp only [substHel, eval]
    congr 1
    apply List.map_congr_left
    intro a ha
    rw [ih]
    congr 1
    funext u
    rw [override_id, override_id]
    have := look_combos ha u
    by_cases hu : u ∈ ixs.map Prod.fst
    · rw [if_pos hu]
      obtain ⟨v, hv⟩ := Option.isSome_iff_exists.1 (this.2 hu)
      simp [hv]
    · rw [if_neg hu]
      have : look a u = none := by
        cases h : look a u with
        | none => rfl
        | some v => exact absurd (this.1 (by simp [h])) hu
      simp [this]

/-- Unfolding the sums does not change the value. -/
theorem Expr.eval_doit (ι : Interp) (e : Expr) : ∀ (s : Sym → Option ℚ) (η : Sym → ℚ),
    (e.doit s).eval ι η = e.eval ι fun u => (s u).getD (η u) := by
  induction e with
  | num | I | sym => intros; rfl
  | idx x =>
    intro s η
    simp only [doit, eval, List.map_map]
    congr 1
    apply List.map_congr_left
    intro h _
    exact Hel.eval_subst s η h
  | phase h => intro s η; simp only [doit, eval, Hel.eval_subst]
  | kron a b =>
    intro s η
    simp only [doit, eval]
    rw [← Hel.eval_subst, ← Hel.eval_subst]
    split
    · rename_i ha hb
      rw [ha, hb]
      simp only [Hel.eval, eval]
      split <;> rename_i h <;> simp [h]
    · rfl
  | wig => intro s η; simp only [doit, eval, Hel.eval_subst]
  | cg => intro s η; simp only [doit, eval, Hel.eval_subst]
  | mul a b iha ihb => intro s η; simp only [doit, eval_mulS, eval, iha, ihb]
  | add a b iha ihb | sub a b iha ihb | div a b iha ihb =>
    intro s η; simp only [doit, eval, iha, ihb]
  | neg a iha | pow a n iha | sqrt a iha | exp a iha | abs a iha =>
    intro s η; simp only [doit, eval, iha]
  | ff a b c L d h1 h2 h3 h4 => intro s η; simp only [doit, eval, h1, h2, h3, h4]
  | edw a b c d e L f p h1 h2 h3 h4 h5 h6 =>
    intro s η; simp only [doit, eval, h1, h2, h3, h4, h5, h6]
  | bmom a b c h1 h2 h3 => intro s η; simp only [doit, eval, h1, h2, h3]
  | psum body ixs ih =>
    intro s η
    simp only [doit, eval, eval_addAll, List.map_map]
    congr 1
    apply List.map_congr_left
    intro a _
    simp only [Function.comp, ih]
    congr 1
    funext u
    rw [override_some, override_id]
    cases look a u <;> simp

/-- `cleanup` keeps the value if no index range is empty. -/
theorem Expr.eval_cleanup (ι : Interp) (η : Sym → ℚ) (body : Expr) (ixs : List (Sym × List ℚ))
    (hn : (ixs.map Prod.fst).Nodup) (hne : ∀ x ∈ ixs, x.2 ≠ []) :
    (Expr.psum body ixs).cleanup.eval ι η = (Expr.psum body ixs).eval ι η := by
  have h := look_manies hn hne
  have hr : (Expr.psum body ixs).eval ι η =
      (((combos ixs).map look).map fun f => body.eval ι fun u => (f u).getD (η u)).sum := by
    simp only [eval, List.map_map, override_id]; rfl
  rw [hr, h, cleanup_psum]
  split
  · rename_i hm
    rw [hm, eval_substHel]
    simp [combos, look_nil]
  · simp only [eval, List.map_map, eval_substHel]
    congr 1
    apply List.map_congr_left
    intro a _
    simp only [Function.comp]
    congr 1
    funext u
    rw [override_id]
    cases look (singles ixs) u <;> simp

/-! ### Indexed symbols -/

theorem Expr.mem_indexeds_addAll (l : List Expr) (x : Indexed) :
    x ∈ (addAll l).indexeds ↔ ∃ e ∈ l, x ∈ e.indexeds := by
  induction l with
  | nil => simp [addAll, indexeds]
  | cons e t ih => simp [addAll, indexeds, ih]

theorem Expr.mem_indexeds_mulS {a b : Expr} {x : Indexed} (h : x ∈ (mulS a b).indexeds) :
    x ∈ a.indexeds ∨ x ∈ b.indexeds := by
  unfold mulS at h
  split at h
  · simp [indexeds] at h
  · simpa [indexeds] using h

/-- Indexed symbols after unfolding come from indexed symbols before. -/
theorem Expr.mem_indexeds_doit (e : Expr) : ∀ (η : Sym → Option ℚ) (x : Indexed),
    x ∈ (e.doit η).indexeds →
      ∃ y ∈ e.indexeds, x.base = y.base ∧ x.res = y.res := by
  induction e with
  | num | I | sym | phase | wig | cg => intro η x h; simp [doit, indexeds] at h
  | idx y => intro η x h; simp only [doit, indexeds, List.mem_singleton] at h; subst h; simp [indexeds]
  | kron a b =>
    intro η x h
    simp only [doit] at h
    split at h <;> simp [indexeds] at h
  | mul a b iha ihb =>
    intro η x h
    simp only [doit] at h
    rcases mem_indexeds_mulS h with h | h
    · obtain ⟨y, hy, h'⟩ := iha η x h; exact ⟨y, by simp [indexeds, hy], h'⟩
    · obtain ⟨y, hy, h'⟩ := ihb η x h; exact ⟨y, by simp [indexeds, hy], h'⟩
  | add a b iha ihb | sub a b iha ihb | div a b iha ihb =>
    intro η x h
    simp only [doit, indexeds, List.mem_append] at h
    rcases h with h | h
    · obtain ⟨y, hy, h'⟩ := iha η x h; exact ⟨y, by simp [indexeds, hy], h'⟩
    · obtain ⟨y, hy, h'⟩ := ihb η x h; exact ⟨y, by simp [indexeds, hy], h'⟩
  | neg a iha | pow a n iha | sqrt a iha | exp a iha | abs a iha =>
    intro η x h
    simp only [doit, indexeds] at h
    exact iha η x h
  | ff a b c L d h1 h2 h3 h4 =>
    intro η x h
    simp only [doit, indexeds, List.mem_append] at h
    rcases h with ((h | h) | h) | h
    · obtain ⟨y, hy, h'⟩ := h1 η x h; exact ⟨y, by simp [indexeds, hy], h'⟩
    · obtain ⟨y, hy, h'⟩ := h2 η x h; exact ⟨y, by simp [indexeds, hy], h'⟩
    · obtain ⟨y, hy, h'⟩ := h3 η x h; exact ⟨y, by simp [indexeds, hy], h'⟩
    · obtain ⟨y, hy, h'⟩ := h4 η x h; exact ⟨y, by simp [indexeds, hy], h'⟩
  | edw a b c d e L f p h1 h2 h3 h4 h5 h6 =>
    intro η x h
    simp only [doit, indexeds, List.mem_append] at h
    rcases h with ((((h | h) | h) | h) | h) | h
    · obtain ⟨y, hy, h'⟩ := h1 η x h; exact ⟨y, by simp [indexeds, hy], h'⟩
    · obtain ⟨y, hy, h'⟩ := h2 η x h; exact ⟨y, by simp [indexeds, hy], h'⟩
    · obtain ⟨y, hy, h'⟩ := h3 η x h; exact ⟨y, by simp [indexeds, hy], h'⟩
    · obtain ⟨y, hy, h'⟩ := h4 η x h; exact ⟨y, by simp [indexeds, hy], h'⟩
    · obtain ⟨y, hy, h'⟩ := h5 η x h; exact ⟨y, by simp [indexeds, hy], h'⟩
    · obtain ⟨y, hy, h'⟩ := h6 η x h; exact ⟨y, by simp [indexeds, hy], h'⟩
  | bmom a b c h1 h2 h3 =>
    intro η x h
    simp only [doit, indexeds, List.mem_append] at h
    rcases h with (h | h) | h
    · obtain ⟨y, hy, h'⟩ := h1 η x h; exact ⟨y, by simp [indexeds, hy], h'⟩
    · obtain ⟨y, hy, h'⟩ := h2 η x h; exact ⟨y, by simp [indexeds, hy], h'⟩
    · obtain ⟨y, hy, h'⟩ := h3 η x h; exact ⟨y, by simp [indexeds, hy], h'⟩
  | psum body ixs ih =>
    intro η x h
    simp only [doit, mem_indexeds_addAll, List.mem_map] at h
    obtain ⟨e, ⟨a, _, rfl⟩, hx⟩ := h
    exact ih _ x hx

theorem Expr.mem_indexeds_psum {body : Expr} {ixs : List (Sym × List ℚ)} {η : Sym → Option ℚ}
    {x : Indexed} (h : x ∈ ((Expr.psum body ixs).doit η).indexeds) :
    ∃ a ∈ combos ixs, x ∈ (body.doit fun u => (look a u).or (η u)).indexeds := by
  simp only [doit, mem_indexeds_addAll, List.mem_map] at h
  obtain ⟨e, ⟨a, ha, rfl⟩, hx⟩ := h
  rw [override_some] at hx
  exact ⟨a, ha, hx⟩

theorem Expr.mem_indexeds_cleanup {body : Expr} {ixs : List (Sym × List ℚ)}
    (hn : (ixs.map Prod.fst).Nodup) (hne : ∀ x ∈ ixs, x.2 ≠ []) {η : Sym → Option ℚ}
    {x : Indexed} (h : x ∈ ((Expr.psum body ixs).cleanup.doit η).indexeds) :
    ∃ a ∈ combos ixs, x ∈ (body.doit fun u => (look a u).or (η u)).indexeds := by
  have hl := look_manies hn hne
  have key : ∀ a ∈ combos (manies ixs), ∃ b ∈ combos ixs, look b =
      fun s => (look (singles ixs) s).or (look a s) := by
    intro a ha
    have : (fun s => (look (singles ixs) s).or (look a s)) ∈ (combos ixs).map look := by
      rw [hl]; exact List.mem_map.2 ⟨a, ha, rfl⟩
    exact List.mem_map.1 this
  rw [cleanup_psum] at h
  split at h
  · rename_i hm
    obtain ⟨b, hb, hb'⟩ := key [] (by rw [hm]; simp [combos])
    refine ⟨b, hb, ?_⟩
    rw [doit_substHel] at h
    have : (fun u => (look b u).or (η u)) = fun u => (look (singles ixs) u).or (η u) := by
      funext u; rw [hb']; simp [look_nil]
    rw [this]; exact h
  · obtain ⟨a, ha, hx⟩ := mem_indexeds_psum h
    obtain ⟨b, hb, hb'⟩ := key a ha
    refine ⟨b, hb, ?_⟩
    rw [doit_substHel] at hx
    have : (fun u => (look b u).or (η u)) =
        fun u => (look (singles ixs) u).or ((look a u).or (η u)) := by
      funext u; rw [hb']; simp [Option.or_assoc]
    rw [this]; exact hx

theorem Expr.doit_indexeds_nil {e : Expr} (h : e.indexeds = []) (η : Sym → Option ℚ) :
    (e.doit η).indexeds = [] := by
  rw [List.eq_nil_iff_forall_not_mem]
  intro x hx
  obtain ⟨y, hy, -⟩ := mem_indexeds_doit e η x hx
  rw [h] at hy; simp at hy

/-- Indexed symbols after a replacement. -/
theorem Expr.mem_indexeds_xreplace (d : PyDict Indexed Expr) (e : Expr) : ∀ x : Indexed,
    x ∈ (e.xreplace d).indexeds →
      (x ∈ e.indexeds ∧ PyDict.get? d x = none) ∨
      ∃ y ∈ e.indexeds, ∃ v, PyDict.get? d y = some v ∧ x ∈ v.indexeds := by
  induction e with
  | num | I | sym | phase | wig | cg | kron => intro x h; simp [xreplace, indexeds] at h
  | idx y =>
    intro x h
    simp only [xreplace] at h
    cases hy : PyDict.get? d y with
    | none =>
      rw [hy] at h
      simp only [indexeds, List.mem_singleton] at h
      subst h
      exact .inl ⟨by simp [indexeds], hy⟩
    | some v => rw [hy] at h; exact .inr ⟨y, by simp [indexeds], v, hy, h⟩
  | add a b iha ihb | sub a b iha ihb | mul a b iha ihb | div a b iha ihb =>
    intro x h
    simp only [xreplace, indexeds, List.mem_append] at h ⊢
    rcases h with h | h
    · rcases iha x h with h | ⟨y, hy, h⟩
      · exact .inl ⟨.inl h.1, h.2⟩
      · exact .inr ⟨y, .inl hy, h⟩
    · rcases ihb x h with h | ⟨y, hy, h⟩
      · exact .inl ⟨.inr h.1, h.2⟩
      · exact .inr ⟨y, .inr hy, h⟩
  | neg a iha | pow a n iha | sqrt a iha | exp a iha | abs a iha =>
    intro x h
    simp only [xreplace, indexeds] at h ⊢
    exact iha x h
  | ff a b c L d h1 h2 h3 h4 =>
    intro x h
    simp only [xreplace, indexeds, List.mem_append] at h ⊢
    rcases h with ((h | h) | h) | h
    · rcases h1 x h with h | ⟨y, hy, h⟩
      · exact .inl ⟨by simp [h.1], h.2⟩
      · exact .inr ⟨y, by simp [hy], h⟩
    · rcases h2 x h with h | ⟨y, hy, h⟩
      · exact .inl ⟨by simp [h.1], h.2⟩
      · exact .inr ⟨y, by simp [hy], h⟩
    · rcases h3 x h with h | ⟨y, hy, h⟩
      · exact .inl ⟨by simp [h.1], h.2⟩
      · exact .inr ⟨y, by simp [hy], h⟩
    · rcases h4 x h with h | ⟨y, hy, h⟩
      · exact .inl ⟨by simp [h.1], h.2⟩
      · exact .inr ⟨y, by simp [hy], h⟩
  | edw a b c d e L f p h1 h2 h3 h4 h5 h6 =>
    intro x h
    simp only [xreplace, indexeds, List.mem_append] at h ⊢
    rcases h with ((((h | h) | h) | h) | h) | h
    · rcases h1 x h with h | ⟨y, hy, h⟩
      · exact .inl ⟨by simp [h.1], h.2⟩
      · exact .inr ⟨y, by simp [hy], h⟩
    · rcases h2 x h with h | ⟨y, hy, h⟩
      · exact .inl ⟨by simp [h.1], h.2⟩
      · exact .inr ⟨y, by simp [hy], h⟩
    · rcases h3 x h with h | ⟨y, hy, h⟩
      · exact .inl ⟨by simp [h.1], h.2⟩
      · exact .inr ⟨y, by simp [hy], h⟩
    · rcases h4 x h with h | ⟨y, hy, h⟩
      · exact .inl ⟨by simp [h.1], h.2⟩
      · exact .inr ⟨y, by simp [hy], h⟩
    · rcases h5 x h with h | ⟨y, hy, h⟩
      · exact .inl ⟨by simp [h.1], h.2⟩
      · exact .inr ⟨y, by simp [hy], h⟩
    · rcases h6 x h with h | ⟨y, hy, h⟩
      · exact .inl ⟨by simp [h.1], h.2⟩
      · exact .inr ⟨y, by simp [hy], h⟩
  | bmom a b c h1 h2 h3 =>
    intro x h
    simp only [xreplace, indexeds, List.mem_append] at h ⊢
    rcases h with (h | h) | h
    · rcases h1 x h with h | ⟨y, hy, h⟩
      · exact .inl ⟨by simp [h.1], h.2⟩
      · exact .inr ⟨y, by simp [hy], h⟩
    · rcases h2 x h with h | ⟨y, hy, h⟩
      · exact .inl ⟨by simp [h.1], h.2⟩
      · exact .inr ⟨y, by simp [hy], h⟩
    · rcases h3 x h with h | ⟨y, hy, h⟩
      · exact .inl ⟨by simp [h.1], h.2⟩
      · exact .inr ⟨y, by simp [hy], h⟩
  | psum body ixs ih => intro x h; simp only [xreplace, indexeds] at h ⊢; exact ih x h

/-! ### Replacing amplitudes by their expressions -/

/-- No sum remains. -/
def Expr.Flat : Expr → Prop
  | .num _ | .I | .sym _ | .idx _ | .phase _ | .kron .. | .wig .. | .cg .. => True
  | .add a b | .sub a b | .mul a b | .div a b => a.Flat ∧ b.Flat
  | .neg a | .pow a _ | .sqrt a | .exp a | .abs a => a.Flat
  | .ff s m1 m2 _ R => s.Flat ∧ m1.Flat ∧ m2.Flat ∧ R.Flat
  | .edw s m0 g0 m1 m2 _ R _ => s.Flat ∧ m0.Flat ∧ g0.Flat ∧ m1.Flat ∧ m2.Flat ∧ R.Flat
  | .bmom s m1 m2 => s.Flat ∧ m1.Flat ∧ m2.Flat
  | .psum _ _ => False

theorem Expr.flat_addAll (l : List Expr) (h : ∀ e ∈ l, e.Flat) : (addAll l).Flat := by
  induction l with
  | nil => trivial
  | cons e t ih => exact ⟨h e (by simp), ih fun e he => h e (by simp [he])⟩

theorem Expr.flat_doit (e : Expr) : ∀ η, (e.doit η).Flat := by
  induction e with
  | num | I | sym | phase | wig | cg | idx => intro η; trivial
  | kron a b => intro η; simp only [doit]; split <;> trivial
  | mul a b iha ihb =>
    intro η; simp only [doit, mulS]; split
    · trivial
    · exact ⟨iha η, ihb η⟩
  | add a b iha ihb | sub a b iha ihb | div a b iha ihb => intro η; exact ⟨iha η, ihb η⟩
  | neg a iha | pow a n iha | sqrt a iha | exp a iha | abs a iha => intro η; exact iha η
  | ff a b c L d h1 h2 h3 h4 => intro η; exact ⟨h1 η, h2 η, h3 η, h4 η⟩
  | edw a b c d e L f p h1 h2 h3 h4 h5 h6 =>
    intro η; exact ⟨h1 η, h2 η, h3 η, h4 η, h5 η, h6 η⟩
  | bmom a b c h1 h2 h3 => intro η; exact ⟨h1 η, h2 η, h3 η⟩
  | psum body ixs ih =>
    intro η
    apply flat_addAll
    intro e he
    obtain ⟨a, _, rfl⟩ := List.mem_map.1 he
    exact ih _

/-- The interpretation in which the keys of `d` have the values of their expressions. -/
noncomputable def Interp.withDefs (ι : Interp) (η : Sym → ℚ) (d : PyDict Indexed Expr) : Interp :=
  { ι with idx := fun base res vals => match PyDict.get? d ⟨base, res, vals.map .num⟩ with
      | some e => e.eval ι η
      | none => ι.idx base res vals }

/-- Replacing symbols by expressions is evaluating with the values of these expressions. -/
theorem Expr.eval_xreplace (ι : Interp) (η : Sym → ℚ) (d : PyDict Indexed Expr) (e : Expr)
    (hf : e.Flat) (hx : ∀ x ∈ e.indexeds, ∃ vals : List ℚ, x.ix = vals.map .num) :
    (e.xreplace d).eval ι η = e.eval (ι.withDefs η d) η := by
  induction e with
  | num | I | sym | phase | wig | cg | kron => rfl
  | idx x =>
    obtain ⟨vals, hv⟩ := hx x (by simp [indexeds])
    obtain ⟨base, res, ix⟩ := x
    simp only at hv; subst hv
    have hm : (vals.map Hel.num).map (Hel.eval η) = vals := by
      rw [List.map_map]
      conv_rhs => rw [← List.map_id vals]
      rfl
    simp only [xreplace, eval, Interp.withDefs, hm]
    cases PyDict.get? d ⟨base, res, vals.map .num⟩ with
    | none => simp only [eval, hm]
    | some v => rfl
  | add a b iha ihb | sub a b iha ihb | mul a b iha ihb | div a b iha ihb =>
    have h1 := iha hf.1 (fun x h => hx x (by simp [indexeds, h]))
    have h2 := ihb hf.2 (fun x h => hx x (by simp [indexeds, h]))
    simp only [xreplace, eval, h1, h2]
  | neg a iha | pow a n iha | sqrt a iha | exp a iha | abs a iha =>
    have h1 := iha hf (fun x h => hx x (by simpa [indexeds] using h))
    simp only [xreplace, eval, h1]
  | ff a b c L d h1 h2 h3 h4 =>
    have e1 := h1 hf.1 (fun x h => hx x (by simp [indexeds, h]))
    have e2 := h2 hf.2.1 (fun x h => hx x (by simp [indexeds, h]))
    have e3 := h3 hf.2.2.1 (fun x h => hx x (by simp [indexeds, h]))
    have e4 := h4 hf.2.2.2 (fun x h => hx x (by simp [indexeds, h]))
    simp only [xreplace, eval, e1, e2, e3, e4]; rfl
  | edw a b c d e L f p h1 h2 h3 h4 h5 h6 =>
    have e1 := h1 hf.1 (fun x h => hx x (by simp [indexeds, h]))
    have e2 := h2 hf.2.1 (fun x h => hx x (by simp [indexeds, h]))
    have e3 := h3 hf.2.2.1 (fun x h => hx x (by simp [indexeds, h]))
    have e4 := h4 hf.2.2.2.1 (fun x h => hx x (by simp [indexeds, h]))
    have e5 := h5 hf.2.2.2.2.1 (fun x h => hx x (by simp [indexeds, h]))
    have e6 := h6 hf.2.2.2.2.2 (fun x h => hx x (by simp [indexeds, h]))
    simp only [xreplace, eval, e1, e2, e3, e4, e5, e6]; rfl
  | bmom a b c h1 h2 h3 =>
    have e1 := h1 hf.1 (fun x h => hx x (by simp [indexeds, h]))
    have e2 := h2 hf.2.1 (fun x h => hx x (by simp [indexeds, h]))
    have e3 := h3 hf.2.2 (fun x h => hx x (by simp [indexeds, h]))
    simp only [xreplace, eval, e1, e2, e3]; rfl
  | psum body ixs ih => exact absurd hf id

end Verif
