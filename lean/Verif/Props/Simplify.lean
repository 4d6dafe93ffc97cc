import Verif.Spec.Simplify
import Verif.Proofs.PyDict

/-! Property C134: simplified expressions in the comparisons with AmpForm. -/
namespace Verif.Simplify
open Verif Verif.ThreeBody

variable {S E H : Type} [DecidableEq S] [DecidableEq H] {w : Algebra S E H} {value : (S → ℂ) → E → ℂ}

theorem get?_perm {d d' : PyDict S E} (hd : (PyDict.keys d).Nodup) (h : d.Perm d') (k : S) : PyDict.get? d k = PyDict.get? d' k := by
  have hd' : (PyDict.keys d').Nodup := (h.map Prod.fst).nodup_iff.1 hd
  apply Option.ext
  intro v
  rw [← PyDict.mem_iff_get? hd, ← PyDict.mem_iff_get? hd']
  exact h.mem_iff

theorem get?_sorted {d d' : PyDict S E} (hd : (PyDict.keys d).Nodup) (h : sortedItems w d = sortedItems w d') (k : S) :
    PyDict.get? d k = PyDict.get? d' k :=
  get?_perm hd ((List.mergeSort_perm d _).symm.trans ((List.Perm.of_eq h).trans (List.mergeSort_perm d' _))) k

theorem keys_filter {d : PyDict S E} (hd : (PyDict.keys d).Nodup) (p : S × E → Bool) : (PyDict.keys (d.filter p)).Nodup :=
  hd.sublist (List.filter_sublist.map _)

theorem get?_map_values {f : String → ℚ → ℚ} (p : PyDict String ℚ) (k : String) :
    PyDict.get? (p.map fun x => (x.1, f x.1 x.2) : PyDict String ℚ) k = (PyDict.get? p k).map (f k) := by
  induction p with
  | nil => rfl
  | cons x p ih =>
    obtain ⟨k', v⟩ := x
    rw [List.map_cons, PyDict.get?_cons, PyDict.get?_cons, ih]
    split <;> simp_all

theorem shownParameter_eq (c : Call S E) (n : String) : shownParameter c n =
    PyDict.get? (c.parameters.map fun x => (x.1, if c.selected.any fun r => textIn r x.1 then x.2 else 0) : PyDict String ℚ) n := by
  rw [get?_map_values (f := fun n q => if c.selected.any fun r => textIn r n then q else 0)]
  simp [shownParameter, textIn]

theorem get?_symbolValues (c : Call S E) {s : S} (hs : s ∈ w.freeSymbols c.expr) :
    PyDict.get? (getSymbolValues w c.expr c.parameters c.selected) s = (shownParameter c (w.name s)).map w.rational := by
  unfold getSymbolValues
  simp only []
  rw [PyDict.get?_ofItems]
  cases h : shownParameter c (w.name s) with
  | none =>
    rw [Option.map_none, PyDict.get?_eq_none]
    intro hk
    obtain ⟨x, hx, rfl⟩ := List.mem_map.1 hk
    obtain ⟨t, -, ht⟩ := List.mem_filterMap.1 (List.mem_reverse.1 hx)
    obtain ⟨q, hq, rfl⟩ := Option.map_eq_some_iff.1 ht
    rw [← shownParameter_eq, h] at hq
    exact absurd hq (by simp)
  | some q =>
    refine PyDict.get?_reverse_const ⟨(s, w.rational q), List.mem_filterMap.2 ⟨s, hs, ?_⟩, rfl⟩ fun x hx e => ?_
    · rw [← shownParameter_eq, h]; rfl
    · obtain ⟨t, -, ht⟩ := List.mem_filterMap.1 hx
      obtain ⟨q', hq, rfl⟩ := Option.map_eq_some_iff.1 ht
      obtain rfl : t = s := e
      rw [← shownParameter_eq, h] at hq
      rw [Option.some.inj hq]

/-- The value of what a call computes if there is no earlier result. -/
theorem value_fresh (hw : Sound w value) (c : Call S E) (hc : (PyDict.keys c.vars).Nodup) (η : S → ℂ) :
    value η (w.trigsimp (w.xreplace (w.xreplace c.expr (getSymbolValues w c.expr c.parameters c.selected))
      (fixedVariables w c.vars))) = value (shownValues w value c η) c.expr := by
  rw [hw.trigsimp, hw.xreplace, hw.xreplace]
  refine hw.free _ _ _ fun s hs => ?_
  rw [get?_symbolValues c hs]
  unfold shownValues
  cases h : shownParameter c (w.name s) with
  | some q => simp [hw.rational]
  | none =>
    simp only [Option.map_none, Option.getD_none, Option.isSome_none, Bool.false_eq_true, dite_false]
    have hn : (PyDict.keys (fixedVariables w c.vars)).Nodup := keys_filter hc _
    split
    · rename_i hv
      rw [PyDict.get?_of_mem (v := hv.choose) hn (List.mem_filter.2 ⟨hv.choose_spec.1, by simp [hv.choose_spec.2]⟩)]
      rfl
    · rename_i hv
      rw [PyDict.get?_eq_none.2]
      · rfl
      · intro hk
        obtain ⟨x, hx, rfl⟩ := List.mem_map.1 hk
        obtain ⟨h1, h2⟩ := List.mem_filter.1 hx
        exact hv ⟨x.2, h1, by simpa using h2⟩

/-- What holds of the earlier results throughout a session. -/
def Correct (w : Algebra S E H) (value : (S → ℂ) → E → ℂ) (exprs : PyDict H E) : Prop :=
  ∀ h e, PyDict.get? exprs h = some e → ∃ c : Call S E, (PyDict.keys c.vars).Nodup ∧
    h = w.hash (c.expr, sortedItems w (fixedVariables w c.vars),
      sortedItems w (getSymbolValues w c.expr c.parameters c.selected)) ∧
    ∀ η, value η e = value η (w.trigsimp (w.xreplace (w.xreplace c.expr (getSymbolValues w c.expr c.parameters c.selected))
      (fixedVariables w c.vars)))

theorem simplify_correct (hw : Sound w value) (hh : FaithfulHash w) {exprs : PyDict H E} (hx : Correct w value exprs)
    (c : Call S E) (hc : (PyDict.keys c.vars).Nodup) :
    (∀ η, value η (simplify w exprs c).1 = value (shownValues w value c η) c.expr) ∧ Correct w value (simplify w exprs c).2 := by
  unfold simplify
  simp only []
  split
  · rename_i e he
    refine ⟨fun η => ?_, hx⟩
    obtain ⟨c', hc', h1, h2⟩ := hx _ _ he
    have h3 := hh h1
    simp only [Prod.mk.injEq] at h3
    obtain ⟨e1, e2, e3⟩ := h3
    have hv : ∀ s, PyDict.get? (fixedVariables w c.vars) s = PyDict.get? (fixedVariables w c'.vars) s :=
      get?_sorted (keys_filter hc _) e2
    have hp : ∀ s, PyDict.get? (getSymbolValues w c.expr c.parameters c.selected) s =
        PyDict.get? (getSymbolValues w c'.expr c'.parameters c'.selected) s := get?_sorted (PyDict.nodup_ofItems _) e3
    rw [h2, ← value_fresh hw c hc, hw.trigsimp, hw.trigsimp, hw.xreplace, hw.xreplace, hw.xreplace, hw.xreplace]
    simp only [hv, hp]
    rw [e1]
  · refine ⟨value_fresh hw c hc, fun h e he => ?_⟩
    rw [PyDict.get?_set] at he
    split at he
    · rename_i hk
      exact ⟨c, hc, by simp_all, fun η => by rw [← Option.some.inj he]⟩
    · exact hx h e he

theorem simplifyAll_correct (hw : Sound w value) (hh : FaithfulHash w) (cs : List (Call S E)) : ∀ {exprs : PyDict H E},
    Correct w value exprs → (∀ c ∈ cs, (PyDict.keys c.vars).Nodup) →
    List.Forall₂ (fun c e => ∀ η, value η e = value (shownValues w value c η) c.expr) cs (simplifyAll w exprs cs).1 := by
  induction cs with
  | nil => intros; exact .nil
  | cons c cs ih =>
    intro exprs hx hc
    obtain ⟨h1, h2⟩ := simplify_correct hw hh hx c (hc c (by simp))
    exact .cons h1 (ih h2 fun c hc' => hc c (by simp [hc']))

/-- C134: in every session, for both models and whatever was selected before, each result has the value of the intensity for the
parameters that are selected in this call. -/
theorem C134_value (hw : Sound w value) (hh : FaithfulHash w) (calls : List (Call S E))
    (hc : ∀ c ∈ calls, (PyDict.keys c.vars).Nodup) :
    List.Forall₂ (fun c e => ∀ η, value η e = value (shownValues w value c η) c.expr) calls (simplifyAll w [] calls).1 :=
  simplifyAll_correct hw hh calls (fun h e he => by simp [PyDict.get?] at he) hc

/-- C134: the value of a result does not depend on parameters and on variables that have a number as definition. -/
theorem C134_independent (hw : Sound w value) (hh : FaithfulHash w) (calls : List (Call S E))
    (hc : ∀ c ∈ calls, (PyDict.keys c.vars).Nodup) :
    List.Forall₂ (fun c e => ∀ η η' : S → ℂ, (∀ s, w.name s ∉ PyDict.keys c.parameters →
        (∀ v, (s, v) ∈ c.vars → w.freeSymbols v ≠ []) → η s = η' s) → value η e = value η' e)
      calls (simplifyAll w [] calls).1 := by
  refine (C134_value hw hh calls hc).imp fun c e h η η' hη => ?_
  rw [h, h]
  congr 1
  funext s
  unfold shownValues
  split
  · rfl
  · rename_i hp
    split
    · rename_i hv
      exact hw.free _ _ _ fun t ht => by rw [hv.choose_spec.2] at ht; cases ht
    · rename_i hv
      refine hη s (fun hk => hp ?_) fun v h1 h2 => hv ⟨v, h1, h2⟩
      obtain ⟨q, hq⟩ := PyDict.mem_keys_iff.1 hk
      simp [shownParameter, hq]

theorem simplify_get? (exprs : PyDict H E) (c : Call S E) : PyDict.get? (simplify w exprs c).2
    (w.hash (c.expr, sortedItems w (fixedVariables w c.vars), sortedItems w (getSymbolValues w c.expr c.parameters c.selected))) =
      some (simplify w exprs c).1 := by
  unfold simplify
  simp only []
  split
  · assumption
  · rw [PyDict.get?_set]; simp

theorem simplify_of_get? {exprs : PyDict H E} {c : Call S E} {e : E} (h : PyDict.get? exprs
    (w.hash (c.expr, sortedItems w (fixedVariables w c.vars), sortedItems w (getSymbolValues w c.expr c.parameters c.selected))) =
      some e) : simplify w exprs c = (e, exprs) := by
  unfold simplify
  simp only []
  rw [h]

theorem simplify_keeps {exprs : PyDict H E} (c : Call S E) {h : H} {e : E} (he : PyDict.get? exprs h = some e) :
    PyDict.get? (simplify w exprs c).2 h = some e := by
  unfold simplify
  simp only []
  split
  · exact he
  · rename_i hn
    rw [PyDict.get?_set]
    split
    · simp_all
    · exact he

theorem simplifyAll_keeps {h : H} {e : E} (cs : List (Call S E)) : ∀ {exprs : PyDict H E}, PyDict.get? exprs h = some e →
    PyDict.get? (simplifyAll w exprs cs).2 h = some e := by
  induction cs with
  | nil => intro _ he; exact he
  | cons c cs ih => intro _ he; exact ih (simplify_keeps c he)

/-- C134: a call that is repeated at any later time of the session gives the identical expression and adds nothing to the earlier
results, for every hash function. -/
theorem C134_again (exprs : PyDict H E) (c : Call S E) (calls : List (Call S E)) :
    simplify w (simplifyAll w (simplify w exprs c).2 calls).2 c =
      ((simplify w exprs c).1, (simplifyAll w (simplify w exprs c).2 calls).2) :=
  simplify_of_get? (simplifyAll_keeps calls (simplify_get? exprs c))

/-! ### An example, and hashes that are not faithful -/

/-- Sums and products. -/
inductive Toy where
  | num (q : ℚ)
  | sym (s : String)
  | add (a b : Toy)
  | mul (a b : Toy)
  deriving DecidableEq

def Toy.symbols : Toy → List String
  | .num _ => []
  | .sym s => [s]
  | .add a b | .mul a b => a.symbols ++ b.symbols

def Toy.subst (d : PyDict String Toy) : Toy → Toy
  | .num q => .num q
  | .sym s => (PyDict.get? d s).getD (.sym s)
  | .add a b => .add (a.subst d) (b.subst d)
  | .mul a b => .mul (a.subst d) (b.subst d)

noncomputable def Toy.eval (η : String → ℂ) : Toy → ℂ
  | .num q => q
  | .sym s => η s
  | .add a b => a.eval η + b.eval η
  | .mul a b => a.eval η * b.eval η

/-- Symbols are given by their names; `trigsimp` does nothing. -/
def toy {H : Type} (hash : Toy × List (String × Toy) × List (String × Toy) → H) : Algebra String Toy H :=
  ⟨id, id, Toy.symbols, .num, fun e d => e.subst d, id, hash⟩

theorem toy_sound {H : Type} (hash : Toy × List (String × Toy) × List (String × Toy) → H) : Sound (toy hash) Toy.eval where
  rational _ _ := rfl
  free η η' e h := by
    change ∀ s ∈ e.symbols, η s = η' s at h
    induction e with
    | num q => rfl
    | sym s => exact h s (by simp [Toy.symbols])
    | add a b iha ihb | mul a b iha ihb =>
      simp only [Toy.eval]
      rw [iha fun s hs => h s (by simp [Toy.symbols, hs]), ihb fun s hs => h s (by simp [Toy.symbols, hs])]
  xreplace η e d := by
    change (e.subst d).eval η = _
    induction e with
    | num q => rfl
    | sym s => cases h : PyDict.get? d s <;> simp [Toy.subst, Toy.eval, h]
    | add a b iha ihb | mul a b iha ihb => simp only [Toy.subst, Toy.eval]; rw [iha, ihb]
  trigsimp _ _ := rfl

/-- `H_rho * x + H_b * zeta`, where `zeta` is the number 2. -/
def toyCall (selected : List String) : Call String Toy :=
  ⟨.add (.mul (.sym "H_rho") (.sym "x")) (.mul (.sym "H_b") (.sym "zeta")), [("H_rho", 1), ("H_b", -1)],
    [("zeta", .num 2), ("x", .sym "s")], selected⟩

/-- The conditions of `C134_value` are met by calls that give different expressions. -/
example : Sound (toy id) Toy.eval ∧ FaithfulHash (toy id) ∧
    (∀ c ∈ [toyCall ["rho"], toyCall ["rho", "b"], toyCall ["rho"]], (PyDict.keys c.vars).Nodup) ∧
    (simplify (toy id) [] (toyCall ["rho"])).1 = .add (.mul (.num 1) (.sym "x")) (.mul (.num 0) (.num 2)) ∧
    (simplify (toy id) [] (toyCall ["rho", "b"])).1 = .add (.mul (.num 1) (.sym "x")) (.mul (.num (-1)) (.num 2)) := by
  refine ⟨toy_sound _, fun _ _ h => h, ?_, ?_, ?_⟩
  · intro c hc
    simp only [List.mem_cons, List.not_mem_nil, or_false] at hc
    rcases hc with rfl | rfl | rfl <;> decide
  · simp only [simplify, PyDict.get?, List.find?_nil, Option.map_none]
    decide +kernel
  · simp only [simplify, PyDict.get?, List.find?_nil, Option.map_none]
    decide +kernel

/-- C134: without `FaithfulHash` the claim fails: if all hashes are equal, the second call gets the expression of the first. -/
theorem C134_collision_fails : ∃ (w : Algebra String Toy Unit), Sound w Toy.eval ∧ ∃ c c' : Call String Toy, ∃ η,
    (PyDict.keys c.vars).Nodup ∧ (PyDict.keys c'.vars).Nodup ∧ ∃ e e', (simplifyAll w [] [c, c']).1 = [e, e'] ∧
      e'.eval η ≠ c'.expr.eval (shownValues w Toy.eval c' η) := by
  refine ⟨toy fun _ => (), toy_sound _, ⟨.num 1, [], [], []⟩, ⟨.num 2, [], [], []⟩, fun _ => 0, by decide, by decide,
    .num 1, .num 1, rfl, ?_⟩
  simp [Toy.eval]

end Verif.Simplify
