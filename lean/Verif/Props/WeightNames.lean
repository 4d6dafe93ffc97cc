import Verif.Proofs.RationalText
import Verif.Props.SerialAmplitude

/-! C54, C57, C60: names of weights, and what happens to malformed vertices. -/
namespace Verif.Serialization
open Verif Verif.ThreeBody Verif.Spec

variable {c c' : ChainDefinition} {r r' : Reading} {tl : String → String} {m : ModelDefinition}

/-- C60: two weights with the same symbol belong to the same helicities, if the chains have the same
name. So weights for different helicities of a resonance do not interfere. -/
theorem C60_weight_symbol_helicities (hn : tl c.name = tl c'.name)
    (h : weightSymbol tl c r = weightSymbol tl c' r') :
    r.lR = r'.lR ∧ ∀ x ∈ ([1, 2, 3] : List ℤ), r.hel x = r'.hel x := by
  have h := congrArg (fun s => s.name.toList) h
  have hi : ∀ x y z : String, ", ".intercalate [x, y, z] = x ++ ", " ++ y ++ ", " ++ z := fun _ _ _ => rfl
  have l1 : "]}_{".toList = [']', '}', '_', '{'] := by decide
  have l2 : ", ".toList = [',', ' '] := by decide
  simp only [weightSymbol, hn, hi, String.toList_append, List.append_assoc, List.append_cancel_left_eq, l1, l2,
    List.cons_append, List.nil_append] at h
  have hno : ∀ q, ']' ∉ (ratStr q).toList := ratStr_no (by decide) (by decide) (by decide)
  obtain ⟨e0, h⟩ := split_unique (hno _) (hno _) h
  simp only [List.cons.injEq, true_and] at h
  obtain ⟨e1, h⟩ := split_unique (ratLatex_no_comma _) (ratLatex_no_comma _) h
  simp only [List.cons.injEq, true_and] at h
  obtain ⟨e2, h⟩ := split_unique (ratLatex_no_comma _) (ratLatex_no_comma _) h
  simp only [List.cons.injEq, true_and, List.append_cancel_right_eq] at h
  refine ⟨ratStr_inj (String.toList_inj.1 e0), ?_⟩
  intro x hx
  simp only [List.mem_cons, List.not_mem_nil, or_false] at hx
  rcases hx with rfl | rfl | rfl
  · exact ratLatex_inj (String.toList_inj.1 e1)
  · exact ratLatex_inj (String.toList_inj.1 e2)
  · exact ratLatex_inj (String.toList_inj.1 h)

private theorem ratLatex_no_bracket (q : ℚ) : ']' ∉ (ratLatex q).toList := by
  have hno : ∀ i : ℤ, ']' ∉ (toString i).toList := fun i => int_name_no (by decide) (by decide)
  by_cases h : q.den = 1
  · rw [ratLatex_int h]; exact hno _
  · rw [ratLatex_toList h]
    have h1 := hno q.num.natAbs
    have h2 := hno q.den
    simp only [List.mem_append, List.mem_cons, List.not_mem_nil, or_false, not_or]
    refine ⟨by split <;> decide, by decide, by decide, h1, by decide, by decide, h2, by decide⟩

/-- C60: the weights of two chains are the same parameter exactly if the chains have the same LaTeX and the same
helicities of resonance and final states. -/
theorem C60_weight_symbol_iff : weightSymbol tl c r = weightSymbol tl c' r' ↔
    tl c.name = tl c'.name ∧ r.lR = r'.lR ∧ ∀ x ∈ ([1, 2, 3] : List ℤ), r.hel x = r'.hel x := by
  constructor
  · intro h
    suffices hn : tl c.name = tl c'.name from ⟨hn, C60_weight_symbol_helicities hn h⟩
    have h := congrArg (fun s => s.name.toList.reverse) h
    have hi : ∀ x y z : String, ", ".intercalate [x, y, z] = x ++ ", " ++ y ++ ", " ++ z := fun _ _ _ => rfl
    have l1 : "]}_{".toList = [']', '}', '_', '{'] := by decide
    have l2 : ", ".toList = [',', ' '] := by decide
    have l3 : "[".toList = ['['] := by decide
    have l4 : "}".toList = ['}'] := by decide
    let H (r : Reading) : List Char := ['}'] ++ (ratLatex (r.hel 3)).toList.reverse ++ [' ', ','] ++
      (ratLatex (r.hel 2)).toList.reverse ++ [' ', ','] ++ (ratLatex (r.hel 1)).toList.reverse ++ ['{', '_', '}']
    have e : ∀ (c : ChainDefinition) (r : Reading), (weightSymbol tl c r).name.toList.reverse =
        H r ++ ']' :: ((ratStr r.lR).toList.reverse ++ '[' :: ((tl c.name).toList.reverse ++ "c^{".toList.reverse)) := by
      intro c r
      simp only [H, weightSymbol, hi, String.toList_append, List.reverse_append, l1, l2, l3, l4, List.append_assoc,
        List.reverse_cons, List.reverse_nil, List.nil_append, List.cons_append]
    have hno : ∀ r : Reading, ']' ∉ H r := by
      intro r
      simp only [H, List.mem_append, List.mem_reverse, not_or]
      exact ⟨⟨⟨⟨⟨⟨by decide, ratLatex_no_bracket _⟩, by decide⟩, ratLatex_no_bracket _⟩, by decide⟩,
        ratLatex_no_bracket _⟩, by decide⟩
    have hno' : ∀ q, '[' ∉ (ratStr q).toList.reverse := fun q => by
      rw [List.mem_reverse]
      exact ratStr_no (by decide) (by decide) (by decide) q
    simp only [e] at h
    obtain ⟨-, h⟩ := split_unique (hno _) (hno _) h
    obtain ⟨-, h⟩ := split_unique (hno' _) (hno' _) h
    exact String.toList_inj.1 (List.reverse_inj.1 (List.append_cancel_right h))
  · rintro ⟨h1, h2, h3⟩
    unfold weightSymbol
    rw [h1, h2, h3 1 (by simp), h3 2 (by simp), h3 3 (by simp)]

/-- C60: if no two chains agree in LaTeX and helicities, every weight in the file is the default value of its own
parameter. -/
theorem C60_own_weights {D : Distribution} {rd : ChainDefinition → Reading} {cl : Bool} {a : AmplitudeModel}
    {add : Option (PyDict String PropagatorBuilder)} (hadd : NonnegativeParameters add m)
    (hm : ReadsModel m D rd) (h0 : NonnegativeSpins D) (h : formulate m cl tl add = .ok a)
    (hown : ∀ c ∈ D.chains, ∀ c' ∈ D.chains, tl c.name = tl c'.name → (rd c).lR = (rd c').lR →
      (∀ x ∈ ([1, 2, 3] : List ℤ), (rd c).hel x = (rd c').hel x) → c = c')
    (hc : c ∈ D.chains) {re im : ℚ} (hw : c.weight = some (re, im)) :
    PyDict.get? a.parameterDefaults (.sym (weightSymbol tl c (rd c))) =
      some (if im = 0 then .real re else .cplx re im) := by
  obtain ⟨h1, h2⟩ := C60_weight_values hadd hm h0 h hc (re := re) (im := im) fun c' hc' e => by
    obtain ⟨e1, e2, e3⟩ := C60_weight_symbol_iff.1 e
    rw [hown c' hc' c hc e1 e2 e3, hw]
  split
  · exact h1 ‹_›
  · exact h2 ‹_›

/-- Chains of the `K892` for the two helicities of the proton have different weights. -/
example : weightSymbol id exKstar ⟨2, 3, 1, 0, 1 / 2, 0, 0⟩ ≠ weightSymbol id exKstar ⟨2, 3, 1, 0, -1 / 2, 0, 0⟩ := by
  intro h
  have := (C60_weight_symbol_helicities rfl h).2 1 (by simp)
  norm_num [Reading.hel] at this

/-- The weights of the example are their own parameters. -/
example (cl : Bool) : ∃ a, formulate exModel cl id none = .ok a ∧
    PyDict.get? a.parameterDefaults (.sym (weightSymbol id exLambda (exReading exLambda))) = some (.cplx (1 / 2) (-3)) := by
  obtain ⟨a, ha⟩ := exModel_ok id cl
  refine ⟨a, ha, ?_⟩
  have := C60_own_weights (c := exLambda) (re := 1 / 2) (im := -3) (fun _ h => by cases h) exModel_reads exDistribution_nonneg ha ?_
    (by simp [exDistribution]) rfl
  · rw [this, if_neg (by norm_num)]
  · intro c hc c' hc' e _ _
    simp only [exDistribution, List.mem_cons, List.not_mem_nil, or_false] at hc hc'
    rcases hc with rfl | rfl | rfl <;> rcases hc' with rfl | rfl | rfl <;> first | rfl | simp [exLambda, exKstar] at e

/-- The same resonance in another subsystem has the same weight parameter, if the helicities agree. -/
example : weightSymbol id exKstar ⟨2, 3, 1, 0, 0, 0, 0⟩ = weightSymbol id exKstar ⟨3, 1, 2, 0, 0, 0, 0⟩ :=
  C60_weight_symbol_iff.2 ⟨rfl, rfl, by decide⟩

/-- C54: the helicity of the resonance is found at the position of the first child that is a pair; the
vertex has helicities, and as many as children. -/
theorem C54_resonance_found {vs : List Vertex} {p : List Tree × ℚ} (h : getResonanceHelicity vs = .ok p) :
    ∃ v ∈ vs, ∃ hs, v.helicities = some hs ∧ ∃ (n : ℕ) (x y : Tree), p.1 = [x, y] ∧ v.node[n]? = some (Tree.seq [x, y]) ∧
      hs[n]? = some (some p.2) ∧ ∀ n' < n, ∀ x y, v.node[n']? ≠ some (Tree.seq [x, y]) := by
  have key : ∀ (hs : List (Option ℚ)) (ns : List Tree) {p}, resonanceInVertex hs ns = .ok (some p) →
      ∃ (n : ℕ) (x y : Tree), p.1 = [x, y] ∧ ns[n]? = some (Tree.seq [x, y]) ∧ hs[n]? = some (some p.2) ∧
        ∀ n' < n, ∀ x y, ns[n']? ≠ some (Tree.seq [x, y]) := by
    intro hs ns
    fun_induction resonanceInVertex hs ns with
    | case1 => intro p h; cases h
    | case2 h hs ns x y =>
      intro p hp
      simp only [bind_ok] at hp
      obtain ⟨q, hq, hp⟩ := hp
      cases hp
      refine ⟨0, x, y, rfl, rfl, ?_, by simp⟩
      cases h with
      | none => cases hq
      | some h => cases hq; rfl
    | case3 h hs n ns hn ih =>
      intro p hp
      obtain ⟨k, x, y, h1, h2, h3, h4⟩ := ih hp
      refine ⟨k + 1, x, y, h1, h2, h3, ?_⟩
      intro k' hk' x y
      cases k' with
      | zero =>
        intro e
        exact hn x y (by simpa using e)
      | succ k' => exact h4 k' (by omega) x y
    | case4 => intro p h; cases h
  induction vs with
  | nil => cases h
  | cons v t ih =>
    unfold getResonanceHelicity at h
    split at h
    · exact (ih h).imp fun w hw => ⟨List.mem_cons_of_mem _ hw.1, hw.2⟩
    · split at h
      · cases h
      · rename_i hs hh
        simp only [bind_ok] at h
        obtain ⟨o, ho, h⟩ := h
        cases o with
        | none => exact (ih h).imp fun w hw => ⟨List.mem_cons_of_mem _ hw.1, hw.2⟩
        | some q =>
          cases h
          exact ⟨v, List.mem_cons_self, hs, hh, key _ _ ho⟩

/-- C54: a chain of which the vertices contain no pair of decay products has no resonance helicity;
this is a `ValueError`. -/
theorem C54_no_resonance {vs : List Vertex} (h : ∀ v ∈ vs, ∀ x y, Tree.seq [x, y] ∉ v.node) :
    getResonanceHelicity vs = .error .valueError := by
  have key : ∀ (hs : List (Option ℚ)) (ns : List Tree), (∀ x y, Tree.seq [x, y] ∉ ns) →
      resonanceInVertex hs ns = .ok none ∨ resonanceInVertex hs ns = .error .valueError := by
    intro hs ns
    fun_induction resonanceInVertex hs ns with
    | case1 => intro _; exact .inl rfl
    | case2 h hs ns x y => intro hn; exact absurd List.mem_cons_self (hn x y)
    | case3 h hs n ns hn ih => intro hn'; exact ih fun x y hm => hn' x y (List.mem_cons_of_mem _ hm)
    | case4 => intro _; exact .inr rfl
  induction vs with
  | nil => rfl
  | cons v t ih =>
    have ih := ih fun v hv => h v (List.mem_cons_of_mem _ hv)
    unfold getResonanceHelicity
    split
    · exact ih
    · split
      · rfl
      · rename_i hs hh
        rcases key hs v.node (h v List.mem_cons_self) with e | e
        · simp only [e, bind, Except.bind]
          exact ih
        · simp only [e, bind, Except.bind]

/-- C54: vertices before the production vertex that contain no pair are skipped. -/
theorem C54_resonance_skip {v : Vertex} {vs : List Vertex} {hs : List (Option ℚ)} (hv : v.helicities = some hs)
    (hl : hs.length = v.node.length) (h : ∀ x y, Tree.seq [x, y] ∉ v.node) :
    getResonanceHelicity (v :: vs) = getResonanceHelicity vs := by
  have key : ∀ (hs : List (Option ℚ)) (ns : List Tree), hs.length = ns.length → (∀ x y, Tree.seq [x, y] ∉ ns) →
      resonanceInVertex hs ns = .ok none := by
    intro hs ns
    fun_induction resonanceInVertex hs ns with
    | case1 => intro _ _; rfl
    | case2 h hs ns x y => intro _ hn; exact absurd List.mem_cons_self (hn x y)
    | case3 h hs n ns hn ih =>
      intro hl hn'
      exact ih (by simpa using hl) fun x y hm => hn' x y (List.mem_cons_of_mem _ hm)
    | case4 hs ns h1 h2 =>
      intro hl _
      cases hs <;> cases ns <;> first | exact (h1 rfl rfl).elim | exact (h2 _ _ _ _ rfl rfl).elim | cases hl
  rw [getResonanceHelicity]
  split
  · rfl
  · rw [hv]
    simp only [key hs v.node hl h, bind, Except.bind]

/-- A three-body node before the production vertex is skipped, a pair after it is found. -/
example : getResonanceHelicity [
      { type := "helicity", node := [.seq [.id 1, .id 2, .id 3], .id 4], helicities := some [some 1, some 0] },
      { type := "helicity", node := [.id 3, .seq [.id 1, .id 2]], helicities := some [some 0, some (1 / 2)] }] =
    .ok ([.id 1, .id 2], 1 / 2) := by
  rw [C54_resonance_skip rfl rfl (by simp)]
  rfl

/-- C57: the spin of the parent of a decay vertex is known only if there is exactly one propagator, which
must have a spin. -/
theorem C57_one_propagator {cs : List ChainDefinition} {n k : ℕ} {v : Vertex} (hm : getDecayChains m = .ok cs)
    (hc : cs[n]? = some c) (hv : c.vertices[k]? = some v) (hn : ∀ t ∈ v.node, ∃ i, t = .id i) (s : ℚ) :
    getParentSpin m n k = .ok s ↔ ∃ p, c.propagators = [p] ∧ p.spin = some s := by
  have hall : allInt v.node = true := by
    unfold allInt
    rw [List.all_eq_true]
    intro t ht
    obtain ⟨i, rfl⟩ := hn t ht
    rfl
  unfold getParentSpin
  simp only [hm, bind, Except.bind, item_ok.2 hc, item_ok.2 hv, hall, if_true]
  unfold getPropagatorSpin
  constructor
  · intro h
    split at h
    · rename_i p hp
      refine ⟨p, hp, ?_⟩
      unfold toRational at h
      split at h
      · cases h; assumption
      · cases h
    · cases h
  · rintro ⟨p, hp, hs⟩
    rw [hp]
    simp [toRational, hs]

example : getParentSpin exModel 1 1 = .ok 1 := by
  exact (C57_one_propagator (n := 1) (k := 1) (c := exKstar) (cs := exDistribution.chains) rfl rfl rfl (by simp) 1).2 ⟨_, rfl, rfl⟩

end Verif.Serialization
