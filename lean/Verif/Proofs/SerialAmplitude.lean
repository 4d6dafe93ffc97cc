import Verif.Spec.SerialAmplitude
import Verif.Model.SerialAmplitude
import Verif.Proofs.Serialization
import Verif.Proofs.SerialText
import Verif.Proofs.ExprLemmas

/-! Helper lemmas for the amplitudes of a serialized model. -/
set_option linter.unusedSimpArgs false
namespace Verif.Serialization
open Verif Verif.ThreeBody Verif.Spec Verif.Spin

theorem resonanceHelicity_of {c : ChainDefinition} {r : Reading} (h : Reads c r) :
    ∃ a b, getResonanceHelicity c.vertices = .ok ([a, b], r.lR) := by
  obtain ⟨p, q, ho, ⟨a, b, hp⟩, hq, hq'⟩ := h
  refine ⟨a, b, ?_⟩
  rcases ho with ho | ho <;> rcases hp with ⟨hp, hp'⟩ | ⟨hp, hp'⟩ <;>
    simp [ho, getResonanceHelicity, hp, hp', hq, allInt, Tree.isInt, resonanceInVertex, toRational,
      bind, Except.bind, pure, Except.pure]

theorem decayProducts_of {c : ChainDefinition} {r : Reading} (h : Reads c r) :
    getDecayProductHelicities c.vertices = .ok ((r.i, r.li), (r.j, r.lj)) := by
  obtain ⟨p, q, ho, ⟨a, b, hp⟩, hq, hq'⟩ := h
  rcases ho with ho | ho <;> rcases hp with ⟨hp, hp'⟩ | ⟨hp, hp'⟩ <;>
    simp [ho, getDecayProductHelicities, hp, hp', hq, hq', allInt, Tree.isInt, zipHelicities, toRational,
      unpack2, bind, Except.bind, pure, Except.pure]

theorem collect_of {c : ChainDefinition} {r : Reading} (h : Reads c r)
    (hn : [r.i, r.j, r.k].Nodup) : ∃ d, collectHelicities c.vertices [] = .ok d ∧
      (∀ x, x ∈ PyDict.keys d ↔ x = r.i ∨ x = r.j ∨ x = r.k) ∧ PyDict.get? d r.i = some r.li ∧
      PyDict.get? d r.j = some r.lj ∧ PyDict.get? d r.k = some r.lk := by
  obtain ⟨p, q, ho, ⟨a, b, hp⟩, hq, hq'⟩ := h
  simp only [List.nodup_cons, List.mem_cons, List.not_mem_nil, or_false, not_or] at hn
  obtain ⟨⟨h1, h2⟩, h3, -⟩ := hn
  rcases ho with ho | ho
  · refine ⟨PyDict.set (PyDict.set (PyDict.set [] r.k r.lk) r.i r.li) r.j r.lj, ?_, ?_, ?_, ?_, ?_⟩
    · rcases hp with ⟨hp, hp'⟩ | ⟨hp, hp'⟩ <;>
        simp [ho, collectHelicities, hp, hp', hq, hq', collectInVertex, toRational, bind, Except.bind]
    · intro x
      rw [PyDict.mem_keys_set, PyDict.mem_keys_set, PyDict.mem_keys_set]
      simp [PyDict.keys]; tauto
    · rw [PyDict.get?_set, if_neg (by tauto), PyDict.get?_set, if_pos rfl]
    · rw [PyDict.get?_set, if_pos rfl]
    · rw [PyDict.get?_set, if_neg (by tauto), PyDict.get?_set, if_neg (by tauto), PyDict.get?_set,
        if_pos rfl]
  · refine ⟨PyDict.set (PyDict.set (PyDict.set [] r.i r.li) r.j r.lj) r.k r.lk, ?_, ?_, ?_, ?_, ?_⟩
    · rcases hp with ⟨hp, hp'⟩ | ⟨hp, hp'⟩ <;>
        simp [ho, collectHelicities, hp, hp', hq, hq', collectInVertex, toRational, bind, Except.bind]
    · intro x
      rw [PyDict.mem_keys_set, PyDict.mem_keys_set, PyDict.mem_keys_set]
      simp [PyDict.keys]; tauto
    · rw [PyDict.get?_set, if_neg (by tauto), PyDict.get?_set, if_neg (by tauto), PyDict.get?_set,
        if_pos rfl]
    · rw [PyDict.get?_set, if_neg (by tauto), PyDict.get?_set, if_pos rfl]
    · rw [PyDict.get?_set, if_pos rfl]

theorem finalHelicities_of {c : ChainDefinition} {r : Reading} (h : Reads c r)
    (hn : [r.i, r.j, r.k].Nodup) : ∃ d, getFinalStateHelicities c = .ok d ∧
      (d.map Prod.fst).Pairwise (· < ·) ∧
      ∀ x, x ∈ d ↔ x = (r.i, r.li) ∨ x = (r.j, r.lj) ∨ x = (r.k, r.lk) := by
  obtain ⟨d, h1, h2, h3, h4, h5⟩ := collect_of h hn
  have hv : ∀ i ∈ sortedSet (PyDict.keys d), ∃ v, PyDict.get? d i = some v := by
    intro i hi
    rw [sortedSet_mem, h2] at hi
    rcases hi with rfl | rfl | rfl
    · exact ⟨_, h3⟩
    · exact ⟨_, h4⟩
    · exact ⟨_, h5⟩
  have key : ∀ l : List ℤ, (∀ i ∈ l, ∃ v, PyDict.get? d i = some v) →
      ∃ e : List (ℤ × ℚ), (l.mapM fun i => do return (i, ← PyDict.get d i) : Py (List (ℤ × ℚ))) = .ok e ∧
        e.map Prod.fst = l ∧ ∀ x ∈ e, PyDict.get? d x.1 = some x.2 := by
    intro l
    induction l with
    | nil => intro _; exact ⟨[], rfl, rfl, by simp⟩
    | cons i l ih =>
      intro hl
      obtain ⟨e, he, he1, he2⟩ := ih fun j hj => hl j (List.mem_cons_of_mem _ hj)
      obtain ⟨v, hv⟩ := hl i (List.mem_cons_self ..)
      refine ⟨(i, v) :: e, ?_, by simp [he1], ?_⟩
      · rw [List.mapM_cons, he, get_ok.2 hv]
        rfl
      · intro x hx
        rcases List.mem_cons.1 hx with rfl | hx
        · exact hv
        · exact he2 x hx
  obtain ⟨e, he, he1, he2⟩ := key _ hv
  refine ⟨e, ?_, ?_, ?_⟩
  · unfold getFinalStateHelicities
    rw [h1]
    exact he
  · rw [he1]
    exact sortedSet_pairwise _
  · intro x
    have hmem : ∀ i, i ∈ e.map Prod.fst ↔ i = r.i ∨ i = r.j ∨ i = r.k := by
      intro i
      rw [he1, sortedSet_mem, h2]
    have hex : ∀ i v, PyDict.get? d i = some v → (i = r.i ∨ i = r.j ∨ i = r.k) → (i, v) ∈ e := by
      intro i v hiv hi
      obtain ⟨⟨i', v'⟩, hm, rfl⟩ := List.mem_map.1 ((hmem i).2 hi)
      have := he2 _ hm
      simp only at this hiv
      rw [this] at hiv
      injection hiv with hiv
      exact hiv ▸ hm
    constructor
    · intro hx
      obtain ⟨i, v⟩ := x
      have hg := he2 _ hx
      have := (hmem i).1 (List.mem_map.2 ⟨_, hx, rfl⟩)
      simp only at hg
      rcases this with rfl | rfl | rfl
      · rw [h3] at hg; injection hg with hg; exact .inl (by rw [hg])
      · rw [h4] at hg; injection hg with hg; exact .inr (.inl (by rw [hg]))
      · rw [h5] at hg; injection hg with hg; exact .inr (.inr (by rw [hg]))
    · rintro (rfl | rfl | rfl)
      · exact hex _ _ h3 (.inl rfl)
      · exact hex _ _ h4 (.inr (.inl rfl))
      · exact hex _ _ h5 (.inr (.inr rfl))

/-- All vertices need helicities. -/
theorem collect_helicities {vs : List Vertex} {acc d : PyDict ℤ ℚ}
    (h : collectHelicities vs acc = .ok d) : ∀ v ∈ vs, ∃ hs, v.helicities = some hs := by
  induction vs generalizing acc with
  | nil => simp
  | cons v t ih =>
    unfold collectHelicities at h
    cases hv : v.helicities with
    | none => rw [hv] at h; cases h
    | some hs =>
      rw [hv] at h
      simp only [bind_ok] at h
      obtain ⟨a, -, h⟩ := h
      intro w hw
      rcases List.mem_cons.1 hw with rfl | hw
      · exact ⟨hs, hv⟩
      · exact ih h w hw

theorem item_nat {α : Type} (l : List α) (n : ℕ) :
    item l n = match l[n]? with | some x => .ok x | none => .error .indexError := by
  have h : ¬ (n : ℤ) < 0 := by omega
  simp only [item, if_neg h, Int.toNat_natCast]
  rfl

theorem item_ok {α : Type} {l : List α} {n : ℕ} {x : α} : item l n = .ok x ↔ l[n]? = some x := by
  rw [item_nat]
  cases l[n]? <;> simp

theorem signValue {s : String} {f : ℤ} (h : signToValue s = .ok f) : parityValue (some s) = f := by
  have e1 := strip_iff s (core := ['-']) (by simp [pyIsSpace]) (by simp [pyIsSpace])
  have e2 := strip_iff s (core := ['+']) (by simp [pyIsSpace]) (by simp [pyIsSpace])
  unfold signToValue at h
  unfold parityValue
  simp only [← e1, ← e2]
  generalize pyStrip s.toList = l at h
  by_cases h1 : l = ['-']
  · subst h1; simp at h ⊢; exact h
  · by_cases h2 : l = []
    · subst h2; simp at h ⊢; exact h
    · by_cases h3 : l = ['+']
      · subst h3; simp at h ⊢; exact h
      · simp [h1, h2, h3] at h

theorem kron_mul (p q : Prop) [Decidable p] [Decidable q] :
    ((if p then 1 else 0 : ℂ) * if q then 1 else 0) = if p ∧ q then 1 else 0 := by
  by_cases hp : p <;> by_cases hq : q <;> simp [hp, hq]

theorem eval_helicity (ι : Interp) (η : Sym → ℚ) (a b a0 b0 : Hel) :
    (helicityRecoupling a b a0 b0).eval ι η =
      recouplingValue none (a0.eval η) (b0.eval η) (a.eval η) (b.eval η) := by
  unfold helicityRecoupling recouplingValue
  simp only [Expr.eval, kron_mul, add_zero]

theorem eval_parity (ι : Interp) (η : Sym → ℚ) (a b a0 b0 : Hel) (f : ℤ) :
    (parityRecoupling a b a0 b0 f).eval ι η =
      recouplingValue (some f) (a0.eval η) (b0.eval η) (a.eval η) (b.eval η) := by
  unfold parityRecoupling recouplingValue
  simp only [Expr.eval, Hel.eval, mul_assoc, Rat.cast_intCast]
  rw [kron_mul]
  congr 2
  exact kron_mul _ _

/-- An LS vertex with a final state among its children. -/
theorem ls_fails {m : ModelDefinition} {c : ChainDefinition} {v : Vertex} {n k : ℕ} {cs : List ChainDefinition} (hm : getDecayChains m = .ok cs)
    (hc : cs[n]? = some c) (hv : c.vertices[k]? = some v) (ht : v.type = "ls") {i : ℤ}
    (hi : .id i ∈ v.node) : ∀ e, formulateRecoupling m n k ≠ .ok e := by
  have key : ∀ l, getChildSpins m n k ≠ .ok l := by
    intro l hl
    unfold getChildSpins at hl
    rw [hm] at hl
    simp only [bind_ok] at hl
    obtain ⟨_, hcs, c', hc', v', hv', final, -, hl⟩ := hl
    cases hcs
    rw [item_ok, hc] at hc'
    injection hc' with hc'
    subst hc'
    rw [item_ok, hv] at hv'
    injection hv' with hv'
    subst hv'
    have := (mapM_ok_iff _ _ _).1 hl
    obtain ⟨q, -, hq⟩ := Verif.Qrules.forall₂_mem_left this hi
    simp only [bind_ok] at hq
    obtain ⟨_, _, hq⟩ := hq
    cases hq
  intro e he
  unfold formulateRecoupling at he
  rw [hm] at he
  simp only [bind_ok] at he
  obtain ⟨_, hcs, c', hc', he⟩ := he
  cases hcs
  rw [item_ok, hc] at hc'
  injection hc' with hc'
  subst hc'
  split at he
  · cases he
  · split at he
    · cases he
    · simp only [bind_ok] at he
      obtain ⟨v', hv', he⟩ := he
      rw [item_ok, hv] at hv'
      injection hv' with hv'
      subst hv'
      obtain ⟨ab, -, he⟩ := he
      rw [if_neg (by simp [ht]), if_pos ht] at he
      cases hl : v.l <;> cases hs : v.s <;> rw [hl, hs] at he <;> simp only [bind_ok] at he
      · obtain ⟨_, -, _, -, _, hx, -⟩ := he
        exact key _ hx
      · obtain ⟨_, -, _, -, _, hx, -⟩ := he
        exact key _ hx
      · obtain ⟨_, -, _, -, _, hx, -⟩ := he
        exact key _ hx
      · obtain ⟨_, -, _, -, _, hx, -⟩ := he
        exact key _ hx

/-- Value of a recoupling that is returned, for a vertex with a final state. -/
theorem recoupling_value {m : ModelDefinition} {c : ChainDefinition} {v : Vertex} {n k : ℕ}
    {cs : List ChainDefinition} (hm : getDecayChains m = .ok cs)
    (hc : cs[n]? = some c) (hv : c.vertices[k]? = some v) {x y : Tree} (hx : v.node = [x, y])
    {a b : ℚ} (hh : v.helicities = some [some a, some b]) {i : ℤ} (hi : .id i ∈ v.node) {e : Expr}
    (h : formulateRecoupling m n k = .ok e) (ι : Interp) (η : Sym → ℚ) :
    e.eval ι η = vertexValue v (η lambdaR) fun i => η (lambdaSym i) := by
  have hsym : ∀ (t : Tree) (η : Sym → ℚ), η (getHelicitySymbol t) =
      childHelicity (η lambdaR) (fun i => η (lambdaSym i)) t := by
    intro t η; cases t <;> rfl
  have hls : v.type ≠ "ls" := fun ht => ls_fails hm hc hv ht hi e h
  unfold formulateRecoupling at h
  rw [hm] at h
  simp only [bind_ok] at h
  obtain ⟨_, hcs, c', hc', h⟩ := h
  cases hcs
  rw [item_ok, hc] at hc'
  injection hc' with hc'
  subst hc'
  split at h
  · cases h
  · split at h
    · cases h
    · simp only [bind_ok] at h
      obtain ⟨v', hv', ab, hab, h⟩ := h
      rw [item_ok, hv] at hv'
      injection hv' with hv'
      subst hv'
      rw [hx] at hab
      simp only [List.map_cons, List.map_nil, unpack2, Except.ok.injEq] at hab
      subst hab
      by_cases ht : v.type ∈ ["helicity", "parity"]
      · rw [if_pos ht, hh] at h
        simp only [List.mapM_cons, List.mapM_nil, toRational, bind, Except.bind, pure, Except.pure,
          unpack2] at h
        by_cases hp : v.type = "parity"
        · rw [if_pos hp] at h
          have h : (signToValue (v.parityFactor.getD "+") >>= fun f => .ok (parityRecoupling
            (.sym (getHelicitySymbol x)) (.sym (getHelicitySymbol y)) (.num a) (.num b) f)) = .ok e := h
          rw [bind_ok] at h
          obtain ⟨f, hf, h⟩ := h
          injection h with h
          subst h
          rw [eval_parity]
          have hpf : parityValue v.parityFactor = f := by
            cases hpar : v.parityFactor with
            | none => rw [hpar] at hf; exact (Except.ok.inj hf)
            | some s => rw [hpar] at hf; exact signValue hf
          unfold vertexValue vertexParity
          simp only [hx, hh, hp, Hel.eval, hsym, hpf, if_true]
        · rw [if_neg hp] at h
          injection h with h
          subst h
          rw [eval_helicity]
          unfold vertexValue vertexParity
          simp only [hx, hh, Hel.eval, hsym]
          rw [if_neg hp]
      · rw [if_neg ht, if_neg hls] at h
        cases h

end Verif.Serialization
