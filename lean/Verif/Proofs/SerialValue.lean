import Verif.Proofs.SerialIntensity

/-! Values of the amplitudes of a formulated serialized model. -/
namespace Verif.Serialization
open Verif Verif.ThreeBody Verif.Spec Verif.Spin Verif.Angles

variable {m : ModelDefinition} {tl : String → String} {add : Option (PyDict String PropagatorBuilder)}

theorem helicityTuples_nodup (s : ℤ → ℚ) : (helicityTuples s).Nodup := by
  have h := fun j => spinRange_nodup j
  have hp := (h (s 0)).product ((h (s 1)).product ((h (s 2)).product (h (s 3))))
  have he : helicityTuples s = createSpinRange (s 0) ×ˢ createSpinRange (s 1) ×ˢ
      createSpinRange (s 2) ×ˢ createSpinRange (s 3) := by
    unfold helicityTuples
    simp only [SProd.sprod, List.product, List.map_flatMap, List.map_map]
    rfl
  rw [he]
  exact hp

theorem sum_single {α : Type} [DecidableEq α] {l : List α} (hn : l.Nodup) {a : α} (ha : a ∈ l) (f : α → ℂ) :
    (l.map fun x => if x = a then f x else 0).sum = f a := by
  rw [← List.sum_toFinset _ hn, Finset.sum_ite_eq' l.toFinset a f, if_pos (List.mem_toFinset.2 ha)]

theorem sum_product {α β : Type} (l : List α) (r : List β) (f : α × β → ℂ) :
    ((l.product r).map f).sum = (l.map fun a => (r.map fun b => f (a, b)).sum).sum := by
  induction l with
  | nil => rfl
  | cons a t ih =>
    have : (a :: t).product r = r.map (fun b => (a, b)) ++ t.product r := rfl
    rw [this, List.map_append, List.sum_append, ih, List.map_cons, List.sum_cons, List.map_map]
    rfl

theorem map_range_getElem {α β : Type} (l : List α) (f : ℕ → β) (g : α → β)
    (h : ∀ n c, l[n]? = some c → f n = g c) : (List.range l.length).map f = l.map g := by
  apply List.ext_getElem
  · simp
  · intro n h1 h2
    simp only [List.getElem_map, List.getElem_range]
    have hn : n < l.length := by simpa using h2
    exact h n _ (List.getElem?_eq_getElem hn)

theorem definedValue_stored (a : AmplitudeModel) (ι : Interp) (η : Sym → ℚ) (k : ℤ) (l : Fin 4 → ℚ) :
    definedValue a ι η k l = stored ι η a.amplitudes (ampKey k (l 0, l 1, l 2, l 3)) := by
  unfold definedValue stored
  have : amplitudeSymbol k l = ampKey k (l 0, l 1, l 2, l 3) := rfl
  rw [this]
  cases PyDict.get? a.amplitudes (ampKey k (l 0, l 1, l 2, l 3)) with
  | none => simp [Expr.eval]
  | some e => rfl

theorem vertexValue_congr {v : Vertex} {lR : ℚ} {l l' : ℤ → ℚ} (h : ∀ i, .id i ∈ v.node → l i = l' i) :
    vertexValue v lR l = vertexValue v lR l' := by
  have key : ∀ x ∈ v.node, childHelicity lR l x = childHelicity lR l' x := by
    intro x hx
    cases x with
    | id i => exact h i hx
    | seq s => rfl
  unfold vertexValue
  split
  · rename_i x y a b hn hh
    rw [key x (by rw [hn]; simp), key y (by rw [hn]; simp)]
  · rfl

theorem reads_ids {c : ChainDefinition} {r : Reading} (h : Reads c r) (hs : r.Standard) {v : Vertex}
    (hv : v ∈ c.vertices) {i : ℤ} (hi : .id i ∈ v.node) : i ∈ ([1, 2, 3] : List ℤ) := by
  obtain ⟨h1, h2, h3, -⟩ := standard_mem hs
  obtain ⟨p, q, ho, ⟨a, b, hp⟩, hq, hq'⟩ := h
  have : v = p ∨ v = q := by
    rcases ho with ho | ho <;> rw [ho] at hv <;> simp at hv <;> tauto
  rcases this with rfl | rfl
  · rcases hp with ⟨hp, hp'⟩ | ⟨hp, hp'⟩ <;> rw [hp] at hi <;> simp at hi <;> rw [hi] <;> assumption
  · rw [hq] at hi
    simp at hi
    rcases hi with rfl | rfl <;> assumption

theorem look_helSub (l : Fin 4 → ℚ) {i : ℤ} (hi : i ∈ ([0, 1, 2, 3] : List ℤ)) :
    look (helSub (l 0, l 1, l 2, l 3)) (lambdaSym i) = some (byId l i) := by
  obtain ⟨p0, p1, p2, p3⟩ := look_asg (s := lambdaSym) (fun _ _ h => lambdaSym_inj h) l
  have he : helSub (l 0, l 1, l 2, l 3) = asg lambdaSym l := rfl
  rw [he]
  simp only [List.mem_cons, List.not_mem_nil, or_false] at hi
  rcases hi with rfl | rfl | rfl | rfl
  · exact p0
  · exact p1
  · exact p2
  · exact p3

theorem prod_forms {P : Vertex → DefExpr → Prop} {vs : List Vertex} {ds : List DefExpr}
    (h : List.Forall₂ P vs ds) (f : Vertex → ℂ) (g : DefExpr → ℂ)
    (hfg : ∀ v ∈ vs, ∀ d, P v d → g d = f v) : (ds.map g).prod = (vs.map f).prod := by
  induction h with
  | nil => rfl
  | cons hp _ ih =>
    rw [List.map_cons, List.map_cons, List.prod_cons, List.prod_cons,
      hfg _ (List.mem_cons_self ..) _ hp, ih fun v hv => hfg v (List.mem_cons_of_mem _ hv)]

/-- The value of a defined amplitude. -/
theorem amplitude_value {D : Distribution} (hD : ∃ rest, m.distributions = D :: rest)
    (hk : WellFormedKinematics D.kinematics) {rd : ChainDefinition → Reading}
    (hrd : ∀ c ∈ D.chains, Reads c (rd c) ∧ (rd c).Standard) {cl : Bool} {a : AmplitudeModel}
    (h : formulate m cl tl add = .ok a) {ι : Interp} {line : ChainDefinition → ℂ} {form : Vertex → ℂ}
    (hv : DynamicsValues m D.chains tl add ι line form) (η : Sym → ℚ) (k : ℤ) {l : Fin 4 → ℚ}
    (hl : l ∈ helicities a.decay) :
    open Classical in definedValue a ι η k l = (D.chains.map fun c => if IsSpectator c.topology k then
      serialValue ι tl line form (byId l) c (rd c) else 0).sum := by
  classical
  obtain ⟨K, E, P, Θ, ref, ids, zetas, terms, hf⟩ := formulate_inv hD hk h
  have hd := (toDecay_standard hD hk hf.decay).1
  rw [definedValue_stored, hf.amplitudes, stored_foldl]
  have h0 : stored ι η ({} : Acc).amplitudes (ampKey k (l 0, l 1, l 2, l 3)) = 0 := by
    simp [stored, PyDict.get?, Expr.eval]
  rw [h0, zero_add]
  unfold serialPairs
  rw [sum_product]
  have hlt := helicities_tuple hd hl
  have e1 : ∀ t : ℚ × ℚ × ℚ × ℚ, ((List.range D.chains.length).map fun n =>
      if ampKey (K n) t = ampKey k (l 0, l 1, l 2, l 3) then
        (E n).eval ι (fun u => (look (helSub t) u).getD (η u)) else 0).sum =
      if t = (l 0, l 1, l 2, l 3) then ((List.range D.chains.length).map fun n => if K n = k then
        (E n).eval ι (fun u => (look (helSub t) u).getD (η u)) else 0).sum else 0 := by
    intro t
    by_cases ht : t = (l 0, l 1, l 2, l 3)
    · rw [if_pos ht, ht]
      congr 1
      apply List.map_congr_left
      intro n _
      by_cases hK : K n = k
      · rw [if_pos (by rw [hK]), if_pos hK]
      · rw [if_neg fun h => hK (ampKey_inj h).1, if_neg hK]
    · rw [if_neg ht]
      apply List.sum_eq_zero
      intro x hx
      obtain ⟨n, -, rfl⟩ := List.mem_map.1 hx
      rw [if_neg fun h => ht (ampKey_inj h).2]
  simp only [e1]
  rw [sum_single (helicityTuples_nodup _) hlt]
  congr 1
  apply map_range_getElem
  intro n c hc
  have hcm := List.mem_of_getElem? hc
  obtain ⟨hr, hs⟩ := hrd c hcm
  have hn : n ∈ List.range D.chains.length := List.mem_range.2 (List.getElem?_eq_some_iff.1 hc).1
  have htab := hf.table ((l 0, l 1, l 2, l 3), n) (List.mem_product.2 ⟨hlt, hn⟩)
  obtain ⟨d, ds, w, h1, h2, h3, h4, h5, h6, h7, h8, h9⟩ := chainData_facts (chains_ok hD) hc hr hs htab.data
  have hsp := ((C52_spectator _).1 (K n)).1 h5
  have hiff : K n = k ↔ IsSpectator c.topology k :=
    ⟨fun he => he ▸ hsp, fun hk => hk.2 _ hsp.1⟩
  by_cases hK : K n = k
  · rw [if_pos hK, if_pos (hiff.1 hK), h9]
    unfold serialValue
    have e2 : ∀ v ∈ c.vertices, vertexValue v (rd c).lR (fun i =>
        (look (helSub (l 0, l 1, l 2, l 3)) (lambdaSym i)).getD (η (lambdaSym i))) =
        vertexValue v (rd c).lR (byId l) := by
      intro v hv
      apply vertexValue_congr
      intro i hi
      rw [look_helSub l (mem0 (reads_ids hr hs hv hi))]
      rfl
    rw [List.map_congr_left e2, hv.line c hcm d h1,
      prod_forms h2 form _ fun v hvm d hd => hv.form c hcm v hvm d hd _]
    rfl
  · rw [if_neg hK, if_neg fun hk => hK (hiff.2 hk)]

end Verif.Serialization
