import Verif.Proofs.SerialFormulate
import Verif.Props.Serialization

/-! Intensity and amplitudes of a formulated serialized model. -/
namespace Verif.Serialization
open Verif Verif.ThreeBody Verif.Spec Verif.Spin Verif.Angles

variable {m : ModelDefinition} {tl : String → String} {add : Option (PyDict String PropagatorBuilder)}

theorem eval_serialAligned (ι : Interp) (η : Sym → ℚ) {d : Decay} (hd : Standard d) (ref : ℤ)
    {ids : List ℤ} (hids : ids.Nodup) (h : ℤ → Hel) (l : Fin 4 → ℚ)
    (hh : ∀ l', (h 0).eval (override id η (asg lambdaPrime l')) = l 0 ∧
      (h 1).eval (override id η (asg lambdaPrime l')) = l 1 ∧
      (h 2).eval (override id η (asg lambdaPrime l')) = l 2 ∧
      (h 3).eval (override id η (asg lambdaPrime l')) = l 3) :
    (serialAligned d (ids.map (alignTerm ref (spins d) h))).eval ι η =
      alignedOver ι d ids.toFinset ref (symbolValue ι) l := by
  unfold serialAligned alignedOver
  rw [Expr.eval, sum_combos hd]
  apply Finset.sum_congr rfl
  intro l' _
  rw [Expr.eval_addAll, List.map_map, List.sum_toFinset _ hids]
  congr 1
  apply List.map_congr_left
  intro k _
  obtain ⟨p0, p1, p2, p3⟩ := look_asg (s := lambdaPrime) (fun _ _ h => lambdaPrime_inj h) l'
  obtain ⟨h0, h1, h2, h3⟩ := hh l'
  have e : ∀ i : ℤ, ∀ v, look (asg lambdaPrime l') (lambdaPrime i) = some v →
      (Hel.sym (lambdaPrime i)).eval (override id η (asg lambdaPrime l')) = v := by
    intro i v hv
    rw [Hel.eval, override_id]; simp only [hv]; rfl
  have w0 : (wigFactor ref (spins d 0) (h 0) (.sym (lambdaPrime 0)) 0 k).eval ι
      (override id η (asg lambdaPrime l')) = rotation ι d ref k 0 (l 0) (l' 0) := by
    rw [← h0, ← e 0 _ p0]
    exact eval_wigFactor ι (override id η (asg lambdaPrime l')) d ref k 0 _ _
  have w1 : (wigFactor ref (spins d 1) (.sym (lambdaPrime 1)) (h 1) 1 k).eval ι
      (override id η (asg lambdaPrime l')) = rotation ι d ref k 1 (l' 1) (l 1) := by
    rw [← h1, ← e 1 _ p1]
    exact eval_wigFactor ι (override id η (asg lambdaPrime l')) d ref k 1 _ _
  have w2 : (wigFactor ref (spins d 2) (.sym (lambdaPrime 2)) (h 2) 2 k).eval ι
      (override id η (asg lambdaPrime l')) = rotation ι d ref k 2 (l' 2) (l 2) := by
    rw [← h2, ← e 2 _ p2]
    exact eval_wigFactor ι (override id η (asg lambdaPrime l')) d ref k 2 _ _
  have w3 : (wigFactor ref (spins d 3) (.sym (lambdaPrime 3)) (h 3) 3 k).eval ι
      (override id η (asg lambdaPrime l')) = rotation ι d ref k 3 (l' 3) (l 3) := by
    rw [← h3, ← e 3 _ p3]
    exact eval_wigFactor ι (override id η (asg lambdaPrime l')) d ref k 3 _ _
  simp only [Function.comp, alignTerm, Expr.eval, w0, w1, w2, w3]
  unfold symbolValue ampSym
  simp only [List.map_cons, List.map_nil, e 0 _ p0, e 1 _ p1, e 2 _ p2, e 3 _ p3]

/-- The sum over the helicities, before the cleanup. -/
def serialSum (d : Decay) (terms : List Expr) (cl : Bool) : Expr :=
  .psum (.pow (.abs (if cl then (serialAligned d terms).cleanup else serialAligned d terms)) 2) (outer d)

theorem serialIntensity_eq (d : Decay) (terms : List Expr) (cl : Bool) :
    serialIntensity d terms cl = if cl then (serialSum d terms cl).cleanup else serialSum d terms cl := rfl

theorem outer_ne {d : Decay} (hd : Standard d) (h : ∀ i : Fin 4, 0 ≤ d.spin i) : ∀ x ∈ outer d, x.2 ≠ [] := by
  intro x hx
  unfold outer at hx
  obtain ⟨i, hi, rfl⟩ := List.mem_map.1 hx
  have hmem : d.spin i ∈ createSpinRange (spins d i) := by
    rw [spins_eq d hi, mem_spinRange (Standard.half hd hi)]
    have : 0 ≤ d.spin i := by
      simp only [List.mem_cons, List.not_mem_nil, or_false] at hi
      rcases hi with rfl | rfl | rfl | rfl
      · exact h 0
      · exact h 1
      · exact h 2
      · exact h 3
    exact ⟨by linarith, le_refl _, 0, by simp⟩
  intro he
  simp only at he
  rw [he] at hmem
  cases hmem

theorem eval_serialIntensity (ι : Interp) (η : Sym → ℚ) {d : Decay} (hd : Standard d)
    (h0 : ∀ i : Fin 4, 0 ≤ d.spin i) (ref : ℤ) {ids : List ℤ} (hids : ids.Nodup) (cl : Bool) :
    (serialIntensity d (ids.map (alignTerm ref (spins d) fun i => .sym (lambdaSym i))) cl).eval ι η =
      (intensityOver ι d ids.toFinset ref (symbolValue ι) : ℂ) := by
  have hne := outer_ne hd h0
  have hsum : (serialIntensity d (ids.map (alignTerm ref (spins d) fun i => .sym (lambdaSym i))) cl).eval ι η =
      (serialSum d (ids.map (alignTerm ref (spins d) fun i => .sym (lambdaSym i))) cl).eval ι η := by
    rw [serialIntensity_eq]
    cases cl with
    | false => rfl
    | true =>
      rw [if_pos rfl]
      exact Expr.eval_cleanup ι η _ _ (outer_nodup d) hne
  rw [hsum]
  unfold serialSum
  rw [Expr.eval]
  have hcl : ∀ a ∈ combos (outer d), (Expr.pow (Expr.abs
      (if cl then (serialAligned d (ids.map (alignTerm ref (spins d) fun i => .sym (lambdaSym i)))).cleanup
        else serialAligned d (ids.map (alignTerm ref (spins d) fun i => .sym (lambdaSym i))))) 2).eval ι
          (override id η a) =
      (Expr.pow (Expr.abs (serialAligned d (ids.map (alignTerm ref (spins d)
        fun i => .sym (lambdaSym i))))) 2).eval ι (override id η a) := by
    intro a ha
    cases cl with
    | false => rfl
    | true =>
      simp only [if_true, Expr.eval]
      rw [show (serialAligned d (ids.map (alignTerm ref (spins d)
          fun i => .sym (lambdaSym i)))).cleanup.eval ι (override id η a) =
        (serialAligned d (ids.map (alignTerm ref (spins d)
          fun i => .sym (lambdaSym i)))).eval ι (override id η a) from
        Expr.eval_cleanup ι _ _ _ (inner_nodup d) (ranges_ne_of_combo ha)]
  rw [List.map_congr_left hcl]
  unfold outer
  rw [sum_combos hd]
  unfold intensityOver
  push_cast
  apply Finset.sum_congr rfl
  intro l _
  rw [Expr.eval, Expr.eval]
  rw [eval_serialAligned ι _ hd ref hids _ l]
  intro l'
  obtain ⟨p0, p1, p2, p3⟩ := look_asg (s := lambdaSym) (fun _ _ h => lambdaSym_inj h) l
  have e : ∀ i : ℤ, ∀ v, look (asg lambdaSym l) (lambdaSym i) = some v →
      (Hel.sym (lambdaSym i)).eval (override id (override id η (asg lambdaSym l))
        (asg lambdaPrime l')) = v := by
    intro i v hv
    rw [Hel.eval, override_id, override_id]
    simp only [look_asg_none (fun j => lambdaSym_ne_lambdaPrime i j), hv]
    rfl
  exact ⟨e 0 _ p0, e 1 _ p1, e 2 _ p2, e 3 _ p3⟩

/-- The amplitude symbols of the unfolded intensity. -/
theorem serialIntensity_indexeds {d : Decay} (hd : Standard d) (h0 : ∀ i : Fin 4, 0 ≤ d.spin i) {ref : ℤ}
    {ids : List ℤ} {cl : Bool} {x : Indexed}
    (hx : x ∈ ((serialIntensity d (ids.map (alignTerm ref (spins d)
      fun i => .sym (lambdaSym i))) cl).doit fun _ => none).indexeds) :
    ∃ k ∈ ids, ∃ l ∈ helicityTuples (spins d), x = ampKey k l := by
  rw [serialIntensity_eq] at hx
  have hx' : ∃ a ∈ combos (outer d), x ∈ ((Expr.pow (.abs (if cl then
      (serialAligned d (ids.map (alignTerm ref (spins d) fun i => .sym (lambdaSym i)))).cleanup else
      serialAligned d (ids.map (alignTerm ref (spins d) fun i => .sym (lambdaSym i))))) 2).doit
        fun u => (look a u).or none).indexeds := by
    cases cl with
    | true =>
      rw [if_pos rfl] at hx
      exact Expr.mem_indexeds_cleanup (outer_nodup d) (outer_ne hd h0) hx
    | false =>
      rw [if_neg (by simp)] at hx
      exact Expr.mem_indexeds_psum hx
  obtain ⟨a, ha, hx⟩ := hx'
  have hne := ranges_ne_of_combo ha
  simp only [Expr.doit, Expr.indexeds] at hx
  have hx' : ∃ a' ∈ combos (inner d), x ∈ ((Expr.addAll (ids.map
      (alignTerm ref (spins d) fun i => .sym (lambdaSym i)))).doit
        fun u => (look a' u).or ((look a u).or none)).indexeds := by
    cases cl with
    | true => rw [if_pos rfl] at hx; exact Expr.mem_indexeds_cleanup (inner_nodup _) hne hx
    | false => rw [if_neg (by simp)] at hx; exact Expr.mem_indexeds_psum hx
  obtain ⟨a', ha', hx⟩ := hx'
  rw [doit_addAll, Expr.mem_indexeds_addAll] at hx
  obtain ⟨e, he, hx⟩ := hx
  obtain ⟨e', he', rfl⟩ := List.mem_map.1 he
  obtain ⟨k, hk, rfl⟩ := List.mem_map.1 he'
  have hx := alignTerm_indexeds hx
  have hval : ∀ i ∈ ([0, 1, 2, 3] : List ℤ), ∃ v ∈ createSpinRange (spins d i),
      look a' (lambdaPrime i) = some v := fun i hi =>
    look_combos_mem ha' (inner_nodup _) (List.mem_map.2 ⟨i, hi, rfl⟩)
  choose! g hg1 hg2 using hval
  refine ⟨k, hk, (g 0, g 1, g 2, g 3), mem_helicityTuples' hg1, ?_⟩
  rw [hx]
  simp only [List.map_cons, List.map_nil, Hel.subst, hg2 0 (by simp), hg2 1 (by simp),
    hg2 2 (by simp), hg2 3 (by simp), Option.some_or]
  rfl

theorem intensityOver_congr {ι : Interp} {d : Decay} {S : Finset ℤ} {ref : ℤ} {A B : ℤ → (Fin 4 → ℚ) → ℂ}
    (h : ∀ k ∈ S, ∀ l ∈ helicities d, A k l = B k l) :
    intensityOver ι d S ref A = intensityOver ι d S ref B := by
  unfold intensityOver alignedOver
  apply Finset.sum_congr rfl
  intro l _
  congr 2
  apply Finset.sum_congr rfl
  intro l' hl'
  apply Finset.sum_congr rfl
  intro k hk
  rw [h k hk l' hl']

theorem intensityOver_interp {ι ι' : Interp} (h1 : ι'.sym = ι.sym) (h2 : ι'.wig = ι.wig) (d : Decay)
    (S : Finset ℤ) (ref : ℤ) (A : ℤ → (Fin 4 → ℚ) → ℂ) :
    intensityOver ι' d S ref A = intensityOver ι d S ref A := by
  unfold intensityOver alignedOver rotation
  rw [h1, h2]

/-! ### The subsystems -/

theorem existing_mem {D : Distribution} (hD : ∃ rest, m.distributions = D :: rest) {ids : List ℤ}
    (h : getExistingSubsystemIds m = .ok ids) :
    ids.Nodup ∧ (∀ k, k ∈ ids ↔ ∃ c ∈ D.chains, IsSpectator c.topology k) ∧
      ∀ c ∈ D.chains, ∃ k, IsSpectator c.topology k := by
  obtain ⟨rest, hr⟩ := hD
  obtain ⟨w, hw⟩ := distribution_head hr
  unfold getExistingSubsystemIds at h
  rw [hw] at h
  simp only [bind_ok] at h
  obtain ⟨_, hx, ks, hks, h⟩ := h
  cases hx
  injection h with h
  subst h
  have hf := (mapM_ok_iff _ _ _).1 hks
  refine ⟨sortedSet_nodup _, fun k => ?_, fun c hc => ?_⟩
  · rw [sortedSet_mem]
    constructor
    · intro hk
      obtain ⟨c, hc, hck⟩ := Qrules.forall₂_mem_right hf hk
      exact ⟨c, hc, ((C52_spectator _).1 k).1 hck⟩
    · rintro ⟨c, hc, hck⟩
      obtain ⟨k', hk', hck'⟩ := Qrules.forall₂_mem_left hf hc
      have := ((C52_spectator _).1 k').1 hck'
      rwa [← this.2 k hck.1] at hk'
  · obtain ⟨k', -, hck'⟩ := Qrules.forall₂_mem_left hf hc
    exact ⟨k', ((C52_spectator _).1 k').1 hck'⟩

end Verif.Serialization
