import Verif.Props.Builder
import Verif.Spec.Amplitude
import Mathlib.Tactic.Ring
import Mathlib.Tactic.LinearCombination

/-! Values of the expressions of the amplitude builder. -/
namespace Verif.ThreeBody
open Verif Verif.Spec Verif.Spin

theorem mem_projections {j : ℚ} (hj : IsHalfInteger j) (m : ℚ) :
    m ∈ projections j ↔ Projection j m := by
  obtain ⟨n, rfl⟩ := hj
  have h2 : ⌊2 * ((n : ℚ) / 2)⌋ = n := by
    rw [show (2 * ((n : ℚ) / 2)) = ((n : ℤ) : ℚ) by ring, Int.floor_intCast]
  unfold projections Projection IsInteger
  simp only [Finset.mem_image, Finset.mem_range, h2]
  constructor
  · rintro ⟨a, ha, rfl⟩
    have ha' : (a : ℤ) ≤ n := by omega
    have : (a : ℚ) ≤ n := by exact_mod_cast ha'
    refine ⟨by linarith [show (0:ℚ) ≤ a by positivity], by linarith, n - a, by push_cast; ring⟩
  · rintro ⟨h1, h3, z, hz⟩
    have hm : m = n / 2 - z := by linarith
    have h4 : 0 ≤ n - z := by
      have : (0:ℚ) ≤ ((n - z : ℤ) : ℚ) := by push_cast; linarith
      exact_mod_cast this
    have h5 : 0 ≤ z := by
      have : (0:ℚ) ≤ (z : ℚ) := by linarith
      exact_mod_cast this
    refine ⟨(n - z).toNat, by omega, ?_⟩
    have : (((n - z).toNat : ℕ) : ℚ) = ((n - z : ℤ) : ℚ) := by
      exact_mod_cast Int.toNat_of_nonneg h4
    rw [this, hm]; push_cast; ring

theorem sum_spinRange {M : Type} [AddCommMonoid M] {j : ℚ} (hj : IsHalfInteger j) (f : ℚ → M) :
    ((createSpinRange j).map f).sum = ∑ m ∈ projections j, f m := by
  have h : projections j = (createSpinRange j).toFinset := by
    ext m
    rw [mem_projections hj, List.mem_toFinset, mem_spinRange hj]
  rw [h, List.sum_toFinset _ (spinRange_nodup j)]

/-- Four nested sums are a sum over tuples. -/
theorem sum_four {M : Type} [AddCommMonoid M] (s : Fin 4 → Finset ℚ) (f : (Fin 4 → ℚ) → M) :
    ∑ a ∈ s 0, ∑ b ∈ s 1, ∑ c ∈ s 2, ∑ d ∈ s 3, f ![a, b, c, d] =
      ∑ l ∈ Fintype.piFinset s, f l := by
  simp only [← Finset.sum_product']
  apply Finset.sum_nbij' (i := fun x : ℚ × ℚ × ℚ × ℚ => ![x.1, x.2.1, x.2.2.1, x.2.2.2])
    (j := fun l => (l 0, l 1, l 2, l 3))
  · intro x hx
    simp only [Finset.mem_product] at hx
    rw [Fintype.mem_piFinset]
    intro i
    fin_cases i <;> simp [hx]
  · intro l hl
    rw [Fintype.mem_piFinset] at hl
    simp [hl]
  · intro x _; simp
  · intro l _
    funext i
    fin_cases i <;> rfl
  · intro x _; rfl

/-- The assignment of four indices. -/
def asg (s : ℤ → Sym) (l : Fin 4 → ℚ) : List (Sym × ℚ) :=
  [(s 0, l 0), (s 1, l 1), (s 2, l 2), (s 3, l 3)]

theorem spins_half {d : Decay} (hd : Standard d) (i : Fin 4) : IsHalfInteger (d.spin i) := by
  have : ((i : ℕ) : ℤ) ∈ ([0, 1, 2, 3] : List ℤ) := by fin_cases i <;> simp
  exact Standard.half hd this

theorem sum_flatMap {α M : Type} [AddCommMonoid M] (l : List α) (g : α → List M) :
    (l.flatMap g).sum = (l.map fun a => (g a).sum).sum := by
  induction l with
  | nil => rfl
  | cons a t ih => simp [List.flatMap_cons, ih]

theorem sum_combos {M : Type} [AddCommMonoid M] {d : Decay} (hd : Standard d) (s : ℤ → Sym)
    (F : List (Sym × ℚ) → M) :
    ((combos ([0, 1, 2, 3].map fun i => (s i, createSpinRange (spins d i)))).map F).sum =
      ∑ l ∈ helicities d, F (asg s l) := by
  have h0 := spins_half hd 0
  have h1 := spins_half hd 1
  have h2 := spins_half hd 2
  have h3 := spins_half hd 3
  unfold helicities
  rw [← sum_four]
  simp only [List.map_cons, List.map_nil, combos, List.map_flatMap, sum_flatMap,
    List.sum_singleton]
  change ((createSpinRange (d.spin 0)).map fun a => ((createSpinRange (d.spin 1)).map fun b' =>
    ((createSpinRange (d.spin 2)).map fun c => ((createSpinRange (d.spin 3)).map fun e =>
      F [(s 0, a), (s 1, b'), (s 2, c), (s 3, e)]).sum).sum).sum).sum =
    ∑ a ∈ projections (d.spin 0), ∑ b ∈ projections (d.spin 1), ∑ c ∈ projections (d.spin 2),
      ∑ e ∈ projections (d.spin 3), F [(s 0, a), (s 1, b), (s 2, c), (s 3, e)]
  simp only [sum_spinRange (show IsHalfInteger (d.spin 0) from h0),
    sum_spinRange (show IsHalfInteger (d.spin 1) from h1),
    sum_spinRange (show IsHalfInteger (d.spin 2) from h2),
    sum_spinRange (show IsHalfInteger (d.spin 3) from h3)]

theorem look_asg {s : ℤ → Sym} (hs : Function.Injective s) (l : Fin 4 → ℚ) :
    look (asg s l) (s 0) = some (l 0) ∧ look (asg s l) (s 1) = some (l 1) ∧
    look (asg s l) (s 2) = some (l 2) ∧ look (asg s l) (s 3) = some (l 3) := by
  unfold asg
  simp only [look_cons]
  refine ⟨by simp, ?_, ?_, ?_⟩
  · rw [if_neg (fun h => absurd (hs h) (by decide)), if_pos trivial]
  · rw [if_neg (fun h => absurd (hs h) (by decide)), if_neg (fun h => absurd (hs h) (by decide)),
      if_pos trivial]
  · rw [if_neg (fun h => absurd (hs h) (by decide)), if_neg (fun h => absurd (hs h) (by decide)),
      if_neg (fun h => absurd (hs h) (by decide)), if_pos trivial]

/-! ### One chain -/

theorem isobarFirst_iff {c : Chain} : isobarFirst c.decay = true ↔ ResonanceFirst c := by
  unfold ResonanceFirst
  constructor
  · intro h
    cases hd : c.decay with
    | leaf o => rw [hd] at h; cases h
    | isobar p a b x =>
      cases a with
      | leaf o => rw [hd] at h; cases h
      | isobar r a1 a2 x' => exact ⟨_, _, _, _, _, _, _, rfl⟩
  · rintro ⟨p, r, a1, a2, x, n, y, h⟩
    rw [h]; rfl

theorem eval_cgExpr (ι : Interp) (η : Sym → ℚ) (J s1 s2 : ℚ) (ls : LS) (h1 h2 : Hel) :
    (cgExpr J s1 s2 ls h1 h2).eval ι η = lsFactor ι J s1 s2 ls (h1.eval η) (h2.eval η) := by
  simp [cgExpr, lsFactor, Expr.eval, Hel.eval]

theorem map_couplingOf (η : Sym → ℚ) (hel : Bool) (R : String) (h1 h2 : Hel) (ls : Option LS) (typ : String)
    (h : hel = false → ls ≠ none) :
    (couplingOf hel R h1 h2 ls typ).ix.map (Hel.eval η) =
      couplingIndices hel ls (h1.eval η) (h2.eval η) ∧
    (couplingOf hel R h1 h2 ls typ).base = couplingName hel typ ∧
    (couplingOf hel R h1 h2 ls typ).res = some R := by
  cases hel with
  | true => exact ⟨rfl, rfl, rfl⟩
  | false =>
    cases ls with
    | none => exact absurd rfl (h rfl)
    | some x => exact ⟨rfl, rfl, rfl⟩

theorem coefficientBase_eq (R : String) (p q : Bool) :
    coefficientBase R p q = coefficientName R p q := by
  cases p <;> cases q <;> rfl

theorem eval_scaling (ι : Interp) (η : Sym → ℚ) {b : Builder} {c : Chain} (h : HasLS b c)
    (lR lk li lj : Hel) (uc : Bool) :
    (scalingOf b c lR lk li lj uc).product.eval ι η =
      couplings ι b c uc (lR.eval η) (lk.eval η) (li.eval η) (lj.eval η) := by
  obtain ⟨p1, p2, p3⟩ := map_couplingOf η b.useProdHel c.resonance.toP.latex lR lk c.incomingLs
    "production" h.1
  obtain ⟨q1, q2, q3⟩ := map_couplingOf η b.useDecHel c.resonance.toP.latex li lj c.outgoingLs
    "decay" h.2
  unfold scalingOf couplings
  cases uc with
  | true =>
    simp only [if_true, Scaling.product, Expr.eval, List.map_append, p1, q1, coefficientBase_eq]
  | false =>
    simp only [Bool.false_eq_true, if_false, Scaling.product, Expr.eval, p1, p2, p3, q1, q2, q3]

theorem eval_decCG (ι : Interp) (η : Sym → ℚ) {b : Builder} {c : Chain} (h : HasLS b c)
    (lam : ℤ → ℚ) (e : Expr) :
    (if b.useDecHel then e else e * decCG c lam).eval ι η = e.eval ι η * decayFactor ι b c lam := by
  unfold decayFactor
  cases hb : b.useDecHel with
  | true => simp
  | false =>
    cases hl : c.outgoingLs with
    | none => exact absurd hl (h.2 hb)
    | some ls =>
      simp only [Bool.false_eq_true, if_false, mul_def, Expr.eval, decCG, eval_cgExpr, hl,
        Option.getD, Hel.eval]

theorem eval_prodCG (ι : Interp) (η : Sym → ℚ) {b : Builder} {c : Chain} (h : HasLS b c)
    (hres : b.useProdHel = false → c.resonance ≠ .state c.spectator)
    (lam : ℤ → ℚ) (k : ℤ) (e : Expr) :
    (if b.useProdHel then e else e * prodCG c lam k).eval ι η =
      e.eval ι η * productionFactor ι b c (η lambdaR) (lam k) := by
  unfold productionFactor
  cases hb : b.useProdHel with
  | true => simp
  | false =>
    cases hl : c.incomingLs with
    | none => exact absurd hl (h.1 hb)
    | some ls =>
      simp only [Bool.false_eq_true, if_false, mul_def, Expr.eval, prodCG, hl, Option.getD,
        resHel, if_neg (hres hb)]
      by_cases hf : ResonanceFirst c
      · rw [if_pos hf, if_pos (isobarFirst_iff.2 hf), eval_cgExpr]; rfl
      · rw [if_neg hf, if_neg (fun h => hf (isobarFirst_iff.1 h)), eval_cgExpr]; rfl

theorem sum_ite_unique {S : Finset ℚ} (x : ℚ) (f : ℚ → ℂ) :
    ∑ y ∈ S, (if y = x then f y else 0) = if x ∈ S then f x else 0 := by
  rw [Finset.sum_ite_eq' S x f]

theorem eval_ampTerm (ι : Interp) (η : Sym → ℚ) {b : Builder} (hd : Standard b.decay)
    {dyn : Chain → DefExpr} {c : Chain} (hc : c ∈ b.decay.chains) (h : HasLS b c)
    (hres : b.useProdHel = false → c.resonance ≠ .state c.spectator)
    (hfree : HelicityFree (dyn c).expression)
    {k : ℤ} (hk : k ∈ ([1, 2, 3] : List ℤ)) (l : ℚ × ℚ × ℚ × ℚ) (uc : Bool) :
    (ampTerm b dyn uc k l c).eval ι η =
      chainValue ι b uc (fun c => (dyn c).expression.eval ι η) (prodIds k).1 (prodIds k).2 k
        (lamOf l) c := by
  unfold ampTerm chainValue
  rw [Expr.eval]
  have hcomb : combos [(lambdaR, createSpinRange c.resonance.toP.spin)] =
      (createSpinRange c.resonance.toP.spin).map fun v => [(lambdaR, v)] := by
    simp only [combos, List.map_cons, List.map_nil]
    rw [List.flatMap_def]
    induction createSpinRange c.resonance.toP.spin with
    | nil => rfl
    | cons a t ih => simp [ih]
  rw [hcomb, List.map_map]
  have hR := hd.resonances c hc
  have key : ∀ v : ℚ, (termBody b c (dyn c).expression (lamOf l) (spins b.decay) (prodIds k).1
      (prodIds k).2 k (thetaSym (prodIds k).1 (prodIds k).2) uc).eval ι
        (override id η [(lambdaR, v)]) =
      if v = lamOf l 0 + lamOf l k then
        minusOnePow (b.decay.spin k - lamOf l k) *
          minusOnePow (b.decay.spin (prodIds k).2 - lamOf l (prodIds k).2) *
          (dyn c).expression.eval ι η *
        ι.wig c.resonance.toP.spin v (lamOf l (prodIds k).1 - lamOf l (prodIds k).2)
          (ι.sym ⟨"theta_" ++ toString (prodIds k).1 ++ toString (prodIds k).2, .real⟩) *
        couplings ι b c uc v (lamOf l k) (lamOf l (prodIds k).1) (lamOf l (prodIds k).2) *
        decayFactor ι b c (lamOf l) * productionFactor ι b c v (lamOf l k) else 0 := by
    intro v
    have hv : override id η [(lambdaR, v)] lambdaR = v := by
      rw [override_id]; simp [look_cons]
    unfold termBody
    simp only
    rw [eval_prodCG ι _ h hres, eval_decCG ι _ h, hv]
    unfold subAmpExpr
    simp only [Expr.eval, eval_scaling ι _ h, Hel.eval, hv]
    rw [hfree ι (override id η [(lambdaR, v)]) η]
    rw [spins_eq _ (Angles.mem0 hk), spins_eq _ (Angles.mem0 (by
      simp only [List.mem_cons, List.not_mem_nil, or_false] at hk
      rcases hk with rfl | rfl | rfl <;> decide))]
    by_cases hx : lamOf l 0 = v - lamOf l k
    · rw [if_pos hx, if_pos (by linarith)]
      unfold minusOnePow thetaSym
      ring
    · rw [if_neg hx, if_neg (fun h => hx (by linarith))]
      ring
  have : ((createSpinRange c.resonance.toP.spin).map ((fun a =>
      (termBody b c (dyn c).expression (lamOf l) (spins b.decay) (prodIds k).1 (prodIds k).2 k
        (thetaSym (prodIds k).1 (prodIds k).2) uc).eval ι (override id η a)) ∘
        fun v => [(lambdaR, v)])).sum = ((createSpinRange c.resonance.toP.spin).map fun v =>
      if v = lamOf l 0 + lamOf l k then
        minusOnePow (b.decay.spin k - lamOf l k) *
          minusOnePow (b.decay.spin (prodIds k).2 - lamOf l (prodIds k).2) *
          (dyn c).expression.eval ι η *
        ι.wig c.resonance.toP.spin v (lamOf l (prodIds k).1 - lamOf l (prodIds k).2)
          (ι.sym ⟨"theta_" ++ toString (prodIds k).1 ++ toString (prodIds k).2, .real⟩) *
        couplings ι b c uc v (lamOf l k) (lamOf l (prodIds k).1) (lamOf l (prodIds k).2) *
        decayFactor ι b c (lamOf l) * productionFactor ι b c v (lamOf l k) else 0).sum := by
    congr 1
    apply List.map_congr_left
    intro v _
    exact key v
  rw [this, sum_spinRange hR, sum_ite_unique]
  by_cases hp : Projection c.resonance.toP.spin (lamOf l 0 + lamOf l k)
  · rw [if_pos hp, if_pos ((mem_projections hR _).2 hp)]
  · rw [if_neg hp, if_neg (fun h => hp ((mem_projections hR _).1 h))]

/-! ### The aligned amplitude -/

theorem eval_wigFactor (ι : Interp) (η : Sym → ℚ) (d : Decay) (ref k : ℤ) (i : Fin 4) (m mp : Hel) :
    (wigFactor ref (spins d i) m mp i k).eval ι η =
      rotation ι d ref k i (m.eval η) (mp.eval η) := by
  have hi : ((i : ℕ) : ℤ) ∈ ([0, 1, 2, 3] : List ℤ) := by fin_cases i <;> simp
  unfold wigFactor rotation
  rw [spins_eq d hi]
  split
  · simp [Expr.eval]
  · simp only [Expr.eval]; rfl

theorem sum_subsystemIds {M : Type} [AddCommMonoid M] (d : Decay) (f : ℤ → M) :
    (d.subsystemIds.map f).sum = ∑ k ∈ subsystems d, f k := by
  have h : subsystems d = d.subsystemIds.toFinset := by
    ext k
    unfold subsystems Decay.subsystemIds
    simp [sortedSet_mem]
  rw [h, List.sum_toFinset _ (by unfold Decay.subsystemIds; exact sortedSet_nodup _)]

theorem eval_alignedExpr (ι : Interp) (η : Sym → ℚ) {b : Builder} (hd : Standard b.decay) (ref : ℤ)
    (h : ℤ → Hel) (l : Fin 4 → ℚ)
    (hh : ∀ l', (h 0).eval (override id η (asg lambdaPrime l')) = l 0 ∧
      (h 1).eval (override id η (asg lambdaPrime l')) = l 1 ∧
      (h 2).eval (override id η (asg lambdaPrime l')) = l 2 ∧
      (h 3).eval (override id η (asg lambdaPrime l')) = l 3) :
    (alignedExpr b ref h).eval ι η = aligned ι b.decay ref (symbolValue ι) l := by
  unfold alignedExpr aligned
  rw [Expr.eval, sum_combos hd]
  apply Finset.sum_congr rfl
  intro l' _
  rw [Expr.eval_addAll, List.map_map, sum_subsystemIds]
  apply Finset.sum_congr rfl
  intro k _
  obtain ⟨p0, p1, p2, p3⟩ := look_asg (s := lambdaPrime) (fun _ _ h => lambdaPrime_inj h) l'
  obtain ⟨h0, h1, h2, h3⟩ := hh l'
  have e : ∀ i : ℤ, ∀ v, look (asg lambdaPrime l') (lambdaPrime i) = some v →
      (Hel.sym (lambdaPrime i)).eval (override id η (asg lambdaPrime l')) = v := by
    intro i v hv
    rw [Hel.eval, override_id]; simp only [hv]; rfl
  have w0 : (wigFactor ref (spins b.decay 0) (h 0) (.sym (lambdaPrime 0)) 0 k).eval ι
      (override id η (asg lambdaPrime l')) = rotation ι b.decay ref k 0 (l 0) (l' 0) := by
    rw [← h0, ← e 0 _ p0]
    exact eval_wigFactor ι (override id η (asg lambdaPrime l')) b.decay ref k 0 _ _
  have w1 : (wigFactor ref (spins b.decay 1) (.sym (lambdaPrime 1)) (h 1) 1 k).eval ι
      (override id η (asg lambdaPrime l')) = rotation ι b.decay ref k 1 (l' 1) (l 1) := by
    rw [← h1, ← e 1 _ p1]
    exact eval_wigFactor ι (override id η (asg lambdaPrime l')) b.decay ref k 1 _ _
  have w2 : (wigFactor ref (spins b.decay 2) (.sym (lambdaPrime 2)) (h 2) 2 k).eval ι
      (override id η (asg lambdaPrime l')) = rotation ι b.decay ref k 2 (l' 2) (l 2) := by
    rw [← h2, ← e 2 _ p2]
    exact eval_wigFactor ι (override id η (asg lambdaPrime l')) b.decay ref k 2 _ _
  have w3 : (wigFactor ref (spins b.decay 3) (.sym (lambdaPrime 3)) (h 3) 3 k).eval ι
      (override id η (asg lambdaPrime l')) = rotation ι b.decay ref k 3 (l' 3) (l 3) := by
    rw [← h3, ← e 3 _ p3]
    exact eval_wigFactor ι (override id η (asg lambdaPrime l')) b.decay ref k 3 _ _
  simp only [Function.comp, alignTerm, Expr.eval, w0, w1, w2, w3]
  unfold symbolValue ampSym
  simp only [List.map_cons, List.map_nil, e 0 _ p0, e 1 _ p1, e 2 _ p2, e 3 _ p3]

theorem lambdaSym_ne_lambdaPrime (i j : ℤ) : lambdaPrime j ≠ lambdaSym i := by
  intro h
  have := congrArg (fun s : Sym => s.name.toList.head?) h
  simp [lambdaSym, lambdaPrime, String.toList_append] at this

theorem look_asg_none {s : ℤ → Sym} {u : Sym} (h : ∀ i, s i ≠ u) (l : Fin 4 → ℚ) :
    look (asg s l) u = none := by
  unfold asg
  simp only [look_cons, if_neg (h 0), if_neg (h 1), if_neg (h 2), if_neg (h 3)]
  rfl

/-- Value of the intensity of the formulated model. -/
theorem eval_intensity (ι : Interp) (η : Sym → ℚ) {b : Builder} (hd : Standard b.decay)
    (dyn : Chain → DefExpr) (ref : ℤ) (cl uc : Bool) (P : PyDict Key Val) :
    (result b dyn ref cl uc P).intensity.eval ι η =
      (intensity ι b.decay ref (symbolValue ι) : ℂ) := by
  rw [intensity_eq, Expr.eval]
  have hcl : ∀ a ∈ combos (outer b.decay), (Expr.pow (Expr.abs
      (if cl then (alignedExpr b ref fun i => .sym (lambdaSym i)).cleanup
        else alignedExpr b ref fun i => .sym (lambdaSym i))) 2).eval ι (override id η a) =
      (Expr.pow (Expr.abs (alignedExpr b ref fun i => .sym (lambdaSym i))) 2).eval ι
        (override id η a) := by
    intro a ha
    cases cl with
    | false => rfl
    | true =>
      simp only [if_true, Expr.eval]
      rw [show (alignedExpr b ref fun i => .sym (lambdaSym i)).cleanup.eval ι (override id η a) =
        (alignedExpr b ref fun i => .sym (lambdaSym i)).eval ι (override id η a) from
        Expr.eval_cleanup ι _ _ _ (inner_nodup b.decay) (ranges_ne_of_combo ha)]
  rw [List.map_congr_left hcl]
  unfold outer
  rw [sum_combos hd]
  unfold Spec.intensity
  push_cast
  apply Finset.sum_congr rfl
  intro l _
  rw [Expr.eval, Expr.eval]
  rw [eval_alignedExpr ι _ hd ref _ l]
  intro l'
  obtain ⟨p0, p1, p2, p3⟩ := look_asg (s := lambdaSym) (fun _ _ h => lambdaSym_inj h) l
  have e : ∀ i : ℤ, ∀ v, look (asg lambdaSym l) (lambdaSym i) = some v →
      (Hel.sym (lambdaSym i)).eval (override id (override id η (asg lambdaSym l))
        (asg lambdaPrime l')) = v := by
    intro i v hv
    rw [Hel.eval, override_id, override_id]
    simp only [look_asg_none (fun j => lambdaSym_ne_lambdaPrime i j), hv]
    rfl
  exact ⟨e 0 _ p0, e 1 _ p1, e 2 _ p2, e 3 _ p3⟩

theorem intensity_congr {ι : Interp} {d : Decay} {ref : ℤ} {A B : ℤ → (Fin 4 → ℚ) → ℂ}
    (h : ∀ k ∈ subsystems d, ∀ l ∈ helicities d, A k l = B k l) :
    Spec.intensity ι d ref A = Spec.intensity ι d ref B := by
  unfold Spec.intensity aligned
  apply Finset.sum_congr rfl
  intro l _
  congr 2
  apply Finset.sum_congr rfl
  intro l' hl'
  apply Finset.sum_congr rfl
  intro k hk
  rw [h k hk l' hl']

theorem mem_helicities {d : Decay} (hd : Standard d) (l : Fin 4 → ℚ) :
    l ∈ helicities d ↔ ∀ i : Fin 4, Projection (d.spin i) (l i) := by
  unfold helicities
  rw [Fintype.mem_piFinset]
  exact forall_congr' fun i => mem_projections (spins_half hd i) _

theorem helicities_tuple {d : Decay} (hd : Standard d) {l : Fin 4 → ℚ} (h : l ∈ helicities d) :
    (l 0, l 1, l 2, l 3) ∈ helicityTuples (spins d) := by
  rw [mem_helicityTuples hd]
  rw [mem_helicities hd] at h
  intro i hi
  simp only [List.mem_cons, List.not_mem_nil, or_false] at hi
  rcases hi with rfl | rfl | rfl | rfl
  · exact h 0
  · exact h 1
  · exact h 2
  · exact h 3

theorem mem_subsystems (d : Decay) (k : ℤ) : k ∈ subsystems d ↔ k ∈ d.subsystemIds := by
  unfold subsystems Decay.subsystemIds
  simp [sortedSet_mem]

theorem intensity_interp {ι ι' : Interp} (h1 : ι'.sym = ι.sym) (h2 : ι'.wig = ι.wig) (d : Decay)
    (ref : ℤ) (A : ℤ → (Fin 4 → ℚ) → ℂ) :
    Spec.intensity ι' d ref A = Spec.intensity ι d ref A := by
  unfold Spec.intensity aligned rotation
  rw [h1, h2]

/-- Value of the full expression. -/
theorem eval_full (ι : Interp) (η : Sym → ℚ) {b : Builder} (hd : Standard b.decay)
    (dyn : Chain → DefExpr) (ref : ℤ) (cl uc : Bool) (P : PyDict Key Val) :
    (result b dyn ref cl uc P).fullExpression.eval ι η =
      (Spec.intensity ι b.decay ref (definedValue (result b dyn ref cl uc P) ι η) : ℂ) := by
  unfold AmplitudeModel.fullExpression
  rw [Expr.eval_xreplace _ _ _ _ (Expr.flat_doit _ _), Expr.eval_doit]
  · have hval : ∀ k ∈ subsystems b.decay, ∀ l ∈ helicities b.decay,
        symbolValue (ι.withDefs η ((result b dyn ref cl uc P).amplitudes.map
          fun kv => (kv.1, kv.2.doit fun _ => none))) k l =
        definedValue (result b dyn ref cl uc P) ι η k l := by
      intro k hk l hl
      have hg : PyDict.get? (result b dyn ref cl uc P).amplitudes (amplitudeSymbol k l) = _ :=
        amp_get? (dyn := dyn) (cl := cl) (uc := uc) ref P
        (subsystemIds_subset hd ((mem_subsystems _ _).1 hk)) (helicities_tuple hd hl)
      unfold symbolValue definedValue
      rw [hg]
      simp only [Interp.withDefs]
      rw [show (⟨"A^" ++ toString k, none, [l 0, l 1, l 2, l 3].map .num⟩ : Indexed) =
        amplitudeSymbol k l from rfl, get?_map_snd, hg]
      simp only [Option.map]
      rw [Expr.eval_doit]; rfl
    generalize hι : ι.withDefs η ((result b dyn ref cl uc P).amplitudes.map
      fun kv => (kv.1, kv.2.doit fun _ => none)) = ι' at hval
    have h1 : ι'.sym = ι.sym := by rw [← hι]; rfl
    have h2 : ι'.wig = ι.wig := by rw [← hι]; rfl
    have h3 : (fun u => ((fun _ : Sym => (none : Option ℚ)) u).getD (η u)) = η := rfl
    rw [h3, eval_intensity ι' η hd, intensity_interp h1 h2, intensity_congr hval]
  · intro x hx
    obtain ⟨k, -, l, -, rfl⟩ := intensity_indexeds hx
    exact ⟨[l.1, l.2.1, l.2.2.1, l.2.2.2], rfl⟩

end Verif.ThreeBody
