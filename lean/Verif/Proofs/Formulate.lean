import Verif.Proofs.Builder

/-! Closed form of `formulate`. -/
namespace Verif.ThreeBody
open Verif Verif.Spec Verif.Spin Verif.Angles

theorem get?_update_ofItems {κ ν : Type} [DecidableEq κ] (d e : PyDict κ ν) (k : κ) :
    PyDict.get? (PyDict.update d (PyDict.ofItems e)) k = PyDict.get? (PyDict.update d e) k := by
  rw [PyDict.get?_update, PyDict.get?_update]
  have : PyDict.get? (PyDict.ofItems e).reverse k = PyDict.get? e.reverse k := by
    rw [← PyDict.get?_ofItems e]
    cases h : PyDict.get? (PyDict.ofItems e) k with
    | none =>
      rw [PyDict.get?_eq_none] at h ⊢
      simpa [PyDict.keys] using h
    | some v =>
      have := PyDict.mem_of_get? h
      refine PyDict.get?_of_mem ?_ (List.mem_reverse.2 this)
      have := PyDict.nodup_ofItems e
      rw [PyDict.keys, List.map_reverse, List.nodup_reverse]
      exact this
  rw [this]

theorem get?_update_congr {κ ν : Type} [DecidableEq κ] {d d' : PyDict κ ν} (e : PyDict κ ν)
    (h : ∀ k, PyDict.get? d k = PyDict.get? d' k) (k : κ) :
    PyDict.get? (PyDict.update d e) k = PyDict.get? (PyDict.update d' e) k := by
  rw [PyDict.get?_update, PyDict.get?_update, h]

/-- The pairs of the double loop are admissible. -/
def PairsOk (ps : List ((ℚ × ℚ × ℚ × ℚ) × ℤ)) : Prop := ∀ x ∈ ps, x.2 ∈ ([1, 2, 3] : List ℤ)

theorem subsystemLoop_ok {b : Builder} (hd : Standard b.decay) {dyn : Chain → DefExpr}
    (hdyn : Lineshapes b dyn) (uc : Bool) (ps : List ((ℚ × ℚ × ℚ × ℚ) × ℤ)) (hps : PairsOk ps)
    (h : ∀ x ∈ ps, ∀ c ∈ chainsOf b.decay x.2, HasLS b c) (acc : Acc) :
    ∃ P, subsystemLoop b uc ps acc = .ok
      ⟨acc.amplitudes.update (ps.map fun x => (ampKey x.2 x.1, ampExpr b dyn uc x.2 x.1)),
       acc.angleDefs.update (ps.map fun x =>
        (thetaSym (prodIds x.2).1 (prodIds x.2).2, thetaExpr x.2)), P⟩ ∧
      ∀ k, PyDict.get? P k = PyDict.get?
        (acc.parameters.update (ps.flatMap fun x => ampItems b dyn uc x.2 x.1)) k := by
  induction ps generalizing acc with
  | nil => exact ⟨acc.parameters, rfl, fun _ => rfl⟩
  | cons x t ih =>
    obtain ⟨l, k⟩ := x
    unfold subsystemLoop
    rw [(subsystemAmplitude_eq hd hdyn (hps (l, k) (by simp)) l uc).1 (h (l, k) (by simp))]
    simp only [bind, Except.bind]
    obtain ⟨P, hP, hP'⟩ := ih (fun x hx => hps x (by simp [hx])) (fun x hx => h x (by simp [hx]))
      ⟨acc.amplitudes.update [(ampKey k l, ampExpr b dyn uc k l)],
        acc.angleDefs.update [(thetaSym (prodIds k).1 (prodIds k).2, thetaExpr k)],
        acc.parameters.update (PyDict.ofItems (ampItems b dyn uc k l))⟩
    refine ⟨P, ?_, ?_⟩
    · rw [hP]; rfl
    · intro q
      rw [hP' q, List.flatMap_cons, update_append]
      exact get?_update_congr _ (fun k' => get?_update_ofItems _ _ k') q

theorem subsystemLoop_err {b : Builder} (hd : Standard b.decay) {dyn : Chain → DefExpr}
    (hdyn : Lineshapes b dyn) (uc : Bool) (ps : List ((ℚ × ℚ × ℚ × ℚ) × ℤ)) (hps : PairsOk ps)
    (h : ¬ ∀ x ∈ ps, ∀ c ∈ chainsOf b.decay x.2, HasLS b c) (acc : Acc) :
    subsystemLoop b uc ps acc = .error .valueError := by
  induction ps generalizing acc with
  | nil => exact absurd (by simp) h
  | cons x t ih =>
    obtain ⟨l, k⟩ := x
    obtain ⟨s1, s2⟩ := subsystemAmplitude_eq hd hdyn (hps (l, k) (by simp)) l uc
    unfold subsystemLoop
    by_cases hx : ∀ c ∈ chainsOf b.decay k, HasLS b c
    · rw [s1 hx]
      simp only [bind, Except.bind]
      apply ih (fun x hx => hps x (by simp [hx]))
      intro h'
      apply h
      intro y hy
      rcases List.mem_cons.1 hy with rfl | hy
      · exact hx
      · exact h' y hy
    · rw [s2 hx]; rfl

/-! ### Alignment -/

/-- The alignment angle symbol. -/
def zetaSym (i j k : ℤ) : Sym :=
  ⟨"\\zeta^" ++ toString i ++ "_{" ++ toString j ++ "(" ++ toString k ++ ")}", .real⟩

/-- The alignment angle expression. -/
def zetaExpr (i j k : ℤ) : RExpr :=
  match formulateZetaAngle i j k with
  | .ok r => r.2
  | .error _ => 0

theorem zeta_eq {i j k : ℤ} (hi : i ∈ ([0, 1, 2, 3] : List ℤ)) (hj : j ∈ ([1, 2, 3] : List ℤ))
    (hk : k ∈ ([1, 2, 3] : List ℤ)) :
    formulateZetaAngle i j k = .ok (zetaSym i j k, zetaExpr i j k) := by
  obtain ⟨e, he⟩ := (C13_zeta_total i j k).2.1 hi hj hk
  unfold zetaExpr
  rw [he]; rfl

/-- Alignment factor. -/
def wigFactor (ref : ℤ) (j : ℚ) (m mp : Hel) (i k : ℤ) : Expr :=
  if j = 0 then .num 1 else .wig j m mp (zetaSym i k ref)

/-- New angle definition of an alignment factor. -/
def wigItems (ref : ℤ) (j : ℚ) (i k : ℤ) : List (Sym × RExpr) :=
  if j = 0 then [] else [(zetaSym i k ref, zetaExpr i k ref)]

theorem alignmentWigner_eq {ref : ℤ} (hr : ref ∈ ([1, 2, 3] : List ℤ)) (defs : PyDict Sym RExpr)
    (j : ℚ) (m mp : Hel) {i k : ℤ} (hi : i ∈ ([0, 1, 2, 3] : List ℤ))
    (hk : k ∈ ([1, 2, 3] : List ℤ)) :
    alignmentWigner ref defs j m mp i k =
      .ok (defs.update (wigItems ref j i k), wigFactor ref j m mp i k) := by
  unfold alignmentWigner wigItems wigFactor
  by_cases h : j = 0
  · simp only [h, if_true]; rfl
  · simp only [h, if_false, zeta_eq hi hk hr]; rfl

/-- The term of subsystem `k` in the aligned amplitude. -/
def alignTerm (ref : ℤ) (j : ℤ → ℚ) (h : ℤ → Hel) (k : ℤ) : Expr :=
  let p := fun i => Hel.sym (lambdaPrime i)
  .mul (.mul (.mul (.mul (.idx (ampSym k (p 0) (p 1) (p 2) (p 3)))
    (wigFactor ref (j 0) (h 0) (p 0) 0 k)) (wigFactor ref (j 1) (p 1) (h 1) 1 k))
    (wigFactor ref (j 2) (p 2) (h 2) 2 k)) (wigFactor ref (j 3) (p 3) (h 3) 3 k)

/-- The angle definitions of subsystem `k`. -/
def alignItems (ref : ℤ) (j : ℤ → ℚ) (k : ℤ) : List (Sym × RExpr) :=
  ([0, 1, 2, 3] : List ℤ).flatMap fun i => wigItems ref (j i) i k

theorem alignedTerm_eq {ref : ℤ} (hr : ref ∈ ([1, 2, 3] : List ℤ)) (defs : PyDict Sym RExpr)
    (j : ℤ → ℚ) (h : ℤ → Hel) {k : ℤ} (hk : k ∈ ([1, 2, 3] : List ℤ)) :
    alignedTerm ref defs j h k = .ok (defs.update (alignItems ref j k), alignTerm ref j h k) := by
  unfold alignedTerm
  simp only [alignmentWigner_eq hr _ _ _ _ (by simp : (0:ℤ) ∈ ([0, 1, 2, 3] : List ℤ)) hk,
    alignmentWigner_eq hr _ _ _ _ (by simp : (1:ℤ) ∈ ([0, 1, 2, 3] : List ℤ)) hk,
    alignmentWigner_eq hr _ _ _ _ (by simp : (2:ℤ) ∈ ([0, 1, 2, 3] : List ℤ)) hk,
    alignmentWigner_eq hr _ _ _ _ (by simp : (3:ℤ) ∈ ([0, 1, 2, 3] : List ℤ)) hk,
    bind, Except.bind, pure, Except.pure]
  unfold alignItems alignTerm
  simp only [List.flatMap_cons, List.flatMap_nil, update_append]
  rfl

theorem alignedSum_eq {ref : ℤ} (hr : ref ∈ ([1, 2, 3] : List ℤ)) (j : ℤ → ℚ) (h : ℤ → Hel)
    (ks : List ℤ) (hks : ∀ k ∈ ks, k ∈ ([1, 2, 3] : List ℤ)) (defs : PyDict Sym RExpr) :
    alignedSum ref j h ks defs =
      .ok (defs.update (ks.flatMap (alignItems ref j)), ks.map (alignTerm ref j h)) := by
  induction ks generalizing defs with
  | nil => rfl
  | cons k t ih =>
    unfold alignedSum
    rw [alignedTerm_eq hr defs j h (hks k (by simp))]
    simp only [bind, Except.bind]
    rw [ih (fun k hk => hks k (by simp [hk]))]
    simp only [List.flatMap_cons, List.map_cons, update_append, pure, Except.pure]

theorem sortedSet_keys {d : Decay} (hd : Standard d) :
    sortedSet (PyDict.keys d.states) = [0, 1, 2, 3] := by
  have h1 := sortedSet_pairwise (PyDict.keys d.states)
  have h2 : (sortedSet (PyDict.keys d.states)).Perm [0, 1, 2, 3] := by
    rw [List.perm_ext_iff_of_nodup (sortedSet_nodup _) (by decide)]
    intro x
    rw [sortedSet_mem]
    exact hd.keys.mem_iff
  exact h2.eq_of_pairwise (le := (· < ·)) (by
    intro a b _ _ h h'
    exact absurd (lt_trans h h') (lt_irrefl _)) h1 (by decide)

theorem fourSpins_eq {d : Decay} (hd : Standard d) : fourSpins d = .ok (spins d) := by
  unfold fourSpins
  rw [sortedSet_keys hd, mapM_ok _ d.st _ (fun i hi => Standard.get hd hi)]
  rfl

/-- The aligned amplitude. -/
def alignedExpr (b : Builder) (ref : ℤ) (h : ℤ → Hel) : Expr :=
  .psum (Expr.addAll (b.decay.subsystemIds.map (alignTerm ref (spins b.decay) h)))
    ([0, 1, 2, 3].map fun i => (lambdaPrime i, createSpinRange (spins b.decay i)))

theorem alignedAmplitude_eq {b : Builder} (hd : Standard b.decay) {ref : ℤ}
    (hr : ref ∈ ([1, 2, 3] : List ℤ)) (h : ℤ → Hel) :
    b.alignedAmplitude h ref = .ok (alignedExpr b ref h,
      PyDict.ofItems (b.decay.subsystemIds.flatMap (alignItems ref (spins b.decay)))) := by
  unfold Builder.alignedAmplitude
  rw [fourSpins_eq hd]
  simp only [bind, Except.bind]
  rw [alignedSum_eq hr _ _ _ (fun k hk => Standard.subsystem hd hk)]
  rfl

/-! ### Masses and Mandelstam variables -/

/-- `m0`, ..., `m3`. -/
def massSym (i : ℤ) : Sym := ⟨"m" ++ toString i, .nonneg⟩

/-- The dictionary of masses. -/
def massDict (d : Decay) : PyDict Sym ℚ :=
  [(massSym 0, (d.st 0).mass), (massSym 1, (d.st 1).mass), (massSym 2, (d.st 2).mass),
    (massSym 3, (d.st 3).mass)]

theorem createMassSymbolMapping_eq {d : Decay} (hd : Standard d) :
    createMassSymbolMapping d = .ok (massDict d) := by
  unfold createMassSymbolMapping
  rw [sortedSet_keys hd, mapM_ok _ (fun i => (massSym i, (d.st i).mass)) _ (fun i hi => ?_)]
  · rfl
  · rw [Standard.get hd hi]
    simp only [bind, Except.bind, pure, Except.pure, createMassSymbol]
    rw [Standard.st_index hd hi]; rfl

/-- The third Mandelstam variable. -/
def thirdExpr (x y : ℤ) : RExpr := m 0 ^ 2 + m 1 ^ 2 + m 2 ^ 2 + m 3 ^ 2 - σ x - σ y

theorem formulateInvariants_eq {d : Decay} (hd : Standard d) :
    formulateInvariants d = .ok [(⟨"sigma1", .nonneg⟩, thirdExpr 2 3),
      (⟨"sigma2", .nonneg⟩, thirdExpr 3 1), (⟨"sigma3", .nonneg⟩, thirdExpr 1 2)] := by
  unfold formulateInvariants formulateThirdMandelstam
  simp only [createMassSymbolMapping_eq hd]
  rfl

/-! ### formulate -/

theorem Standard.subsystems {b : Builder} (hd : Standard b.decay) {k : ℤ} (hk : k ∈ b.subsystems) :
    k ∈ ([1, 2, 3] : List ℤ) := by
  unfold Builder.subsystems at hk
  split at hk
  · exact hk
  · exact Standard.subsystem hd hk

theorem subsystemIds_subset {b : Builder} (hd : Standard b.decay) {k : ℤ}
    (hk : k ∈ b.decay.subsystemIds) : k ∈ b.subsystems := by
  unfold Builder.subsystems
  split
  · exact Standard.subsystem hd hk
  · exact hk

theorem mem_helicityTuples {d : Decay} (hd : Standard d) (l : ℚ × ℚ × ℚ × ℚ) :
    l ∈ helicityTuples (spins d) ↔ ∀ i ∈ ([0, 1, 2, 3] : List ℤ), Projection (d.spin i) (lamOf l i) := by
  have h0 := mem_spinRange (Standard.half hd (i := 0) (by simp))
  have h1 := mem_spinRange (Standard.half hd (i := 1) (by simp))
  have h2 := mem_spinRange (Standard.half hd (i := 2) (by simp))
  have h3 := mem_spinRange (Standard.half hd (i := 3) (by simp))
  obtain ⟨a, b, c, e⟩ := l
  unfold helicityTuples
  simp only [List.mem_flatMap, List.mem_map, Prod.mk.injEq, List.forall_mem_cons,
    List.not_mem_nil, false_implies, implies_true, and_true]
  change (∃ x ∈ createSpinRange (d.spin 0), ∃ y ∈ createSpinRange (d.spin 1),
    ∃ z ∈ createSpinRange (d.spin 2), ∃ w ∈ createSpinRange (d.spin 3),
      x = a ∧ y = b ∧ z = c ∧ w = e) ↔
    Projection (d.spin 0) a ∧ Projection (d.spin 1) b ∧ Projection (d.spin 2) c ∧
      Projection (d.spin 3) e
  rw [← h0, ← h1, ← h2, ← h3]
  constructor
  · rintro ⟨x, hx, y, hy, z, hz, w, hw, rfl, rfl, rfl, rfl⟩; exact ⟨hx, hy, hz, hw⟩
  · rintro ⟨hx, hy, hz, hw⟩; exact ⟨a, hx, b, hy, c, hz, e, hw, rfl, rfl, rfl, rfl⟩

/-- The pairs of the double loop. -/
def pairs (b : Builder) : List ((ℚ × ℚ × ℚ × ℚ) × ℤ) :=
  (helicityTuples (spins b.decay)).product b.subsystems

theorem mem_pairs {b : Builder} (x : (ℚ × ℚ × ℚ × ℚ) × ℤ) :
    x ∈ pairs b ↔ x.1 ∈ helicityTuples (spins b.decay) ∧ x.2 ∈ b.subsystems := by
  obtain ⟨l, k⟩ := x
  unfold pairs
  exact List.mem_product

theorem pairsOk {b : Builder} (hd : Standard b.decay) : PairsOk (pairs b) :=
  fun x hx => Standard.subsystems hd ((mem_pairs x).1 hx).2

/-- The outer sum ranges. -/
def outer (d : Decay) : List (Sym × List ℚ) :=
  [0, 1, 2, 3].map fun i => (lambdaSym i, createSpinRange (spins d i))

/-- The formulated model, up to the order of the parameters. -/
def result (b : Builder) (dyn : Chain → DefExpr) (ref : ℤ) (cl uc : Bool) (P : PyDict Key Val) :
    AmplitudeModel :=
  { decay := b.decay
    intensity := .psum (.pow (.abs
      (if cl then (alignedExpr b ref fun i => .sym (lambdaSym i)).cleanup
        else alignedExpr b ref fun i => .sym (lambdaSym i))) 2) (outer b.decay)
    amplitudes := PyDict.ofItems ((pairs b).map fun x =>
      (ampKey x.2 x.1, ampExpr b dyn uc x.2 x.1))
    angleDefs := (PyDict.ofItems ((pairs b).map fun x =>
        (thetaSym (prodIds x.2).1 (prodIds x.2).2, thetaExpr x.2))).update
      (PyDict.ofItems (b.decay.subsystemIds.flatMap (alignItems ref (spins b.decay))))
    parameterDefaults := P.update (massParams (massDict b.decay))
    masses := massDict b.decay
    invariants := [(⟨"sigma1", .nonneg⟩, thirdExpr 2 3),
      (⟨"sigma2", .nonneg⟩, thirdExpr 3 1), (⟨"sigma3", .nonneg⟩, thirdExpr 1 2)] }

/-- Which reference subsystem is used. -/
def RefIs (b : Builder) (reference : Option ℤ) (ref : ℤ) : Prop :=
  (match reference with
    | none => b.decay.bestReference
    | some r => .ok r) = .ok ref

/-- A missing coupling is noticed. -/
def Missing (b : Builder) : Prop :=
  ¬ ∀ x ∈ pairs b, ∀ c ∈ chainsOf b.decay x.2, HasLS b c

theorem formulate_ok {b : Builder} (hd : Standard b.decay) {dyn : Chain → DefExpr}
    (hdyn : Lineshapes b dyn) {reference : Option ℤ} {ref : ℤ} (href : RefIs b reference ref)
    (hr : ref ∈ ([1, 2, 3] : List ℤ)) (cl uc : Bool) (h : ¬ Missing b) :
    ∃ P, b.formulate reference cl uc = .ok (result b dyn ref cl uc P) ∧
      ∀ k, PyDict.get? P k = PyDict.get?
        (PyDict.ofItems ((pairs b).flatMap fun x => ampItems b dyn uc x.2 x.1)) k := by
  obtain ⟨P, hP, hP'⟩ := subsystemLoop_ok hd hdyn uc (pairs b) (pairsOk hd)
    (by unfold Missing at h; push Not at h; exact h) {}
  refine ⟨P, ?_, hP'⟩
  unfold RefIs at href
  unfold Builder.formulate
  have hs : tup (b.decay.st 0).spin (b.decay.st 1).spin (b.decay.st 2).spin (b.decay.st 3).spin =
    spins b.decay := rfl
  have hp : (helicityTuples (spins b.decay)).product b.subsystems = pairs b := rfl
  cases reference <;> simp only at href <;>
  simp only [href, Standard.get hd (by simp : (0:ℤ) ∈ ([0, 1, 2, 3] : List ℤ)),
    Standard.get hd (by simp : (1:ℤ) ∈ ([0, 1, 2, 3] : List ℤ)),
    Standard.get hd (by simp : (2:ℤ) ∈ ([0, 1, 2, 3] : List ℤ)),
    Standard.get hd (by simp : (3:ℤ) ∈ ([0, 1, 2, 3] : List ℤ)), bind, Except.bind, hs, hp, hP, alignedAmplitude_eq hd hr, createMassSymbolMapping_eq hd,
    formulateInvariants_eq hd] <;>
  first
  | rfl
  | (cases href; simp only [alignedAmplitude_eq hd hr]; rfl)

theorem formulate_err {b : Builder} (hd : Standard b.decay) {dyn : Chain → DefExpr}
    (hdyn : Lineshapes b dyn) {reference : Option ℤ} {ref : ℤ} (href : RefIs b reference ref)
    (cl uc : Bool) (h : Missing b) :
    b.formulate reference cl uc = .error .valueError := by
  have hP := subsystemLoop_err hd hdyn uc (pairs b) (pairsOk hd) h {}
  unfold RefIs at href
  unfold Builder.formulate
  have hs : tup (b.decay.st 0).spin (b.decay.st 1).spin (b.decay.st 2).spin (b.decay.st 3).spin =
    spins b.decay := rfl
  have hp : (helicityTuples (spins b.decay)).product b.subsystems = pairs b := rfl
  cases reference <;> simp only at href <;>
  simp only [href, Standard.get hd (by simp : (0:ℤ) ∈ ([0, 1, 2, 3] : List ℤ)),
    Standard.get hd (by simp : (1:ℤ) ∈ ([0, 1, 2, 3] : List ℤ)),
    Standard.get hd (by simp : (2:ℤ) ∈ ([0, 1, 2, 3] : List ℤ)),
    Standard.get hd (by simp : (3:ℤ) ∈ ([0, 1, 2, 3] : List ℤ)), bind, Except.bind, hs, hp, hP]

theorem missing_iff {b : Builder} (hd : Standard b.decay) :
    Missing b ↔ (∃ l : ℤ → ℚ, ∀ i ∈ ([0, 1, 2, 3] : List ℤ), Projection (b.decay.spin i) (l i)) ∧
      ∃ c ∈ b.decay.chains, ¬ HasLS b c := by
  unfold Missing
  push Not
  constructor
  · rintro ⟨x, hx, c, hc, hn⟩
    have := (mem_pairs x).1 hx
    exact ⟨⟨_, (mem_helicityTuples hd _).1 this.1⟩, c, (List.mem_filter.1 hc).1, hn⟩
  · rintro ⟨⟨l, hl⟩, c, hc, hn⟩
    refine ⟨((l 0, l 1, l 2, l 3), c.spectator.index), ?_, c, ?_, hn⟩
    · rw [mem_pairs, mem_helicityTuples hd]
      refine ⟨?_, subsystemIds_subset hd (((C18_partition hd.valid).1 _).2 ⟨c, hc, rfl⟩)⟩
      intro i hi
      have := hl i hi
      simp only [List.mem_cons, List.not_mem_nil, or_false] at hi
      rcases hi with rfl | rfl | rfl | rfl <;> exact this
    · exact List.mem_filter.2 ⟨hc, by simp⟩

theorem exists_projections {d : Decay} (hd : Standard d) (hn : NonnegSpins d) :
    ∃ l : ℤ → ℚ, ∀ i ∈ ([0, 1, 2, 3] : List ℤ), Projection (d.spin i) (l i) :=
  ⟨fun i => d.spin i, fun i hi => by
    have h0 : 0 ≤ d.spin i := hn _ (Standard.mem hd hi)
    refine ⟨by linarith, le_refl _, ?_⟩
    rw [sub_self]
    exact ⟨0, by simp⟩⟩

end Verif.ThreeBody
