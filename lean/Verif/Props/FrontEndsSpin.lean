import Verif.Props.FrontEnds

/-! C91: agreement of deserialized models with the models of `DalitzPlotDecompositionBuilder` for decays of a particle
of spin 0 to particles with spin. -/
namespace Verif.Serialization
open Verif Verif.ThreeBody Verif.Spec

variable {m : ModelDefinition} {tl : String → String} {add : Option (PyDict String PropagatorBuilder)}
  {D : Distribution} {rd : ChainDefinition → Reading} {cl : Bool} {a : AmplitudeModel} {ref : ℤ}
  {ι : Interp} {line : ChainDefinition → ℂ} {form : Vertex → ℂ}

/-- The chains of the decay of a model: one for every resonance with its spin and decay products. -/
theorem chains_of (hm : ReadsModel m D rd) (h : formulate m cl tl add = .ok a) :
    ∃ F : ChainDefinition → Chain, a.decay.chains.Nodup ∧ (∀ ch, ch ∈ a.decay.chains ↔ ∃ c ∈ D.chains, F c = ch) ∧
      (∀ c ∈ D.chains, SameChain c (rd c) (F c) ∧
        (F c).spectator.index = (rd c).k ∧ (F c).incomingLs = none ∧ (F c).outgoingLs = none ∧
        ∃ R, (F c).resonance = .particle R ∧ R.latex = R.name) ∧
      ∀ c ∈ D.chains, ∀ c' ∈ D.chains, SameChain c (rd c) (F c') → F c = F c' := by
  classical
  obtain ⟨K, E, P, Θ, ref', ids, zetas, terms, hf⟩ := formulate_inv hm.head hm.kinematics h
  obtain ⟨D', p0, ps, hs, hst, hex, hmem, hlt, -⟩ := toDecay_facts.1 hf.decay
  obtain ⟨rest, hD⟩ := hm.head
  obtain ⟨rest', hD'⟩ := hs.head
  have e : D' = D := by
    rw [hD] at hD'
    exact (List.cons.inj hD').1.symm
  subst e
  have : Nonempty Chain := ⟨chainOf p0 ⟨"", "", 0, none, 0, 0⟩ p0 p0 p0⟩
  choose! F hF using hex
  have hform : ∀ c ∈ D'.chains, ∃ p1 p2 p3, PyDict.get? (finalOf ps) (rd c).i = some p1 ∧
      PyDict.get? (finalOf ps) (rd c).j = some p2 ∧ PyDict.get? (finalOf ps) (rd c).k = some p3 ∧
      F c = chainOf p0 ⟨c.name, identityFunction c.name, chainSpin c, none, 0, 0⟩ p1 p2 p3 := by
    intro c hc
    obtain ⟨⟨p, q, ho, ⟨x, y, hp⟩, hq, -⟩, -⟩ := hm.reads c hc
    have htwo : TwoVertices c p q (rd c).i (rd c).j (rd c).k :=
      ⟨ho, ⟨x, y, hp.imp And.left And.left⟩, hq⟩
    obtain ⟨s, p1, p2, p3, ⟨pr, r, h1, h2⟩, -, h3, h4, h5, -, hch⟩ := (C52_decay_chain htwo _ _ _ _).1 (hF c hc)
    refine ⟨p1, p2, p3, h3, h4, h5, ?_⟩
    have : chainSpin c = s := by
      unfold chainSpin
      rw [h1]
      simp only [h2]
      rfl
    rw [this, hch]
  have hprop : ∀ c ∈ D'.chains, SameChain c (rd c) (F c) ∧
        (F c).spectator.index = (rd c).k ∧ (F c).incomingLs = none ∧ (F c).outgoingLs = none ∧
        ∃ R, (F c).resonance = .particle R ∧ R.latex = R.name := by
    intro c hc
    obtain ⟨p1, p2, p3, h3, h4, h5, hch⟩ := hform c hc
    rw [hch]
    exact ⟨⟨⟨rfl, (finalOf_mem h3).2, (finalOf_mem h4).2⟩, rfl⟩, (finalOf_mem h5).2, rfl, rfl, _, rfl, rfl⟩
  refine ⟨F, List.Nodup.of_map chainKey (hlt.imp fun h => ne_of_lt h), ?_, hprop, ?_⟩
  · intro ch
    rw [hmem ch]
    constructor
    · rintro ⟨c, hc, h⟩
      refine ⟨c, hc, ?_⟩
      rw [hF c hc] at h
      exact Except.ok.inj h
    · rintro ⟨c, hc, rfl⟩
      exact ⟨c, hc, hF c hc⟩
  · rintro c hc c' hc' ⟨⟨e1, e2, e3⟩, e4⟩
    obtain ⟨⟨⟨f1, f2, f3⟩, f4⟩, f5, -⟩ := hprop c' hc'
    have gi : (rd c).i = (rd c').i := e2.symm.trans f2
    have gj : (rd c).j = (rd c').j := e3.symm.trans f3
    have gk : (rd c).k = (rd c').k := by
      have s1 := (hm.reads c hc).2.sum_eq
      have s2 := (hm.reads c' hc').2.sum_eq
      simp only [List.sum_cons, List.sum_nil] at s1 s2
      omega
    obtain ⟨p1, p2, p3, h1, h2, h3, hch⟩ := hform c hc
    obtain ⟨p1', p2', p3', h1', h2', h3', hch'⟩ := hform c' hc'
    rw [gi] at h1
    rw [gj] at h2
    rw [gk] at h3
    rw [h1] at h1'
    rw [h2] at h2'
    rw [h3] at h3'
    cases h1'
    cases h2'
    cases h3'
    rw [hch, hch', e1.symm.trans f1, e4.symm.trans f4]

/-- The contribution of a chain without parity vertices. -/
theorem serialValue_helicity {c : ChainDefinition} {r : Reading} (hr : Reads c r)
    (hv : ∀ v ∈ c.vertices, v.type ≠ "parity") (l : ℤ → ℚ) : open Classical in
    serialValue ι tl line form l c r = if r.At l then
      ι.sym (weightSymbol tl c r) * (line c * (c.vertices.map form).prod) *
        ι.wig (chainSpin c) r.lR (r.li - r.lj) (ι.sym ⟨"theta_" ++ toString r.i ++ toString r.j, .real⟩) else 0 := by
  classical
  obtain ⟨p, q, ho, ⟨x, y, hp⟩, hq1, hq2⟩ := hr
  have hpv : p.type ≠ "parity" := hv p (by rcases ho with ho | ho <;> simp [ho])
  have hqv : q.type ≠ "parity" := hv q (by rcases ho with ho | ho <;> simp [ho])
  have e1 : vertexValue p r.lR l = if l r.k = r.lk then 1 else 0 := by
    unfold vertexValue vertexParity recouplingValue
    rcases hp with ⟨h1, h2⟩ | ⟨h1, h2⟩ <;> simp [h1, h2, hpv, childHelicity]
  have e2 : vertexValue q r.lR l = if l r.i = r.li ∧ l r.j = r.lj then 1 else 0 := by
    unfold vertexValue vertexParity recouplingValue
    simp only [hq1, hq2, hqv, childHelicity, if_false, add_zero]
    congr
  have e3 : (c.vertices.map fun v => vertexValue v r.lR l).prod = if r.At l then 1 else 0 := by
    have : (c.vertices.map fun v => vertexValue v r.lR l).prod = vertexValue p r.lR l * vertexValue q r.lR l := by
      rcases ho with ho | ho <;> simp [ho, mul_comm]
    rw [this, e1, e2]
    unfold Reading.At
    by_cases h1 : l r.k = r.lk <;> by_cases h2 : l r.i = r.li <;> by_cases h3 : l r.j = r.lj <;> simp [h1, h2, h3]
  unfold serialValue
  rw [e3]
  split_ifs <;> ring

theorem initial_spin (hm : ReadsModel m D rd) (h : formulate m cl tl add = .ok a) {s : ℚ}
    (hs : D.kinematics.initialState.spin = some s) : a.decay.spin 0 = s := by
  obtain ⟨K, E, P, Θ, ref', ids, zetas, terms, hf⟩ := formulate_inv hm.head hm.kinematics h
  have hd := (toDecay_standard hm.head hm.kinematics hf.decay).1
  obtain ⟨D', rest', hD', hst⟩ := C53_states hf.decay
  obtain ⟨rest, hD⟩ := hm.head
  have e : D' = D := by
    rw [hD] at hD'
    exact (List.cons.inj hD').1.symm
  subst e
  obtain ⟨h1, x, hx, h2, -, -, -, -, h3, -⟩ := hst 0 (a.decay.st 0) (get_ok.1 (Standard.get hd (by simp)))
  rcases List.mem_cons.1 hx with rfl | hx
  · rw [hs] at h2
    exact (Option.some.inj h2).symm
  · have := (hm.kinematics.final.mem_iff (a := x.index)).1 (List.mem_map.2 ⟨x, hx, rfl⟩)
    rw [← h3, h1] at this
    simp at this

theorem prodIds_of_even {i j k : ℤ} (h : EvenPerm i j k) : prodIds k = (i, j) := by
  rcases h with h | h | h <;> cases h <;> rfl

theorem sum_map_comm {α β : Type} (xs : List α) (ys : List β) (f : α → β → ℂ) :
    (xs.map fun x => (ys.map fun y => f x y).sum).sum = (ys.map fun y => (xs.map fun x => f x y).sum).sum := by
  induction xs with
  | nil => simp
  | cons x xs ih => simp [ih, List.sum_map_add]

theorem sum_of_nodup {α : Type} [DecidableEq α] {xs : List α} (hn : xs.Nodup) {x : α} (hx : x ∈ xs) (f : α → ℂ) :
    (xs.map fun y => if x = y then f y else 0).sum = f x := by
  induction xs with
  | nil => cases hx
  | cons y ys ih =>
    rw [List.nodup_cons] at hn
    rw [List.map_cons, List.sum_cons]
    by_cases h : x = y
    · subst h
      have : (ys.map fun z => if x = z then f z else 0) = ys.map fun _ => 0 := by
        apply List.map_congr_left
        intro z hz
        rw [if_neg]
        rintro rfl
        exact hn.1 hz
      rw [if_pos rfl, this]
      simp
    · rw [if_neg h, zero_add]
      exact ih hn.2 ((List.mem_cons.1 hx).resolve_left h)

/-- C91: the two ways to a model agree for the decay of a particle of spin 0, whatever the spins of the others. If a
`DalitzPlotDecompositionBuilder` is given the decay of a deserialized model and the same reference subsystem, and chain
by chain and helicity by helicity phases, lineshape and couplings of the one are the weights, lineshapes and form
factors of the other, the two intensities are the same, for whatever options of the builder. -/
theorem C91_front_ends (hm : ReadsModel m D rd) (h0 : NonnegativeSpins D)
    (hinit : D.kinematics.initialState.spin = some 0) (hc : ∀ c ∈ D.chains, FromSpinZero c (rd c))
    (htop : ∀ c ∈ D.chains, IsSpectator c.topology (rd c).k)
    (href : IsSpectator D.referenceTopology ref) (href' : ref ∈ ([1, 2, 3] : List ℤ))
    (h : formulate m cl tl add = .ok a) (hv : DynamicsValues m D.chains tl add ι line form)
    {b : Builder} (hb : b.decay = a.decay) {dyn : Chain → DefExpr} (hdyn : Lineshapes b dyn)
    {reference : Option ℤ} (hr : UsedRef b reference ref) {cl' uc : Bool} {m' : AmplitudeModel}
    (h' : b.formulate reference cl' uc = .ok m')
    (hfree : ∀ c ∈ b.decay.chains, HelicityFree (dyn c).expression) (η : Sym → ℚ)
    (hval : ∀ ch ∈ a.decay.chains, ∀ l ∈ helicities a.decay,
      Projection ch.resonance.toP.spin (byId l ch.spectator.index) →
      minusOnePow (a.decay.spin ch.spectator.index - byId l ch.spectator.index) *
          minusOnePow (a.decay.spin ch.product2.index - byId l ch.product2.index) * (dyn ch).expression.eval ι η *
          couplings ι b ch uc (byId l ch.spectator.index) (byId l ch.spectator.index) (byId l ch.product1.index)
            (byId l ch.product2.index) =
        serialCoupling ι tl line form D.chains rd ch (byId l)) :
    m'.fullExpression.eval ι η = a.fullExpression.eval ι η := by
  classical
  obtain ⟨K, E, P, Θ, ref', ids, zetas, terms, hf⟩ := formulate_inv hm.head hm.kinematics h
  have hd : Standard b.decay := by
    rw [hb]
    exact (toDecay_standard hm.head hm.kinematics hf.decay).1
  obtain ⟨F, hnd, hmem, hF, hinj⟩ := chains_of hm h
  have hres : b.useProdHel = false → ∀ c ∈ b.decay.chains, c.resonance ≠ .state c.spectator := by
    intro _ ch hch
    rw [hb] at hch
    obtain ⟨c, hc, rfl⟩ := (hmem ch).1 hch
    obtain ⟨-, -, -, -, R, hR, -⟩ := hF c hc
    rw [hR]
    rintro ⟨⟩
  have hrok : RefOk reference := by
    rintro r rfl
    cases (show r = ref from hr)
    simpa using href'
  obtain ⟨ref'', hu, hfull⟩ := ThreeBody.full_value hd hdyn hrok h' hfree hres η
  cases usedRef_unique hu hr
  rw [hfull ι, (C70_intensity_of_decay hm h0 htop href href' h ι η).2, hb]
  refine congrArg _ ?_
  have hspin0 := initial_spin hm h hinit
  have hA : ∀ k ∈ subsystems a.decay, ∀ l ∈ helicities a.decay,
      subsystemValue ι b uc (fun c => (dyn c).expression.eval ι η) k l = definedValue a ι η k l := by
    intro k hk l hl
    have hl0 : l 0 = 0 := by
      have := (Fintype.mem_piFinset.1 hl) 0
      rw [show a.decay.spin ((0 : Fin 4) : ℤ) = 0 from hspin0] at this
      simpa [projections] using this
    have hb0 : byId l 0 = 0 := by simpa [byId, tup] using hl0
    rw [C60_amplitude_value hm h hv η k hl]
    unfold subsystemValue
    rw [hb, sum_filter]
    have step : ∀ ch ∈ a.decay.chains, (if ch.spectator.index = k then
        chainValue ι b uc (fun c => (dyn c).expression.eval ι η) (prodIds k).1 (prodIds k).2 k (ThreeBody.byId l) ch
          else 0) = (D.chains.map fun c => if F c = ch then (if IsSpectator c.topology k then
            serialValue ι tl line form (byId l) c (rd c) else 0) else 0).sum := by
      intro ch hch
      obtain ⟨c₀, hc₀, rfl⟩ := (hmem ch).1 hch
      obtain ⟨⟨⟨f1, f2, f3⟩, f4⟩, f5, f6, f7, -⟩ := hF c₀ hc₀
      have hsame : ∀ c ∈ D.chains, F c = F c₀ → (rd c).i = (rd c₀).i ∧ (rd c).j = (rd c₀).j ∧
          (rd c).k = (rd c₀).k ∧ chainSpin c = chainSpin c₀ := by
        intro c hc e
        obtain ⟨⟨⟨g1, g2, g3⟩, g4⟩, g5, -⟩ := hF c hc
        rw [e] at g2 g3 g4 g5
        exact ⟨g2.symm.trans f2, g3.symm.trans f3, g5.symm.trans f5, g4.symm.trans f4⟩
      have hiff : ∀ c ∈ D.chains, (SameChain c (rd c) (F c₀) ↔ F c = F c₀) := by
        intro c hc
        exact ⟨hinj c hc c₀ hc₀, fun e => e ▸ (hF c hc).1⟩
      have hspec : ∀ c ∈ D.chains, (IsSpectator c.topology k ↔ (rd c).k = k) := fun c hc =>
        ⟨fun hk => hk.2 _ (htop c hc).1, fun hk => hk ▸ htop c hc⟩
      rw [f5]
      by_cases hk' : (rd c₀).k = k
      · subst hk'
        rw [if_pos rfl, prodIds_of_even (hc c₀ hc₀).order]
        have hd1 : decayFactor ι b (F c₀) (ThreeBody.byId l) = 1 := by
          unfold decayFactor
          rw [f7]
          cases b.useDecHel <;> rfl
        have hp1 : ∀ x y, productionFactor ι b (F c₀) x y = 1 := by
          intro x y
          unfold productionFactor
          rw [f6]
          cases b.useProdHel <;> rfl
        unfold chainValue
        rw [hd1, hp1, f4, show ThreeBody.byId l = byId l from rfl, hb0, zero_add]
        have hv1 := hval (F c₀) hch l hl
        rw [f2, f3, f4, f5] at hv1
        by_cases hpr : Projection (chainSpin c₀) (byId l (rd c₀).k)
        · rw [if_pos hpr]
          have hv2 := hv1 hpr
          rw [hb]
          have : ∀ x : ℂ, x = ι.wig (chainSpin c₀) (byId l (rd c₀).k) (byId l (rd c₀).i - byId l (rd c₀).j)
              (ι.sym ⟨"theta_" ++ toString (rd c₀).i ++ toString (rd c₀).j, .real⟩) *
                serialCoupling ι tl line form D.chains rd (F c₀) (byId l) →
              x = (D.chains.map fun c => if F c = F c₀ then (if IsSpectator c.topology (rd c₀).k then
                serialValue ι tl line form (byId l) c (rd c) else 0) else 0).sum := by
            rintro x rfl
            unfold serialCoupling
            rw [← List.sum_map_mul_left]
            congr 1
            apply List.map_congr_left
            intro c hc'
            rw [hiff c hc']
            by_cases e : F c = F c₀
            · obtain ⟨g1, g2, g3, g4⟩ := hsame c hc' e
              rw [if_pos e, if_pos ((hspec c hc').2 g3), serialValue_helicity (hm.reads c hc').1 (hc c hc').vertices]
              by_cases hat : (rd c).At (byId l)
              · rw [if_pos ⟨e, hat⟩, if_pos hat]
                obtain ⟨t1, t2, t3⟩ := hat
                rw [(hc c hc').helicity, ← t1, ← t2, ← t3, g1, g2, g3, g4]
                ring
              · rw [if_neg (fun t => hat t.2), if_neg hat, mul_zero]
            · rw [if_neg (fun t => e t.1), if_neg e, mul_zero]
          apply this
          rw [← hv2]
          ring
        · rw [if_neg hpr]
          symm
          apply List.sum_eq_zero
          intro y hy
          obtain ⟨c, hc', rfl⟩ := List.mem_map.1 hy
          by_cases e : F c = F c₀
          · obtain ⟨g1, g2, g3, g4⟩ := hsame c hc' e
            rw [if_pos e, if_pos ((hspec c hc').2 g3), serialValue_helicity (hm.reads c hc').1 (hc c hc').vertices,
              if_neg]
            rintro ⟨-, -, t3⟩
            apply hpr
            rw [← g3, t3, ← g4, ← (hc c hc').helicity]
            exact (hc c hc').projection
          · rw [if_neg e]
      · rw [if_neg hk']
        symm
        apply List.sum_eq_zero
        intro y hy
        obtain ⟨c, hc', rfl⟩ := List.mem_map.1 hy
        by_cases e : F c = F c₀
        · obtain ⟨g1, g2, g3, g4⟩ := hsame c hc' e
          rw [if_pos e, if_neg]
          rw [hspec c hc', g3]
          exact hk'
        · rw [if_neg e]
    rw [List.map_congr_left step, sum_map_comm]
    congr 1
    apply List.map_congr_left
    intro c hc'
    exact sum_of_nodup hnd ((hmem _).2 ⟨c, hc', rfl⟩) fun _ => if IsSpectator c.topology k then
            serialValue ι tl line form (byId l) c (rd c) else 0
  unfold Spec.intensity aligned
  refine Finset.sum_congr rfl fun l _ => ?_
  refine congrArg (‖·‖ ^ 2) ?_
  refine Finset.sum_congr rfl fun l' hl' => Finset.sum_congr rfl fun k hk => ?_
  rw [hA k hk l' hl']

/-! An example: `B → p p̄ K` with a `Λ` in two helicity states and a meson that decays to `p p̄`. -/

def szKinematics : Kinematics where
  initialState := ⟨0, "B", some 0, 5⟩
  finalState := [⟨1, "p", some (1 / 2), 1⟩, ⟨2, "pbar", some (1 / 2), 1⟩, ⟨3, "K", some 0, 1 / 2⟩]

/-- `B → (Λ → K p) p̄` with helicity `x` of `Λ`, `p` and `p̄`. -/
def szLambda (x : ℚ) : ChainDefinition where
  name := "Lambda"
  propagators := [⟨some (1 / 2), [.id 3, .id 1], "flat"⟩]
  vertices := [
    { type := "helicity", node := [.seq [.id 3, .id 1], .id 2], helicities := some [some x, some x] },
    { type := "helicity", node := [.id 3, .id 1], helicities := some [some 0, some x] }]
  topology := [.seq [.id 3, .id 1], .id 2]
  weight := some (x, 0)

def szJpsi : ChainDefinition where
  name := "Jpsi"
  propagators := [⟨some 1, [.id 1, .id 2], "flat"⟩]
  vertices := [
    { type := "helicity", node := [.id 1, .id 2], helicities := some [some (1 / 2), some (1 / 2)] },
    { type := "helicity", node := [.id 3, .seq [.id 1, .id 2]], helicities := some [some 0, some 0] }]
  topology := [.seq [.id 1, .id 2], .id 3]
  weight := some (1, 1)

def szDistribution : Distribution :=
  ⟨szKinematics, [.id 2, .seq [.id 3, .id 1]], [szLambda (1 / 2), szJpsi, szLambda (-1 / 2)]⟩

def szModel : ModelDefinition := ⟨[szDistribution], [⟨"flat", "Flat", [], none⟩]⟩

def szReading (c : ChainDefinition) : Reading :=
  if c.name = "Jpsi" then ⟨1, 2, 3, 0, 0, 1 / 2, 1 / 2⟩
  else if c.weight = some (1 / 2, 0) then ⟨3, 1, 2, 1 / 2, 1 / 2, 0, 1 / 2⟩
  else ⟨3, 1, 2, -1 / 2, -1 / 2, 0, -1 / 2⟩

theorem szReading_L : szReading (szLambda (1 / 2)) = ⟨3, 1, 2, 1 / 2, 1 / 2, 0, 1 / 2⟩ := by
  simp [szReading, szLambda]

theorem szReading_L' : szReading (szLambda (-1 / 2)) = ⟨3, 1, 2, -1 / 2, -1 / 2, 0, -1 / 2⟩ := by
  unfold szReading
  rw [if_neg (show ¬ (szLambda (-1 / 2)).name = "Jpsi" by decide),
    if_neg (show ¬ (szLambda (-1 / 2)).weight = some (1 / 2, 0) by decide +kernel)]

theorem szReading_J : szReading szJpsi = ⟨1, 2, 3, 0, 0, 1 / 2, 1 / 2⟩ := by
  simp [szReading, szJpsi]

theorem sz_cases {p : ChainDefinition → Prop} (h1 : p (szLambda (1 / 2))) (h2 : p szJpsi)
    (h3 : p (szLambda (-1 / 2))) : ∀ c ∈ szDistribution.chains, p c := by
  intro c hc
  simp only [szDistribution, List.mem_cons, List.not_mem_nil, or_false] at hc
  rcases hc with rfl | rfl | rfl <;> assumption

theorem szModel_reads : ReadsModel szModel szDistribution szReading where
  head := ⟨[], rfl⟩
  kinematics := {
    initial := rfl
    final := by decide
    spins := by
      intro d hd
      simp only [szDistribution, szKinematics, List.mem_cons, List.not_mem_nil, or_false] at hd
      rcases hd with rfl | rfl | rfl | rfl
      · exact ⟨_, rfl, half_zero⟩
      · exact ⟨_, rfl, half_half⟩
      · exact ⟨_, rfl, half_half⟩
      · exact ⟨_, rfl, half_zero⟩ }
  reads := by
    refine sz_cases ?_ ?_ ?_
    · rw [szReading_L]
      exact ⟨⟨_, _, .inl rfl, ⟨_, _, .inl ⟨rfl, rfl⟩⟩, rfl, rfl⟩, show [(3 : ℤ), 1, 2].Perm [1, 2, 3] by decide⟩
    · rw [szReading_J]
      exact ⟨⟨_, _, .inr rfl, ⟨_, _, .inr ⟨rfl, rfl⟩⟩, rfl, rfl⟩, show [(1 : ℤ), 2, 3].Perm [1, 2, 3] by decide⟩
    · rw [szReading_L']
      exact ⟨⟨_, _, .inl rfl, ⟨_, _, .inl ⟨rfl, rfl⟩⟩, rfl, rfl⟩, show [(3 : ℤ), 1, 2].Perm [1, 2, 3] by decide⟩

theorem szModel_nonneg : NonnegativeSpins szDistribution := by
  intro d hd s hs
  simp only [szDistribution, szKinematics, List.mem_cons, List.not_mem_nil, or_false] at hd
  rcases hd with rfl | rfl | rfl | rfl <;> cases hs <;> norm_num

theorem szModel_zero : ∀ c ∈ szDistribution.chains, FromSpinZero c (szReading c) := by
  refine sz_cases ?_ ?_ ?_
  · rw [szReading_L]
    refine ⟨?_, rfl, ⟨?_, ?_, 0, ?_⟩, .inr (.inr rfl)⟩
    · intro v hv
      simp only [szLambda, List.mem_cons, List.not_mem_nil, or_false] at hv
      rcases hv with rfl | rfl <;> decide
    all_goals norm_num [chainSpin, szLambda]
  · rw [szReading_J]
    refine ⟨?_, rfl, ⟨?_, ?_, 1, ?_⟩, .inl rfl⟩
    · intro v hv
      simp only [szJpsi, List.mem_cons, List.not_mem_nil, or_false] at hv
      rcases hv with rfl | rfl <;> decide
    all_goals norm_num [chainSpin, szJpsi]
  · rw [szReading_L']
    refine ⟨?_, rfl, ⟨?_, ?_, 1, ?_⟩, .inr (.inr rfl)⟩
    · intro v hv
      simp only [szLambda, List.mem_cons, List.not_mem_nil, or_false] at hv
      rcases hv with rfl | rfl <;> decide
    all_goals norm_num [chainSpin, szLambda]

theorem szModel_topology : ∀ c ∈ szDistribution.chains, IsSpectator c.topology (szReading c).k := by
  refine sz_cases ?_ ?_ ?_
  · rw [szReading_L]
    exact (⟨by simp [szLambda], by simp [szLambda]⟩ : IsSpectator (szLambda (1 / 2)).topology 2)
  · rw [szReading_J]
    exact (⟨by simp [szJpsi], by simp [szJpsi]⟩ : IsSpectator szJpsi.topology 3)
  · rw [szReading_L']
    exact (⟨by simp [szLambda], by simp [szLambda]⟩ : IsSpectator (szLambda (-1 / 2)).topology 2)

theorem szModel_reference : IsSpectator szDistribution.referenceTopology 2 :=
  ⟨by simp [szDistribution], by simp [szDistribution]⟩

theorem szModel_ok (tl : String → String) (cl : Bool) : ∃ a, formulate szModel cl tl scAdditional = .ok a := by
  refine C60_returns szModel_reads (ref := 2) szModel_reference (by simp) ?_ cl
  have hL : ∀ x, CompleteChain szModel tl scAdditional (szLambda x) := by
    intro x
    refine ⟨?_, rfl, ⟨1 / 2, ⟨_, _, rfl, rfl⟩, 1, by norm_num⟩,
      ⟨2, by simp, (⟨by simp [szLambda], by simp [szLambda]⟩ : IsSpectator (szLambda x).topology 2)⟩, ⟨_, rfl⟩, ?_⟩
    · intro v hv
      simp only [szLambda, List.mem_cons, List.not_mem_nil, or_false] at hv
      rcases hv with rfl | rfl <;> exact .inl rfl
    · intro v hv
      simp only [szLambda, List.mem_cons, List.not_mem_nil, or_false] at hv
      rcases hv with rfl | rfl <;> exact ⟨_, rfl⟩
  refine sz_cases (hL _) ?_ (hL _)
  refine ⟨?_, rfl, ⟨1, ⟨_, _, rfl, rfl⟩, 2, by norm_num⟩,
    ⟨3, by simp, (⟨by simp [szJpsi], by simp [szJpsi]⟩ : IsSpectator szJpsi.topology 3)⟩, ⟨_, rfl⟩, ?_⟩
  · intro v hv
    simp only [szJpsi, List.mem_cons, List.not_mem_nil, or_false] at hv
    rcases hv with rfl | rfl <;> exact .inl rfl
  · intro v hv
    simp only [szJpsi, List.mem_cons, List.not_mem_nil, or_false] at hv
    rcases hv with rfl | rfl <;> exact ⟨_, rfl⟩

def szCoefficient (n : String) (x : List ℚ) : ℂ :=
  if n = coefficientName "Lambda" true true then
    if x = [1 / 2, 1 / 2, 0, 1 / 2] ∨ x = [-1 / 2, -1 / 2, 0, -1 / 2] then 1 else 0
  else if x = [0, 0, 1 / 2, 1 / 2] then 1 else 0

/-- Values for the example: all parameters and Wigner functions are 1, and so are the coefficients for the helicities
of the chain definitions; the other coefficients are 0. -/
def szInterp : Interp :=
  { exInterp (fun _ _ _ _ => 1) with idx := fun n _ x => szCoefficient n x }

theorem szModel_values : DynamicsValues szModel szDistribution.chains id scAdditional szInterp (fun _ => 1)
    (fun _ => 1) where
  line := by
    refine sz_cases ?_ ?_ ?_ <;> intro d hd η <;>
    · have : d = ⟨1 * .num 1, []⟩ := (Except.ok.inj hd).symm
      rw [this]
      show ((1 : ℚ) : ℂ) * ((1 : ℚ) : ℂ) = 1
      norm_num
  form := by
    refine sz_cases ?_ ?_ ?_ <;> intro v hv d hd η <;>
    · have : d = {} := by
        simp only [szLambda, szJpsi, List.mem_cons, List.not_mem_nil, or_false] at hv
        rcases hv with rfl | rfl <;> exact (Except.ok.inj hd).symm
      rw [this]
      show ((1 : ℚ) : ℂ) = 1
      norm_num

theorem szModel_spins (h : formulate szModel cl tl scAdditional = .ok a) :
    a.decay.spin 0 = 0 ∧ a.decay.spin 1 = 1 / 2 ∧ a.decay.spin 2 = 1 / 2 ∧ a.decay.spin 3 = 0 := by
  obtain ⟨K, E, P, Θ, ref', ids, zetas, terms, hf⟩ :=
    formulate_inv szModel_reads.head szModel_reads.kinematics h
  have hd := (toDecay_standard szModel_reads.head szModel_reads.kinematics hf.decay).1
  obtain ⟨D', rest', hD', hs⟩ := C53_states hf.decay
  have e : D' = szDistribution := (List.cons.inj hD').1.symm
  subst e
  have key : ∀ i ∈ ([0, 1, 2, 3] : List ℤ), ∃ x ∈ szKinematics.initialState :: szKinematics.finalState,
      x.index = i ∧ x.spin = some (a.decay.spin i) := by
    intro i hi
    obtain ⟨h1, x, hx, h2, -, -, -, -, h3, -⟩ := hs i (a.decay.st i) (get_ok.1 (Standard.get hd hi))
    exact ⟨x, hx, h3 ▸ h1, h2⟩
  simp only [szKinematics, List.mem_cons, List.not_mem_nil, or_false] at key
  refine ⟨?_, ?_, ?_, ?_⟩
  · obtain ⟨x, rfl | rfl | rfl | rfl, h1, h2⟩ := key 0 (by simp) <;>
      first | exact absurd h1 (by decide) | exact (Option.some.inj h2).symm
  · obtain ⟨x, rfl | rfl | rfl | rfl, h1, h2⟩ := key 1 (by simp) <;>
      first | exact absurd h1 (by decide) | exact (Option.some.inj h2).symm
  · obtain ⟨x, rfl | rfl | rfl | rfl, h1, h2⟩ := key 2 (by simp) <;>
      first | exact absurd h1 (by decide) | exact (Option.some.inj h2).symm
  · obtain ⟨x, rfl | rfl | rfl | rfl, h1, h2⟩ := key 3 (by simp) <;>
      first | exact absurd h1 (by decide) | exact (Option.some.inj h2).symm

theorem projection_zero {x : ℚ} (h : Projection 0 x) : x = 0 := by
  obtain ⟨h1, h2, -⟩ := h
  linarith

theorem projection_half {x : ℚ} (h : Projection (1 / 2) x) : x = 1 / 2 ∨ x = -1 / 2 := by
  obtain ⟨h1, h2, n, h3⟩ := h
  have e : x = 1 / 2 - n := by linarith
  have n0 : (0 : ℚ) ≤ n := by linarith
  have n1 : (n : ℚ) ≤ 1 := by linarith
  have n0' : 0 ≤ n := by exact_mod_cast n0
  have n1' : n ≤ 1 := by exact_mod_cast n1
  rcases (by omega : n = 0 ∨ n = 1) with rfl | rfl
  · left
    rw [e]
    norm_num
  · right
    rw [e]
    norm_num

theorem szCoefficient_L {x y : ℚ} (hx : x = 1 / 2 ∨ x = -1 / 2) (hy : y = 1 / 2 ∨ y = -1 / 2) :
    minusOnePow (1 / 2 - y) * minusOnePow (1 / 2 - x) *
      szCoefficient (coefficientName "Lambda" true true) [y, y, 0, x] =
    (if x = 1 / 2 ∧ y = 1 / 2 then 1 else 0) + if x = -1 / 2 ∧ y = -1 / 2 then 1 else 0 := by
  unfold szCoefficient
  rw [if_pos rfl]
  rcases hx with rfl | rfl <;> rcases hy with rfl | rfl
  · rw [if_pos (by decide +kernel), if_pos (by decide +kernel), if_neg (by decide +kernel)]
    norm_num [minusOnePow]
  · rw [if_neg (by decide +kernel), if_neg (by decide +kernel), if_neg (by decide +kernel)]
    simp
  · rw [if_neg (by decide +kernel), if_neg (by decide +kernel), if_neg (by decide +kernel)]
    simp
  · rw [if_pos (by decide +kernel), if_neg (by decide +kernel), if_pos (by decide +kernel)]
    norm_num [minusOnePow, Complex.exp_pi_mul_I]

theorem szCoefficient_J {x y : ℚ} (hx : x = 1 / 2 ∨ x = -1 / 2) (hy : y = 1 / 2 ∨ y = -1 / 2) :
    minusOnePow (0 - 0) * minusOnePow (1 / 2 - y) *
      szCoefficient (coefficientName "Jpsi" true true) [0, 0, x, y] = if x = 1 / 2 ∧ y = 1 / 2 then 1 else 0 := by
  unfold szCoefficient
  rw [if_neg (by decide +kernel)]
  rcases hx with rfl | rfl <;> rcases hy with rfl | rfl
  · rw [if_pos (by decide +kernel), if_pos (by decide +kernel)]
    norm_num [minusOnePow]
  · rw [if_neg (by decide +kernel), if_neg (by decide +kernel)]
    simp
  · rw [if_neg (by decide +kernel), if_neg (by decide +kernel)]
    simp
  · rw [if_neg (by decide +kernel), if_neg (by decide +kernel)]
    simp

/-- Both models exist and have the same intensity. -/
example : ∃ a m', formulate szModel true id scAdditional = .ok a ∧
    (Builder.mk a.decay (Configurator.init a.decay) true true false).formulate (some 2) false true = .ok m' ∧
    m'.fullExpression.eval szInterp (fun _ => 0) = a.fullExpression.eval szInterp (fun _ => 0) := by
  classical
  obtain ⟨a, ha⟩ := szModel_ok id true
  obtain ⟨F, -, hmem, hF, -⟩ := chains_of szModel_reads ha
  obtain ⟨K, E, P, Θ, ref', ids, zetas, terms, hf⟩ := formulate_inv szModel_reads.head szModel_reads.kinematics ha
  have hd := (toDecay_standard szModel_reads.head szModel_reads.kinematics hf.decay).1
  have hdyn : Lineshapes (Builder.mk a.decay (Configurator.init a.decay) true true false) (fun _ => {}) := by
    refine lineshapes_by_name (history := []) rfl fun c _ c' _ => ⟨?_, fun _ => rfl⟩
    rintro g ⟨x, i, y, h, -⟩
    cases x <;> cases h
  obtain ⟨Q, hm', -⟩ := formulate_ok (b := Builder.mk a.decay (Configurator.init a.decay) true true false)
    (reference := some 2) (ref := 2) hd hdyn rfl (by simp) false true (by
      rw [missing_iff (b := Builder.mk a.decay (Configurator.init a.decay) true true false) hd]
      rintro ⟨-, c, hc, h⟩
      exact h ⟨by simp, by simp⟩)
  refine ⟨a, _, ha, hm', ?_⟩
  refine C91_front_ends szModel_reads szModel_nonneg rfl szModel_zero szModel_topology szModel_reference (by simp) ha
    szModel_values (b := Builder.mk a.decay (Configurator.init a.decay) true true false) rfl hdyn
    (reference := some 2) rfl hm' (fun _ _ _ _ _ => rfl) _ ?_
  intro ch hch l hl hpr
  obtain ⟨s0, s1, s2, s3⟩ := szModel_spins ha
  rw [mem_helicities hd] at hl
  have l0 : l 0 = 0 := projection_zero (s0 ▸ hl 0)
  have l1 : l 1 = 1 / 2 ∨ l 1 = -1 / 2 := projection_half (s1 ▸ hl 1)
  have l2 : l 2 = 1 / 2 ∨ l 2 = -1 / 2 := projection_half (s2 ▸ hl 2)
  have l3 : l 3 = 0 := projection_zero (s3 ▸ hl 3)
  have b1 : byId l 1 = l 1 := rfl
  have b2 : byId l 2 = l 2 := rfl
  have b3 : byId l 3 = l 3 := rfl
  obtain ⟨c, hc, rfl⟩ := (hmem ch).1 hch
  obtain ⟨⟨⟨f1, f2, f3⟩, f4⟩, f5, f6, f7, R, hR, hlat⟩ := hF c hc
  have hlat' : (F c).resonance.toP.latex = c.name := by
    rw [← f1, hR]
    exact hlat
  simp only [couplings, couplingIndices, if_true, hlat', List.cons_append, List.nil_append]
  unfold serialCoupling SameChain Describes Reading.At
  simp only [f1, f2, f3, f4, f5, szDistribution, List.map_cons, List.map_nil, List.sum_cons, List.sum_nil, szReading_L,
    szReading_L', szReading_J]
  have e1 : (Expr.num 1).eval szInterp (fun _ => 0) = 1 := by simp [Expr.eval]
  have e2 : szInterp.idx = fun n _ x => szCoefficient n x := rfl
  have e3 : ∀ x, szInterp.sym x = 1 := fun _ => rfl
  rw [e2]
  simp only [e3]
  rw [e1, mul_one]
  have n1 : ∀ x, (szLambda x).name = "Lambda" := fun _ => rfl
  have n2 : szJpsi.name = "Jpsi" := rfl
  have n3 : ∀ x, chainSpin (szLambda x) = 1 / 2 := fun _ => rfl
  have n4 : "Jpsi" ≠ "Lambda" := by decide
  have n5 : (List.map (fun _ => (1 : ℂ)) szJpsi.vertices).prod = 1 := by simp
  have n6 : ∀ x, (List.map (fun _ => (1 : ℂ)) (szLambda x).vertices).prod = 1 := by simp
  revert c
  refine sz_cases ?_ ?_ ?_ <;> intros
  · rw [szReading_L, n1]
    simp only [s1, s2, b1, b2, b3, l3, n1, n2, n3, n4.symm, n6, szCoefficient_L l1 l2]
    simp
  · rw [szReading_J, n2]
    simp only [s3, s2, b1, b2, b3, l3, n1, n3, n4, n5, szCoefficient_J l1 l2]
    simp
  · rw [szReading_L', n1]
    simp only [s1, s2, b1, b2, b3, l3, n1, n2, n3, n4.symm, n6, szCoefficient_L l1 l2]
    simp

end Verif.Serialization
