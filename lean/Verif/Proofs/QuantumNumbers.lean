import Verif.Spec.QuantumNumbers
import Verif.Proofs.Superposition

/-! What the intensity depends on (C113). -/
namespace Verif.ThreeBody
open Verif Verif.Spec Verif.Spin

variable {b b' : Builder} {uc : Bool} {ι ι' : Interp}

open Classical in
/-- The contribution of a chain without its couplings. -/
noncomputable def chainKernel (ι : Interp) (b : Builder) (lineshape : ℂ)
    (i j k : ℤ) (l : ℤ → ℚ) (c : Chain) : ℂ :=
  if Projection c.resonance.toP.spin (l 0 + l k) then
    minusOnePow (b.decay.spin k - l k) * minusOnePow (b.decay.spin j - l j) * lineshape *
      ι.wig c.resonance.toP.spin (l 0 + l k) (l i - l j)
        (ι.sym ⟨"theta_" ++ toString i ++ toString j, .real⟩) *
      decayFactor ι b c l * productionFactor ι b c (l 0 + l k) (l k)
  else 0

theorem chainValue_kernel (L : Chain → ℂ) (i j k : ℤ) (l : ℤ → ℚ) (c : Chain) :
    chainValue ι b uc L i j k l c =
      couplings ι b c uc (l 0 + l k) (l k) (l i) (l j) * chainKernel ι b (L c) i j k l c := by
  unfold chainValue chainKernel
  split <;> ring

theorem kernel_same {c c' : Chain} (h : SameQuantumNumbers c c') (ha : SameAngles ι ι')
    (hp : b'.useProdHel = b.useProdHel) (hq : b'.useDecHel = b.useDecHel)
    (hs : ∀ i : ℤ, b'.decay.spin i = b.decay.spin i) (z : ℂ) (i j k : ℤ) (l : ℤ → ℚ) :
    chainKernel ι' b' z i j k l c' = chainKernel ι b z i j k l c := by
  have hd : decayFactor ι' b' c' l = decayFactor ι b c l := by
    unfold decayFactor lsFactor
    rw [hq, h.couplings.2, h.resonance, h.product1.1, h.product1.2, h.product2.1, h.product2.2, ha.cg]
  have hpr : ∀ x y, productionFactor ι' b' c' x y = productionFactor ι b c x y := by
    intro x y
    unfold productionFactor lsFactor
    rw [hp, h.couplings.1, h.resonance, h.parent, h.spectator.2, ha.cg]
    cases b.useProdHel <;> cases c.incomingLs <;> first | rfl | (classical exact if_congr h.order rfl rfl)
  unfold chainKernel
  rw [h.resonance, hs, hs, ha.wig, ha.theta, hd, hpr]

/-- Equal spins, equal subsystems and equal subsystem amplitudes give the same intensity. -/
theorem intensity_same {d d' : Decay} (ha : SameAngles ι ι') (hs : ∀ i : ℤ, d'.spin i = d.spin i)
    (hsub : subsystems d' = subsystems d) {A A' : ℤ → (Fin 4 → ℚ) → ℂ} (hA : ∀ k l, A' k l = A k l) (ref : ℤ) :
    Spec.intensity ι' d' ref A' = Spec.intensity ι d ref A := by
  have hh : helicities d' = helicities d := by
    unfold helicities
    simp only [hs]
  have hA : A' = A := by funext k l; exact hA k l
  unfold Spec.intensity aligned rotation
  rw [hh, hsub, hA]
  simp only [hs, ha.wig, ha.zeta]

theorem subsystemValue_perm {cs : List Chain} (h : cs.Perm b.decay.chains) (L : Chain → ℂ) (k : ℤ) (l : Fin 4 → ℚ) :
    subsystemValue ι b uc L k l = ((cs.filter fun c => c.spectator.index = k).map
      (chainValue ι b uc L (prodIds k).1 (prodIds k).2 k (byId l))).sum := by
  unfold subsystemValue
  exact (((h.filter _).map _).sum_eq).symm

theorem subsystems_perm {d : Decay} {cs : List Chain} (h : cs.Perm d.chains) :
    subsystems d = (cs.map fun c => c.spectator.index).toFinset := by
  unfold subsystems
  exact (List.toFinset_eq_of_perm _ _ (h.map _)).symm
/-! ### Other properties of the particles -/

variable {φ : Particle → Particle}

theorem alterObj_spin (hφ : ∀ p, (φ p).spin = p.spin) (o : Obj) : (alterObj φ o).toP.spin = o.toP.spin := by
  cases o with
  | particle p => exact hφ p
  | state s => exact hφ s.toParticle

theorem toParticle_alter (n : Node) : (alterNode φ n).toParticle = alterObj φ n.toParticle := by
  cases n <;> rfl

theorem chainNew_alter {n : Node} {c : Chain} (h : Chain.new n = .ok c) :
    Chain.new (alterNode φ n) = .ok (alterChain φ c) := by
  obtain ⟨p0, R, c1, c2, s, inc, out, hn⟩ := chain_shape_of_ok h
  rw [chainNew_shape p0 R c1 c2 s inc out n hn] at h
  have hn' : alterNode φ n = .isobar (alterObj φ p0) (.isobar (alterObj φ R) (alterNode φ c1) (alterNode φ c2) out)
        (.leaf (.state (alterState φ s))) inc ∨
      alterNode φ n = .isobar (alterObj φ p0) (.leaf (.state (alterState φ s)))
        (.isobar (alterObj φ R) (alterNode φ c1) (alterNode φ c2) out) inc := by
    rcases hn with rfl | rfl
    · exact .inl rfl
    · exact .inr rfl
  rw [chainNew_shape _ _ _ _ _ inc out _ hn', toParticle_alter, toParticle_alter]
  cases h1 : c1.toParticle with
  | particle p => rw [h1] at h; cases h
  | state p1 =>
    cases h2 : c2.toParticle with
    | particle p => rw [h1, h2] at h; cases h
    | state p2 =>
      rw [h1, h2] at h
      cases p0 with
      | particle p => cases h
      | state q =>
        dsimp only at h
        split_ifs at h with hnd
        injection h with h
        subst h
        have hnd' : [(alterState φ q).index, (alterState φ p1).index, (alterState φ p2).index,
            (alterState φ s).index].Nodup := hnd
        exact if_pos hnd'

theorem get?_alter (l : PyDict ℤ State) (i : ℤ) :
    PyDict.get? (l.map fun x => (x.1, alterState φ x.2)) i = (PyDict.get? l i).map (alterState φ) := by
  induction l with
  | nil => rfl
  | cons x l ih =>
    obtain ⟨j, s⟩ := x
    by_cases h : j = i
    · subst h
      simp [PyDict.get?]
    · simp only [PyDict.get?, List.map_cons, List.find?_cons, h, decide_false, beq_iff_eq] at ih ⊢
      first | exact ih | simpa [h] using ih

theorem last_alter {s' : State} {l : List State} :
    LastWithIndex s' (l.map (alterState φ)) ↔ ∃ s, s' = alterState φ s ∧ LastWithIndex s l := by
  constructor
  · rintro ⟨pre, post, h, hp⟩
    obtain ⟨l1, l2, rfl, hl1, hl2⟩ := List.map_eq_append_iff.1 h
    obtain ⟨a, l3, rfl, ha, hl3⟩ := List.map_eq_cons_iff.1 hl2
    refine ⟨a, ha.symm, l1, l3, rfl, fun t ht e => ?_⟩
    refine hp (alterState φ t) (by rw [← hl3]; exact List.mem_map.2 ⟨t, ht, rfl⟩) ?_
    rw [← ha]
    exact e
  · rintro ⟨s, rfl, pre, post, rfl, hp⟩
    refine ⟨pre.map (alterState φ), post.map (alterState φ), by simp, fun t ht e => ?_⟩
    obtain ⟨t, ht', rfl⟩ := List.mem_map.1 ht
    exact hp t ht' e

theorem valid_alter {d : Decay} (h : d.Valid) : (alterDecay φ d).Valid := by
  refine ⟨?_, ?_⟩
  · obtain ⟨-, s0, h0, hc⟩ := (decayNew_ok _ _ _).1 h.1
    refine (decayNew_ok _ _ _).2 ⟨rfl, alterState φ s0, ?_, ?_⟩
    · have := get?_alter (φ := φ) d.states 0
      rw [h0] at this
      exact this
    · intro c' hc'
      obtain ⟨c, hcm, rfl⟩ := List.mem_map.1 hc'
      obtain ⟨h1, h2⟩ := hc c hcm
      refine ⟨congrArg (alterState φ) h1, fun s' => ?_⟩
      have e : (alterDecay φ d).states.map Prod.snd = (d.states.map Prod.snd).map (alterState φ) := by
        simp [alterDecay, List.map_map, Function.comp_def]
      rw [e, last_alter]
      constructor
      · intro hs
        have : ∃ s, s' = alterState φ s ∧ (s = c.spectator ∨ s = c.product1 ∨ s = c.product2) := by
          rcases hs with rfl | rfl | rfl
          · exact ⟨_, rfl, .inl rfl⟩
          · exact ⟨_, rfl, .inr (.inl rfl)⟩
          · exact ⟨_, rfl, .inr (.inr rfl)⟩
        obtain ⟨s, rfl, hs'⟩ := this
        obtain ⟨g1, g2⟩ := (h2 s).1 hs'
        exact ⟨g1, s, rfl, g2⟩
      · rintro ⟨g1, s, rfl, g2⟩
        rcases (h2 s).2 ⟨g1, g2⟩ with rfl | rfl | rfl
        · exact .inl rfl
        · exact .inr (.inl rfl)
        · exact .inr (.inr rfl)
  · intro c' hc'
    obtain ⟨c, hcm, rfl⟩ := List.mem_map.1 hc'
    exact chainNew_alter (h.2 c hcm)

theorem standard_alter {d : Decay} (hφ : ∀ p, (φ p).spin = p.spin) (h : Standard d) : Standard (alterDecay φ d) := by
  refine ⟨valid_alter h.valid, ?_, ?_, ?_, ?_⟩
  · have : PyDict.keys (alterDecay φ d).states = PyDict.keys d.states := by
      simp [alterDecay, PyDict.keys, List.map_map, Function.comp_def]
    rw [this]
    exact h.keys
  · intro x' hx'
    obtain ⟨x, hx, rfl⟩ := List.mem_map.1 hx'
    exact h.index x hx
  · intro x' hx'
    obtain ⟨x, hx, rfl⟩ := List.mem_map.1 hx'
    have := h.spins x hx
    rw [← hφ] at this
    exact this
  · intro c' hc'
    obtain ⟨c, hc, rfl⟩ := List.mem_map.1 hc'
    have := h.resonances c hc
    rw [← alterObj_spin hφ] at this
    exact this

theorem spin_alter (hφ : ∀ p, (φ p).spin = p.spin) (d : Decay) (i : ℤ) : (alterDecay φ d).spin i = d.spin i := by
  unfold Decay.spin Decay.st
  rw [show (alterDecay φ d).states = d.states.map fun x => (x.1, alterState φ x.2) from rfl, get?_alter]
  cases PyDict.get? d.states i with
  | none => rfl
  | some s => exact hφ s.toParticle

theorem same_alter (hφ : ∀ p, (φ p).spin = p.spin) (c : Chain) : SameQuantumNumbers c (alterChain φ c) := by
  refine ⟨alterObj_spin hφ _, hφ _, ⟨rfl, hφ _⟩, ⟨rfl, hφ _⟩, ⟨rfl, hφ _⟩, ⟨rfl, rfl⟩, ?_⟩
  unfold ResonanceFirst
  constructor
  · rintro ⟨p, r, a1, a2, x, n, y, h⟩
    change alterNode φ c.decay = _ at h
    match hc : c.decay, h with
    | .isobar p (.isobar r a1 a2 x) n y, _ => exact ⟨p, r, a1, a2, x, n, y, rfl⟩
    | .isobar p (.leaf o) n y, h => cases h
  · rintro ⟨p, r, a1, a2, x, n, y, h⟩
    exact ⟨alterObj φ p, alterObj φ r, alterNode φ a1, alterNode φ a2, x, alterNode φ n, y, by
      show alterNode φ c.decay = _
      rw [h]
      rfl⟩

/-! ### Pairs of chains -/

/-- The two chains have the same quantum numbers, lineshapes and couplings. -/
def Paired (ι ι' : Interp) (b b' : Builder) (uc : Bool) (L L' : Chain → ℂ) (c c' : Chain) : Prop :=
  SameQuantumNumbers c c' ∧ L' c' = L c ∧
    ∀ lR lk li lj, couplings ι' b' c' uc lR lk li lj = couplings ι b c uc lR lk li lj

theorem paired_subsystems {L L' : Chain → ℂ} {cs cs' : List Chain} (h : List.Forall₂ (Paired ι ι' b b' uc L L') cs cs') :
    (cs'.map fun c => c.spectator.index) = cs.map fun c => c.spectator.index := by
  induction h with
  | nil => rfl
  | cons hx _ ih => rw [List.map_cons, List.map_cons, ih, hx.1.spectator.1]

theorem paired_sum {L L' : Chain → ℂ} (ha : SameAngles ι ι') (hp : b'.useProdHel = b.useProdHel)
    (hq : b'.useDecHel = b.useDecHel) (hs : ∀ i : ℤ, b'.decay.spin i = b.decay.spin i) {cs cs' : List Chain}
    (h : List.Forall₂ (Paired ι ι' b b' uc L L') cs cs') (i j k : ℤ) (l : ℤ → ℚ) :
    ((cs'.filter fun c => c.spectator.index = k).map (chainValue ι' b' uc L' i j k l)).sum =
      ((cs.filter fun c => c.spectator.index = k).map (chainValue ι b uc L i j k l)).sum := by
  induction h with
  | nil => rfl
  | cons hx _ ih =>
    rw [List.filter_cons, List.filter_cons, hx.1.spectator.1]
    split
    · rw [List.map_cons, List.map_cons, List.sum_cons, List.sum_cons, ih, chainValue_kernel, chainValue_kernel,
        hx.2.1, hx.2.2, kernel_same hx.1 ha hp hq hs]
    · exact ih

theorem degenerate_sum {L L' : Chain → ℂ} (ha : SameAngles ι ι') (hp : b'.useProdHel = b.useProdHel)
    (hq : b'.useDecHel = b.useDecHel) (hs : ∀ i : ℤ, b'.decay.spin i = b.decay.spin i) {c₁ c₂ c : Chain}
    (h₁ : SameQuantumNumbers c₁ c ∧ L' c = L c₁) (h₂ : SameQuantumNumbers c₂ c ∧ L' c = L c₂)
    (hsum : ∀ lR lk li lj, couplings ι' b' c uc lR lk li lj =
      couplings ι b c₁ uc lR lk li lj + couplings ι b c₂ uc lR lk li lj) {cs cs' : List Chain}
    (h : List.Forall₂ (Paired ι ι' b b' uc L L') cs cs') (i j k : ℤ) (l : ℤ → ℚ) :
    (((c :: cs').filter fun c => c.spectator.index = k).map (chainValue ι' b' uc L' i j k l)).sum =
      (((c₁ :: c₂ :: cs).filter fun c => c.spectator.index = k).map (chainValue ι b uc L i j k l)).sum := by
  have := paired_sum ha hp hq hs h i j k l
  rw [List.filter_cons, List.filter_cons, List.filter_cons, ← h₁.1.spectator.1, ← h₂.1.spectator.1]
  split
  · rw [List.map_cons, List.map_cons, List.map_cons, List.sum_cons, List.sum_cons, List.sum_cons, this, chainValue_kernel,
      chainValue_kernel, chainValue_kernel, hsum, add_mul, ← add_assoc]
    rw [kernel_same h₁.1 ha hp hq hs, h₁.2, ← kernel_same h₂.1 ha hp hq hs, ← h₂.2, kernel_same h₁.1 ha hp hq hs, h₁.2]
  · exact this


end Verif.ThreeBody
