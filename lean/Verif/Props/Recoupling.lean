import Verif.Props.Superposition

/-! Property C79: a model with LS couplings is a model with helicity couplings. -/
namespace Verif.ThreeBody
open Verif Verif.Spec Verif.Spin Verif.Angles

variable {b b' : Builder} {dyn dyn' : Chain → DefExpr} {cl cl' : Bool}
  {m m' : AmplitudeModel} {ι ι' : Interp}

theorem sum_single {α : Type} [DecidableEq α] {cs : List α} (hn : cs.Nodup) {a : α} {z : ℂ} (h : a ∈ cs) :
    (cs.map fun c => if a = c then z else 0).sum = z := by
  induction cs with
  | nil => cases h
  | cons x xs ih =>
    rw [List.nodup_cons] at hn
    rw [List.map_cons, List.sum_cons]
    by_cases hx : a = x
    · subst hx
      rw [if_pos rfl, List.sum_eq_zero, add_zero]
      intro y hy
      obtain ⟨z, hz, rfl⟩ := List.mem_map.1 hy
      rw [if_neg]
      rintro rfl
      exact hn.1 hz
    · rw [if_neg hx, zero_add]
      exact ih hn.2 ((List.mem_cons.1 h).resolve_left hx)

theorem sum_by_base {α : Type} [DecidableEq α] (base : α → α) (f : α → ℂ) {cs' : List α}
    (hn : cs'.Nodup) (cs : List α) (h : ∀ c ∈ cs, base c ∈ cs') :
    (cs'.map fun c' => ((cs.filter fun c => base c = c').map f).sum).sum = (cs.map f).sum := by
  induction cs with
  | nil => simp
  | cons c cs ih =>
    have ih := ih fun c hc => h c (List.mem_cons_of_mem _ hc)
    have : ∀ c', (((c :: cs).filter fun c => base c = c').map f).sum =
        (if base c = c' then f c else 0) + ((cs.filter fun c => base c = c').map f).sum := by
      intro c'
      rw [List.filter_cons]
      by_cases hk : base c = c' <;> simp [hk]
    simp only [this, List.sum_map_add, ih, List.map_cons, List.sum_cons]
    congr 1
    exact sum_single hn (h c List.mem_cons_self)

theorem byId_projections {d d' : Decay} (hs : d'.states = d.states) {l : Fin 4 → ℚ} (h : l ∈ helicities d') (n : Fin 4) :
    byId l n ∈ projections (d.spin n) := by
  unfold helicities at h
  rw [Fintype.mem_piFinset] at h
  have := h n
  rw [spin_eq hs] at this
  have e : byId l n = l n := by fin_cases n <;> rfl
  rw [e]
  exact this

theorem couplings_helicity (hp : b.useProdHel = true) (hq : b.useDecHel = true) (c : Chain) (x y z w : ℚ) :
    couplings ι b c true x y z w =
      ι.idx (coefficientName c.resonance.toP.latex true true) none [x, y, z, w] := by
  unfold couplings
  rw [hp, hq]
  rfl

theorem couplings_ls (hp : b.useProdHel = false) (hq : b.useDecHel = false) (c : Chain) (x y z w : ℚ) :
    couplings ι b c true x y z w = ι.idx (coefficientName c.resonance.toP.latex false false) none
      (couplingIndices false c.incomingLs 0 0 ++ couplingIndices false c.outgoingLs 0 0) := by
  unfold couplings
  rw [hp, hq]
  cases c.incomingLs <;> cases c.outgoingLs <;> rfl

/-- C79: a model in the LS basis has the same value as a model in the helicity basis, in which the
chains that differ only in their LS couplings are one chain, and each helicity coefficient is the sum
over these of LS coefficient times Clebsch-Gordan factors. `base c` is the chain in the helicity basis
that the chain `c` belongs to. -/
theorem C79_recoupling (base : Chain → Chain) (hd : Standard b.decay) (hd' : Standard b'.decay)
    (hs : b'.decay.states = b.decay.states)
    (hp : b.useProdHel = false) (hq : b.useDecHel = false)
    (hp' : b'.useProdHel = true) (hq' : b'.useDecHel = true)
    (hbase : ∀ c ∈ b.decay.chains, base c ∈ b'.decay.chains ∧
      (base c).resonance.toP = c.resonance.toP ∧ (base c).spectator.index = c.spectator.index)
    (hn : b'.decay.chains.Nodup)
    (hdyn : Lineshapes b dyn) (hdyn' : Lineshapes b' dyn')
    (hfree : ∀ c ∈ b.decay.chains, HelicityFree (dyn c).expression)
    (hfree' : ∀ c ∈ b'.decay.chains, HelicityFree (dyn' c).expression)
    (hres : ∀ c ∈ b.decay.chains, c.resonance ≠ .state c.spectator)
    {r : ℤ} (hr : r = 1 ∨ r = 2 ∨ r = 3)
    (h : b.formulate (some r) cl true = .ok m) (h' : b'.formulate (some r) cl' true = .ok m')
    {η : Sym → ℚ} (hf : SameFunctions ι ι') (hsym : ι.sym = ι'.sym)
    (hline : ∀ c ∈ b.decay.chains, (dyn c).expression.eval ι η = (dyn' (base c)).expression.eval ι' η)
    (hH : ∀ c' ∈ b'.decay.chains, ∀ i j, EvenPerm i j c'.spectator.index → ∀ l : ℤ → ℚ,
      (∀ n : Fin 4, l n ∈ projections (b.decay.spin n)) →
      Projection c'.resonance.toP.spin (l 0 + l c'.spectator.index) →
      ι.wig c'.resonance.toP.spin (l 0 + l c'.spectator.index) (l i - l j)
        (ι.sym ⟨"theta_" ++ toString i ++ toString j, .real⟩) ≠ 0 →
      ι'.idx (coefficientName c'.resonance.toP.latex true true) none
          [l 0 + l c'.spectator.index, l c'.spectator.index, l i, l j] =
        ((b.decay.chains.filter fun c => base c = c').map fun c =>
          ι.idx (coefficientName c'.resonance.toP.latex false false) none
            (couplingIndices false c.incomingLs 0 0 ++ couplingIndices false c.outgoingLs 0 0) *
          decayFactor ι b c l *
          productionFactor ι b c (l 0 + l c'.spectator.index) (l c'.spectator.index)).sum) :
    m.fullExpression.eval ι η = m'.fullExpression.eval ι' η := by
  have hrr : RefOk (some r) := by rintro x ⟨⟩; exact hr
  obtain ⟨x, hx, hv⟩ := full_value hd hdyn hrr h hfree (fun _ => hres) η
  obtain ⟨y, hy, hv'⟩ := full_value hd' hdyn' hrr h' hfree' (fun g => by rw [hp'] at g; cases g) η
  have hx : r = x := hx
  have hy : r = y := hy
  subst hx hy
  rw [hv, hv', intensity_interp (ι := ι) (ι' := ι') hsym.symm hf.wig.symm]
  have hss : subsystems b.decay ⊆ subsystems b'.decay := by
    intro k hk
    unfold subsystems at hk ⊢
    rw [List.mem_toFinset] at hk ⊢
    obtain ⟨c, hc', rfl⟩ := List.mem_map.1 hk
    exact List.mem_map.2 ⟨base c, (hbase c hc').1, (hbase c hc').2.2⟩
  refine congrArg _ (intensity_states hs.symm hss (fun k l hl => ?_) fun k l => subsystemValue_zero l).symm
  by_cases hk : k ∈ subsystems b'.decay
  swap
  · rw [subsystemValue_zero l hk, subsystemValue_zero l fun h => hk (hss h)]
  have h3 := Standard.subsystem hd' ((mem_subsystems _ _).1 hk)
  unfold subsystemValue
  rw [← sum_by_base base _ (hn.filter _) (b.decay.chains.filter fun c => c.spectator.index = k)]
  · congr 1
    apply List.map_congr_left
    intro c' hc'
    obtain ⟨hm', hk'⟩ := List.mem_filter.1 hc'
    have hk' : c'.spectator.index = k := of_decide_eq_true hk'
    have hfil : ((b.decay.chains.filter fun c => c.spectator.index = k).filter fun c => base c = c') =
        b.decay.chains.filter fun c => base c = c' := by
      rw [List.filter_filter]
      apply List.filter_congr
      intro c hc
      by_cases hb : base c = c'
      · have : c.spectator.index = k := by rw [← (hbase c hc).2.2, hb, hk']
        simp [hb, this]
      · simp [hb]
    rw [hfil]
    subst hk'
    have hi := hH c' hm' _ _ (evenPerm_prodIds h3) (byId l) (byId_projections hs hl)
    unfold chainValue
    rw [couplings_helicity hp' hq']
    simp only [couplings_ls hp hq]
    have hone : decayFactor ι' b' c' (byId l) = 1 := by unfold decayFactor; rw [hq']
    have hone' : ∀ x y, productionFactor ι' b' c' x y = 1 := by
      intro x y; unfold productionFactor; rw [hp']
    rw [hone, hone']
    by_cases hpr : Projection c'.resonance.toP.spin (byId l 0 + byId l c'.spectator.index)
    · have hi := hi hpr
      rw [hf.wig, hsym] at hi
      rw [if_pos hpr, mul_one, mul_one]
      by_cases hw : ι'.wig c'.resonance.toP.spin (byId l 0 + byId l c'.spectator.index)
          (byId l (prodIds c'.spectator.index).1 - byId l (prodIds c'.spectator.index).2)
          (ι'.sym ⟨"theta_" ++ toString (prodIds c'.spectator.index).1 ++ toString (prodIds c'.spectator.index).2,
            .real⟩) = 0
      · rw [hw, mul_zero, zero_mul]
        symm
        apply List.sum_eq_zero
        intro x hx
        obtain ⟨c, hc, rfl⟩ := List.mem_map.1 hx
        obtain ⟨hc, hb⟩ := List.mem_filter.1 hc
        have hb : base c = c' := of_decide_eq_true hb
        have ht := (hbase c hc).2.1
        rw [hb] at ht
        rw [← ht, if_pos hpr, hf.wig, hsym, hw]
        simp
      · rw [hi hw, ← List.sum_map_mul_left]
        congr 1
        apply List.map_congr_left
        intro c hc
        obtain ⟨hc, hb⟩ := List.mem_filter.1 hc
        have hb : base c = c' := of_decide_eq_true hb
        have ht := (hbase c hc).2.1
        rw [hb] at ht
        rw [← ht, if_pos hpr, hline c hc, hb, spin_eq hs, spin_eq hs, hf.wig, hsym]
        ring
    · rw [if_neg hpr]
      symm
      apply List.sum_eq_zero
      intro x hx
      obtain ⟨c, hc, rfl⟩ := List.mem_map.1 hx
      obtain ⟨hc, hb⟩ := List.mem_filter.1 hc
      have hb : base c = c' := of_decide_eq_true hb
      have ht := (hbase c hc).2.1
      rw [hb] at ht
      rw [← ht, if_neg hpr]
  · intro c hc
    obtain ⟨hc, hk'⟩ := List.mem_filter.1 hc
    have hk' : c.spectator.index = k := of_decide_eq_true hk'
    exact List.mem_filter.2 ⟨(hbase c hc).1, decide_eq_true ((hbase c hc).2.2.trans hk')⟩

theorem coefficientName_injective {R R' : String} (h : coefficientName R true true = coefficientName R' true true) :
    R = R' := by
  have h : ("\\mathcal{H}^\\mathrm{" ++ R ++ "}").toList = ("\\mathcal{H}^\\mathrm{" ++ R' ++ "}").toList :=
    congrArg String.toList h
  rw [String.toList_append, String.toList_append, String.toList_append, String.toList_append] at h
  exact String.toList_inj.1 (List.append_cancel_left (List.append_cancel_right h))

/-- Helicities with given values of resonance, spectator `k` and decay products `i`, `j`. -/
def fourHelicities (i j k : ℤ) : List ℚ → ℤ → ℚ
  | [x, y, z, w], n => if n = k then y else if n = i then z else if n = j then w else x - y
  | _, _ => 0

open Classical in
/-- The helicity coefficients that belong to LS coefficients. -/
noncomputable def helicityCoefficients (ι : Interp) (b b' : Builder) (base : Chain → Chain) (name : String)
    (x : List ℚ) : ℂ :=
  match b'.decay.chains.find? fun c' => name = coefficientName c'.resonance.toP.latex true true with
  | none => 0
  | some c' =>
    let k := c'.spectator.index
    let l := fourHelicities (prodIds k).1 (prodIds k).2 k x
    ((b.decay.chains.filter fun c => base c = c').map fun c =>
      ι.idx (coefficientName c'.resonance.toP.latex false false) none
        (couplingIndices false c.incomingLs 0 0 ++ couplingIndices false c.outgoingLs 0 0) *
      decayFactor ι b c l * productionFactor ι b c (l 0 + l k) (l k)).sum

/-- C79: for every model in the LS basis and all values of its coefficients there are values of the
helicity coefficients for which the model in the helicity basis has the same value, with all other
parameters and variables the same. The resonances of the chains in the helicity basis must have
different LaTeX names, and the lineshapes must not depend on the LS couplings. -/
theorem C79_every_ls_model (base : Chain → Chain) (hd : Standard b.decay) (hd' : Standard b'.decay)
    (hs : b'.decay.states = b.decay.states)
    (hp : b.useProdHel = false) (hq : b.useDecHel = false)
    (hp' : b'.useProdHel = true) (hq' : b'.useDecHel = true)
    (hbase : ∀ c ∈ b.decay.chains, base c ∈ b'.decay.chains ∧
      (base c).resonance.toP = c.resonance.toP ∧ (base c).spectator.index = c.spectator.index)
    (hn : (b'.decay.chains.map fun c => c.resonance.toP.latex).Nodup)
    (hdyn : Lineshapes b dyn) (hdyn' : Lineshapes b' dyn')
    (hfree : ∀ c ∈ b.decay.chains, HelicityFree (dyn c).expression)
    (hfree' : ∀ c ∈ b'.decay.chains, HelicityFree (dyn' c).expression)
    (hres : ∀ c ∈ b.decay.chains, c.resonance ≠ .state c.spectator)
    {r : ℤ} (hr : r = 1 ∨ r = 2 ∨ r = 3)
    (h : b.formulate (some r) cl true = .ok m) (h' : b'.formulate (some r) cl' true = .ok m')
    {η : Sym → ℚ} (ι : Interp)
    (hline : ∀ c ∈ b.decay.chains, ∀ idx, (dyn c).expression.eval ι η =
      (dyn' (base c)).expression.eval { ι with idx := idx } η) :
    ∃ idx, m.fullExpression.eval ι η = m'.fullExpression.eval { ι with idx := idx } η := by
  refine ⟨fun name _ x => helicityCoefficients ι b b' base name x, ?_⟩
  refine C79_recoupling base hd hd' hs hp hq hp' hq' hbase hn.of_map hdyn hdyn' hfree hfree' hres hr h h'
    ⟨rfl, rfl, rfl, rfl, rfl⟩ rfl (fun c hc => hline c hc _) ?_
  intro c' hc' i j hijk l _ _ _
  have hfind : (b'.decay.chains.find? fun c => coefficientName c'.resonance.toP.latex true true =
      coefficientName c.resonance.toP.latex true true) = some c' := by
    rw [List.find?_eq_some_iff_append]
    refine ⟨by simp, ?_⟩
    obtain ⟨u, v, huv⟩ := List.append_of_mem hc'
    refine ⟨u, v, huv, fun x hx => ?_⟩
    simp only [Bool.not_eq_true', decide_eq_false_iff_not]
    intro he
    have he := coefficientName_injective he
    rw [huv, List.map_append, List.nodup_append] at hn
    exact hn.2.2 _ (List.mem_map.2 ⟨x, hx, rfl⟩) _ (List.mem_map.2 ⟨c', List.mem_cons_self, rfl⟩) he.symm
  show helicityCoefficients ι b b' base _ _ = _
  unfold helicityCoefficients
  rw [hfind]
  have hk3 : c'.spectator.index ∈ ([1, 2, 3] : List ℤ) := ((Standard.chain hd' hc').2.1 _ (by simp)).1
  have hprod : ((prodIds c'.spectator.index).1, (prodIds c'.spectator.index).2) = (i, j) := by
    rcases hijk with g | g | g <;> simp only [Prod.mk.injEq] at g <;> obtain ⟨rfl, rfl, g⟩ := g <;> rw [g] <;> rfl
  obtain ⟨e1, e2⟩ := Prod.mk.inj hprod
  simp only [e1, e2]
  generalize hk : c'.spectator.index = k at *
  have hl : ∀ n ∈ ([1, 2, 3] : List ℤ), fourHelicities i j k [l 0 + l k, l k, l i, l j] n = l n := by
    intro n hn
    simp only [List.mem_cons, List.not_mem_nil, or_false] at hn
    unfold fourHelicities
    rcases hijk with g | g | g <;> simp only [Prod.mk.injEq] at g <;> obtain ⟨rfl, rfl, rfl⟩ := g <;>
      rcases hn with rfl | rfl | rfl <;> simp
  have hl0 : fourHelicities i j k [l 0 + l k, l k, l i, l j] 0 = l 0 := by
    unfold fourHelicities
    rcases hijk with g | g | g <;> simp only [Prod.mk.injEq] at g <;> obtain ⟨rfl, rfl, rfl⟩ := g <;> simp
  rw [hl0, hl k hk3]
  congr 1
  apply List.map_congr_left
  intro c hc
  have hc := (List.mem_filter.1 hc).1
  have h2 := (Standard.chain hd hc).2.1
  have : decayFactor ι b c (fourHelicities i j k [l 0 + l k, l k, l i, l j]) = decayFactor ι b c l := by
    unfold decayFactor
    rw [hl _ (h2 c.product1 (by simp)).1, hl _ (h2 c.product2 (by simp)).1]
  rw [this]

/-! ### A concrete pair of decays: the `K*` with two production couplings -/

def exKD : Node :=
  .isobar (.state (exState "Lc" (1/2) 2 0))
    (.isobar (.particle ⟨"K*", "K^*", 1, some (-1), 9/10, 1/20⟩)
      (.leaf (.state (exState "pi" 0 (1/7) 2))) (.leaf (.state (exState "K" 0 (1/2) 3))) (some ⟨1, 0⟩))
    (.leaf (.state (exState "p" (1/2) 1 1))) (some ⟨2, 3/2⟩)

/-- The `K*` chain of the example decay, produced in a D-wave. -/
def exChainKD : Chain := { exChainK with decay := exKD, incomingLs := some ⟨2, 3/2⟩ }

def exDecayLS : Decay := ⟨exStates, [exChainK, exChainKD, exChainL]⟩

def exBuilderLS : Builder := ⟨exDecayLS, Configurator.init exDecayLS, false, false, false⟩

theorem exDecayLS_standard : Standard exDecayLS := by
  have h := exDecay_standard
  refine ⟨⟨?_, ?_⟩, h.keys, h.index, h.spins, ?_⟩
  · obtain ⟨-, s0, h0, hall⟩ := (decayNew_ok _ _ _).1 h.valid.1
    rw [decayNew_ok]
    refine ⟨rfl, s0, h0, fun c hc => ?_⟩
    simp only [exDecayLS, List.mem_cons, List.not_mem_nil, or_false] at hc
    rcases hc with rfl | rfl | rfl
    · exact hall exChainK (by simp [exDecay])
    · exact hall exChainK (by simp [exDecay])
    · exact hall exChainL (by simp [exDecay])
  · intro c hc
    simp only [exDecayLS, List.mem_cons, List.not_mem_nil, or_false] at hc
    rcases hc with rfl | rfl | rfl
    · exact h.valid.2 _ (by simp [exDecay])
    · exact (chainNew_shape _ _ _ _ _ _ _ exKD (.inl rfl)).trans rfl
    · exact h.valid.2 _ (by simp [exDecay])
  · intro c hc
    simp only [exDecayLS, List.mem_cons, List.not_mem_nil, or_false] at hc
    rcases hc with rfl | rfl | rfl
    · exact h.resonances exChainK (by simp [exDecay])
    · exact h.resonances exChainK (by simp [exDecay])
    · exact h.resonances exChainL (by simp [exDecay])

theorem exBuilderLS_lineshapes : Lineshapes exBuilderLS (fun _ => {}) := by
  intro c hc
  simp only [exBuilderLS, exDecayLS, List.mem_cons, List.not_mem_nil, or_false] at hc
  rcases hc with rfl | rfl | rfl <;> exact ⟨unitDynamics, rfl, rfl⟩

theorem exBuilderLS_ok (cl uc : Bool) : ∃ m, exBuilderLS.formulate (some 1) cl uc = .ok m := by
  have := C36_missing_ls (b := exBuilderLS) (reference := some 1) exDecayLS_standard
    exBuilderLS_lineshapes (by rintro x ⟨⟩; simp) (by simp) cl uc
  apply this.2
  rw [Ne, this.1]
  rintro ⟨-, c, hc, h⟩
  simp only [exBuilderLS, exDecayLS, List.mem_cons, List.not_mem_nil, or_false] at hc
  rcases hc with rfl | rfl | rfl <;>
    exact h ⟨fun _ => by simp [exChainK, exChainKD, exChainL], fun _ => by simp [exChainK, exChainKD, exChainL]⟩

/-- The S-wave and D-wave production of the `K*` together are one chain of the helicity basis. -/
example (ι : Interp) (η : Sym → ℚ) : ∃ m m' idx, exBuilderLS.formulate (some 1) true true = .ok m ∧
    (exBuilder true true false).formulate (some 1) true true = .ok m' ∧
    m.fullExpression.eval ι η = m'.fullExpression.eval { ι with idx := idx } η := by
  obtain ⟨m, hm⟩ := exBuilderLS_ok true true
  obtain ⟨m', hm'⟩ := exBuilder_ok true true false true true
  obtain ⟨idx, h⟩ := C79_every_ls_model (b := exBuilderLS) (b' := exBuilder true true false)
    (fun c => if c.resonance = exChainK.resonance then exChainK else exChainL)
    exDecayLS_standard exDecay_standard rfl rfl rfl rfl rfl (by
      intro c hc
      simp only [exBuilderLS, exDecayLS, List.mem_cons, List.not_mem_nil, or_false] at hc
      rcases hc with rfl | rfl | rfl
      · simp [exBuilder, exDecay]
      · rw [if_pos (show exChainKD.resonance = exChainK.resonance from rfl)]; exact ⟨by simp [exBuilder, exDecay], rfl, rfl⟩
      · rw [if_neg (by simp [exChainK, exChainL])]; exact ⟨by simp [exBuilder, exDecay], rfl, rfl⟩)
    (by simp [exBuilder, exDecay, exChainK, exChainL, Obj.toP]) exBuilderLS_lineshapes
    (exBuilder_lineshapes _ _ _) (fun _ _ => exFree) (fun _ _ => exFree) (by
      intro c hc
      simp only [exBuilderLS, exDecayLS, List.mem_cons, List.not_mem_nil, or_false] at hc
      rcases hc with rfl | rfl | rfl <;> simp [exChainK, exChainKD, exChainL]) (.inl rfl) hm hm' ι
    (fun _ _ _ => rfl)
  exact ⟨m, m', idx, hm, hm', h⟩

end Verif.ThreeBody
