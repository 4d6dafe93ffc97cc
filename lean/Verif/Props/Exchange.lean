import Verif.Proofs.Exchange
import Verif.Props.Superposition
import Verif.Props.Closure

/-! Property C80: exchange of two identical spinless particles. -/
namespace Verif.ThreeBody
open Verif Verif.Spec Verif.Spin Verif.Angles Verif.Wigner

variable {b : Builder} {dyn : Chain → DefExpr} {cl uc : Bool} {reference : Option ℤ}
  {m : AmplitudeModel} {ι ι' : Interp} {x y : ℤ}

theorem swap_mem {k : ℤ} (hx : x ∈ ([1, 2, 3] : List ℤ)) (hy : y ∈ ([1, 2, 3] : List ℤ))
    (hk : k ∈ ([1, 2, 3] : List ℤ)) : Equiv.swap x y k ∈ ([1, 2, 3] : List ℤ) := by
  rw [Equiv.swap_apply_def]
  split_ifs <;> assumption

theorem theta_form {k : ℤ} (hk : k ∈ ([1, 2, 3] : List ℤ)) :
    thetaExpr k = scatE (prodIds k).1 (prodIds k).2 k ∧ IsPerm123 (prodIds k).1 (prodIds k).2 k := by
  have hp : IsPerm123 (prodIds k).1 (prodIds k).2 k := by
    simp only [List.mem_cons, List.not_mem_nil, or_false] at hk
    rcases hk with rfl | rfl | rfl <;> unfold IsPerm123 <;> decide
  refine ⟨?_, hp⟩
  have h1 := theta_eq hk
  rw [scat_forms hp] at h1
  injection h1 with h1
  injection h1 with _ h1
  exact h1.symm

theorem theta_symbol {k : ℤ} (hk : k ∈ ([1, 2, 3] : List ℤ)) :
    thetaSym (prodIds k).1 (prodIds k).2 = helicityAngle k := by
  simp only [List.mem_cons, List.not_mem_nil, or_false] at hk
  rcases hk with rfl | rfl | rfl <;> decide +kernel

theorem swap_prodIds {k : ℤ} (hx : x ∈ ([1, 2, 3] : List ℤ)) (hy : y ∈ ([1, 2, 3] : List ℤ)) (hxy : x ≠ y)
    (hk : k ∈ ([1, 2, 3] : List ℤ)) : Equiv.swap x y (prodIds k).1 = (prodIds (Equiv.swap x y k)).2 ∧
      Equiv.swap x y (prodIds k).2 = (prodIds (Equiv.swap x y k)).1 := by
  simp only [List.mem_cons, List.not_mem_nil, or_false] at hk hx hy
  rcases hk with rfl | rfl | rfl <;> rcases hx with rfl | rfl | rfl <;> rcases hy with rfl | rfl | rfl <;>
    first | exact absurd rfl hxy | decide

theorem theta_exchange (hx : x ∈ ([1, 2, 3] : List ℤ)) (hy : y ∈ ([1, 2, 3] : List ℤ)) (hxy : x ≠ y)
    (he : Exchanged x y ι ι') (hs : SumRule fun s => (ι.sym s).re) {k : ℤ} (hk : k ∈ ([1, 2, 3] : List ℤ)) :
    (thetaExpr k).eval (fun s => (ι'.sym s).re) =
      ((thetaExpr (Equiv.swap x y k)).eval fun s => (ι.sym s).re).map fun θ => Real.pi - θ := by
  obtain ⟨h1, p1⟩ := theta_form hk
  obtain ⟨h2, p2⟩ := theta_form (swap_mem hx hy hk)
  have hp := perm_mem p1
  rw [h1, h2, ← scat_swap hs p2]
  obtain ⟨e1, e2⟩ := swap_prodIds hx hy hxy hk
  rw [← e1, ← e2]
  have hin : ∀ z ∈ [(prodIds k).1, (prodIds k).2, k], z ∈ ([1, 2, 3] : List ℤ) := fun z hz => p1.subset hz
  refine scat_rename (Equiv.swap x y) ?_ ?_ ?_
  · exact congrArg Complex.re (he.masses 0 (by simp))
  · intro z hz
    refine congrArg Complex.re ((he.masses z (mem0 (hin z hz))).trans ?_)
    rw [Equiv.swap_apply_def]
    split_ifs with g1 g2
    · rw [g1]; exact he.equal
    · rw [g2]; exact he.equal.symm
    · rfl
  · intro z hz
    exact congrArg Complex.re (he.mandelstam z (hin z hz))

theorem theta_mem (hd : Standard b.decay) (hdyn : Lineshapes b dyn) (hr : RefOk reference)
    (h : b.formulate reference cl uc = .ok m) (h0 : NonnegSpins b.decay) {c : Chain} (hc : c ∈ b.decay.chains) :
    (helicityAngle c.spectator.index, thetaExpr c.spectator.index) ∈ m.angleDefs := by
  obtain ⟨ref, P, -, -, -, rfl, -⟩ := formulate_inv hd hdyn hr h
  obtain ⟨l, hl⟩ := exists_projections hd h0
  have hk : c.spectator.index ∈ b.subsystems := subsystemIds_subset hd
    (((C18_partition hd.valid).1 _).2 ⟨c, hc, rfl⟩)
  have := angle_get?_theta (dyn := dyn) (ref := ref) (cl := cl) (uc := uc) (P := P) hd hk
    (l := (l 0, l 1, l 2, l 3)) ((mem_helicityTuples hd _).2 ?_)
  swap
  · intro i hi
    have := hl i hi
    simp only [List.mem_cons, List.not_mem_nil, or_false] at hi
    rcases hi with rfl | rfl | rfl | rfl <;> exact this
  rw [theta_symbol ((Standard.chain hd hc).2.1 c.spectator (by simp)).1] at this
  exact PyDict.mem_of_get? this

/-- C80: exchange of two identical particles takes the helicity angle of a subsystem to `π` minus that of
the exchanged subsystem. -/
theorem C80_helicity_angle (hd : Standard b.decay) (hdyn : Lineshapes b dyn) (hr : RefOk reference)
    (h : b.formulate reference cl uc = .ok m) (h0 : NonnegSpins b.decay)
    (hx : x ∈ ([1, 2, 3] : List ℤ)) (hy : y ∈ ([1, 2, 3] : List ℤ)) (hxy : x ≠ y)
    (he : Exchanged x y ι ι') (hs : SumRule fun s => (ι.sym s).re)
    (ha : ∀ d ∈ m.angleDefs, Computes ι d) (ha' : ∀ d ∈ m.angleDefs, Computes ι' d)
    {c c' : Chain} (hc : c ∈ b.decay.chains) (hc' : c' ∈ b.decay.chains) (hm : Mirrored x y c c') :
    ∃ θ : ℝ, ι.sym (helicityAngle c'.spectator.index) = θ ∧
      ι'.sym (helicityAngle c.spectator.index) = (Real.pi - θ : ℝ) := by
  have h3 : ∀ c ∈ b.decay.chains, c.spectator.index ∈ ([1, 2, 3] : List ℤ) := fun c hc =>
    ((Standard.chain hd hc).2.1 c.spectator (by simp)).1
  have key := fun c (hc : c ∈ b.decay.chains) => theta_mem hd hdyn hr h h0 hc
  obtain ⟨v, hv, e1⟩ := ha _ (key c' hc')
  obtain ⟨v', hv', e2⟩ := ha' _ (key c hc)
  refine ⟨v, e1, ?_⟩
  rw [e2]
  rw [theta_exchange hx hy hxy he hs (h3 c hc), ← hm.spectator, hv] at hv'
  exact congrArg _ (Option.some.inj hv').symm

theorem nonneg_of_spinless (hd : Standard b.decay) (h0 : ∀ i ∈ ([0, 1, 2, 3] : List ℤ), b.decay.spin i = 0) :
    NonnegSpins b.decay := by
  rintro ⟨i, s⟩ hm
  have hi : i ∈ ([0, 1, 2, 3] : List ℤ) := hd.keys.subset (List.mem_map.2 ⟨_, hm, rfl⟩)
  have g := PyDict.get?_of_mem (Standard.nodup hd) hm
  have := h0 i hi
  unfold Decay.spin Decay.st at this
  rw [g] at this
  exact this.ge

/-- Contribution of a chain to the amplitude of a decay of spinless particles (see C78). -/
noncomputable def spinlessTerm (ι : Interp) (η : Sym → ℚ) (b : Builder) (dyn : Chain → DefExpr) (uc : Bool)
    (c : Chain) : ℂ :=
  (dyn c).expression.eval ι η *
    ι.wig c.resonance.toP.spin 0 0 (ι.sym (helicityAngle c.spectator.index)) *
    couplings ι b c uc 0 0 0 0 * decayFactor ι b c (fun _ => 0) * productionFactor ι b c 0 0

open Classical in
/-- The chains with a resonance of integer spin. -/
noncomputable def integerChains (b : Builder) : List Chain :=
  b.decay.chains.filter fun c => 0 ≤ c.resonance.toP.spin ∧ IsInteger c.resonance.toP.spin

theorem spinless_factors (hd : Standard b.decay) (h0 : ∀ i ∈ ([0, 1, 2, 3] : List ℤ), b.decay.spin i = 0)
    {c : Chain} (hc : c ∈ b.decay.chains) :
    c.parent.spin = 0 ∧ c.product1.spin = 0 ∧ c.product2.spin = 0 ∧ c.spectator.spin = 0 := by
  obtain ⟨h1, h2, -⟩ := Standard.chain hd hc
  have key : ∀ s ∈ [c.product1, c.product2, c.spectator], s.spin = 0 := by
    intro s hs
    obtain ⟨h3, h4⟩ := h2 s hs
    rw [h4]
    exact h0 _ (mem0 h3)
  refine ⟨?_, key _ (by simp), key _ (by simp), key _ (by simp)⟩
  rw [h1]
  exact h0 0 (by simp)

/-- C80: for spinless particles, at the exchanged point each chain contributes as its exchanged chain does at
the original point, times `(-1)^J`. -/
theorem C80_exchanged_value (hd : Standard b.decay) (hdyn : Lineshapes b dyn) (hr : RefOk reference)
    (h : b.formulate reference cl uc = .ok m)
    (hfree : ∀ c ∈ b.decay.chains, HelicityFree (dyn c).expression)
    (hres : b.useProdHel = false → ∀ c ∈ b.decay.chains, c.resonance ≠ .state c.spectator)
    (h0 : ∀ i ∈ ([0, 1, 2, 3] : List ℤ), b.decay.spin i = 0)
    (hx : x ∈ ([1, 2, 3] : List ℤ)) (hy : y ∈ ([1, 2, 3] : List ℤ)) (hxy : x ≠ y)
    (he : Exchanged x y ι ι') (hs : SumRule fun s => (ι.sym s).re)
    (ha : ∀ d ∈ m.angleDefs, Computes ι d) (ha' : ∀ d ∈ m.angleDefs, Computes ι' d)
    {D : ℚ → ℚ → ℚ → ℝ → ℝ} (hD : UsesWignerD ι D) (hD' : Reflects D)
    {mirror : Chain → Chain} (hm : ExchangeClosed x y b.decay mirror) {η : Sym → ℚ}
    (hline : ∀ c ∈ b.decay.chains, (dyn c).expression.eval ι' η = (dyn (mirror c)).expression.eval ι η) :
    m.fullExpression.eval ι η = (‖((integerChains b).map (spinlessTerm ι η b dyn uc)).sum‖ ^ 2 : ℝ) ∧
    m.fullExpression.eval ι' η = (‖((integerChains b).map fun c =>
      (-1) ^ ⌊c.resonance.toP.spin⌋.toNat * spinlessTerm ι η b dyn uc c).sum‖ ^ 2 : ℝ) := by
  classical
  refine ⟨C78_spinless hd hdyn hr h hfree hres h0 ι η, ?_⟩
  rw [C78_spinless hd hdyn hr h hfree hres h0 ι' η]
  refine congrArg _ (congrArg (‖·‖ ^ 2) ?_)
  unfold integerChains
  rw [sum_filter, sum_filter]
  refine Eq.trans ?_ (List.Perm.sum_eq (hm.1.map _))
  rw [List.map_map]
  refine congrArg List.sum (List.map_congr_left fun c hc => ?_)
  have hc' : mirror c ∈ b.decay.chains := hm.1.subset (List.mem_map.2 ⟨c, hc, rfl⟩)
  have hmc := hm.2 c hc
  rw [Function.comp_apply, hmc.resonance]
  by_cases hJ : 0 ≤ c.resonance.toP.spin ∧ IsInteger c.resonance.toP.spin
  swap
  · rw [if_neg hJ, if_neg hJ]
  rw [if_pos hJ, if_pos hJ]
  obtain ⟨J, hJ⟩ : ∃ J : ℕ, c.resonance.toP.spin = J := by
    obtain ⟨h1, z, hz⟩ := hJ
    have : 0 ≤ z := by
      have : (0 : ℚ) ≤ z := by rw [← hz]; exact h1
      exact_mod_cast this
    obtain ⟨n, rfl⟩ := Int.eq_ofNat_of_zero_le this
    exact ⟨n, by rw [hz]; simp⟩
  obtain ⟨θ, e1, e2⟩ := C80_helicity_angle hd hdyn hr h (nonneg_of_spinless hd h0) hx hy hxy he hs ha ha' hc hc' hmc
  obtain ⟨a1, a2, a3, a4⟩ := spinless_factors hd h0 hc
  obtain ⟨b1, b2, b3, b4⟩ := spinless_factors hd h0 hc'
  have f1 : couplings ι' b c uc 0 0 0 0 = couplings ι b (mirror c) uc 0 0 0 0 := by
    unfold couplings
    rw [he.couplings, hmc.resonance, hmc.incoming, hmc.outgoing]
  have f2 : decayFactor ι' b c (fun _ => 0) = decayFactor ι b (mirror c) (fun _ => 0) := by
    unfold decayFactor lsFactor
    rw [he.functions.cg, hmc.resonance, hmc.outgoing, a2, a3, b2, b3]
  have f3 : productionFactor ι' b c 0 0 = productionFactor ι b (mirror c) 0 0 := by
    unfold productionFactor lsFactor
    rw [he.functions.cg, hmc.resonance, hmc.incoming, a1, a4, b1, b4]
    simp only [hmc.order]
  unfold spinlessTerm
  rw [hline c hc, f1, f2, f3, e1, e2, hmc.resonance, ← he.functions.wig, hJ, hD, hD, hD', Int.floor_natCast,
    Int.toNat_natCast]
  push_cast
  ring

/-- C80, the part that holds: with identical spinless particles the intensity is symmetric if the
resonances have even spins only, or odd spins only. Missing: decays with resonances of even and of odd
spin, see `C80_exchange_fails`. -/
theorem C80_exchange_partial (hd : Standard b.decay) (hdyn : Lineshapes b dyn) (hr : RefOk reference)
    (h : b.formulate reference cl uc = .ok m)
    (hfree : ∀ c ∈ b.decay.chains, HelicityFree (dyn c).expression)
    (hres : b.useProdHel = false → ∀ c ∈ b.decay.chains, c.resonance ≠ .state c.spectator)
    (h0 : ∀ i ∈ ([0, 1, 2, 3] : List ℤ), b.decay.spin i = 0)
    (hx : x ∈ ([1, 2, 3] : List ℤ)) (hy : y ∈ ([1, 2, 3] : List ℤ)) (hxy : x ≠ y)
    (he : Exchanged x y ι ι') (hs : SumRule fun s => (ι.sym s).re)
    (ha : ∀ d ∈ m.angleDefs, Computes ι d) (ha' : ∀ d ∈ m.angleDefs, Computes ι' d)
    {D : ℚ → ℚ → ℚ → ℝ → ℝ} (hD : UsesWignerD ι D) (hD' : Reflects D)
    {mirror : Chain → Chain} (hm : ExchangeClosed x y b.decay mirror) {η : Sym → ℚ}
    (hline : ∀ c ∈ b.decay.chains, (dyn c).expression.eval ι' η = (dyn (mirror c)).expression.eval ι η)
    (hpar : (∀ c ∈ b.decay.chains, ∀ J : ℕ, c.resonance.toP.spin = J → Even J) ∨
      ∀ c ∈ b.decay.chains, ∀ J : ℕ, c.resonance.toP.spin = J → Odd J) :
    m.fullExpression.eval ι' η = m.fullExpression.eval ι η := by
  classical
  obtain ⟨h1, h2⟩ := C80_exchanged_value hd hdyn hr h hfree hres h0 hx hy hxy he hs ha ha' hD hD' hm hline
  rw [h1, h2]
  have hnat : ∀ c ∈ integerChains b, c ∈ b.decay.chains ∧
      c.resonance.toP.spin = (⌊c.resonance.toP.spin⌋.toNat : ℕ) := by
    intro c hc
    obtain ⟨hc, hJ⟩ := List.mem_filter.1 hc
    obtain ⟨hJ, z, hz⟩ := of_decide_eq_true hJ
    refine ⟨hc, ?_⟩
    have : 0 ≤ z := by
      have : (0 : ℚ) ≤ z := by rw [← hz]; exact hJ
      exact_mod_cast this
    obtain ⟨n, rfl⟩ := Int.eq_ofNat_of_zero_le this
    rw [hz, Int.floor_intCast]
    simp
  refine congrArg _ ?_
  have key : ∀ s : ℂ, ‖s‖ = 1 → (∀ c ∈ integerChains b, (-1) ^ ⌊c.resonance.toP.spin⌋.toNat = s) →
      ‖((integerChains b).map fun c => (-1) ^ ⌊c.resonance.toP.spin⌋.toNat * spinlessTerm ι η b dyn uc c).sum‖ ^ 2 =
        ‖((integerChains b).map (spinlessTerm ι η b dyn uc)).sum‖ ^ 2 := by
    intro s h1 hs
    rw [List.map_congr_left (g := fun c => s * spinlessTerm ι η b dyn uc c) fun c hc => by rw [hs c hc],
      List.sum_map_mul_left, norm_mul, h1, one_mul]
  rcases hpar with hpar | hpar
  · refine key 1 (by simp) fun c hc => ?_
    obtain ⟨h1, h2⟩ := hnat c hc
    exact (hpar c h1 _ h2).neg_one_pow
  · refine key (-1) (by simp) fun c hc => ?_
    obtain ⟨h1, h2⟩ := hnat c hc
    exact (hpar c h1 _ h2).neg_one_pow

/-! An example: `D → π π K`, where each resonance decays to the `K` and either of the two pions. -/

def bsStates : PyDict ℤ State :=
  [(0, exState "D" 0 2 0), (1, exState "pi" 0 (1/7) 1), (2, exState "pi" 0 (1/7) 2),
   (3, exState "K" 0 (1/2) 3)]

def bsNode1 (R : Particle) : Node :=
  .isobar (.state (exState "D" 0 2 0))
    (.isobar (.particle R) (.leaf (.state (exState "pi" 0 (1/7) 2))) (.leaf (.state (exState "K" 0 (1/2) 3))) none)
    (.leaf (.state (exState "pi" 0 (1/7) 1))) none

def bsNode2 (R : Particle) : Node :=
  .isobar (.state (exState "D" 0 2 0))
    (.isobar (.particle R) (.leaf (.state (exState "K" 0 (1/2) 3))) (.leaf (.state (exState "pi" 0 (1/7) 1))) none)
    (.leaf (.state (exState "pi" 0 (1/7) 2))) none

def bsChain1 (R : Particle) : Chain :=
  ⟨bsNode1 R, exState "D" 0 2 0, .particle R, exState "pi" 0 (1/7) 2, exState "K" 0 (1/2) 3,
    exState "pi" 0 (1/7) 1, none, none⟩

def bsChain2 (R : Particle) : Chain :=
  ⟨bsNode2 R, exState "D" 0 2 0, .particle R, exState "K" 0 (1/2) 3, exState "pi" 0 (1/7) 1,
    exState "pi" 0 (1/7) 2, none, none⟩

def bsDecay (Rs : List Particle) : Decay := ⟨bsStates, Rs.flatMap fun R => [bsChain1 R, bsChain2 R]⟩

def bsMirror (c : Chain) : Chain :=
  if c.spectator.index = 1 then bsChain2 c.resonance.toP else bsChain1 c.resonance.toP

theorem bs_mem {Rs : List Particle} {c : Chain} (hc : c ∈ (bsDecay Rs).chains) :
    ∃ R ∈ Rs, c = bsChain1 R ∨ c = bsChain2 R := by
  obtain ⟨R, hR, hc⟩ := List.mem_flatMap.1 hc
  simp only [List.mem_cons, List.not_mem_nil, or_false] at hc
  exact ⟨R, hR, hc⟩

theorem bsDecay_closed (Rs : List Particle) : ExchangeClosed 1 2 (bsDecay Rs) bsMirror := by
  constructor
  · unfold bsDecay
    induction Rs with
    | nil => exact .nil
    | cons R Rs ih =>
      simp only [List.flatMap_cons, List.map_append]
      exact List.Perm.append (List.Perm.swap _ _ _) ih
  · intro c hc
    obtain ⟨R, -, rfl | rfl⟩ := bs_mem hc
    · exact ⟨rfl, (Equiv.swap_apply_left (1 : ℤ) 2).symm, rfl, rfl, iff_of_true ⟨_, _, _, _, _, _, _, rfl⟩ ⟨_, _, _, _, _, _, _, rfl⟩⟩
    · exact ⟨rfl, (Equiv.swap_apply_right (1 : ℤ) 2).symm, rfl, rfl, iff_of_true ⟨_, _, _, _, _, _, _, rfl⟩ ⟨_, _, _, _, _, _, _, rfl⟩⟩

theorem bsDecay_standard {Rs : List Particle} (hR : ∀ R ∈ Rs, IsHalfInteger R.spin) : Standard (bsDecay Rs) := by
  refine ⟨⟨?_, ?_⟩, by show (PyDict.keys bsStates).Perm [0, 1, 2, 3]; decide, ?_, ?_, ?_⟩
  · have hf : (finalStateDict bsStates).map Prod.snd =
        [exState "pi" 0 (1/7) 1, exState "pi" 0 (1/7) 2, exState "K" 0 (1/2) 3] := rfl
    have : checkChains (exState "D" 0 2 0) ((finalStateDict bsStates).map Prod.snd)
        (bsDecay Rs).chains = .ok () := by
      rw [checkChains_ok, hf]
      intro c hc
      obtain ⟨R, -, rfl | rfl⟩ := bs_mem hc
      · refine ⟨rfl, fun s => ?_⟩
        simp only [bsChain1, List.mem_cons, List.not_mem_nil, or_false]
      · refine ⟨rfl, fun s => ?_⟩
        simp only [bsChain2, List.mem_cons, List.not_mem_nil, or_false]
        tauto
    have h0 : initialState (bsDecay Rs).states = .ok (exState "D" 0 2 0) := rfl
    unfold Decay.new
    rw [h0]
    simp only [bind, Except.bind]
    rw [show (bsDecay Rs).states = bsStates from rfl, this]; rfl
  · intro c hc
    obtain ⟨R, -, rfl | rfl⟩ := bs_mem hc
    · exact (chainNew_shape _ _ _ _ _ _ _ (bsNode1 R) (.inl rfl)).trans rfl
    · exact (chainNew_shape _ _ _ _ _ _ _ (bsNode2 R) (.inl rfl)).trans rfl
  · intro x hx
    simp only [bsDecay, bsStates, List.mem_cons, List.not_mem_nil, or_false] at hx
    rcases hx with rfl | rfl | rfl | rfl <;> rfl
  · intro x hx
    simp only [bsDecay, bsStates, List.mem_cons, List.not_mem_nil, or_false] at hx
    rcases hx with rfl | rfl | rfl | rfl <;> exact ⟨0, by norm_num [exState]⟩
  · intro c hc
    obtain ⟨R, h, rfl | rfl⟩ := bs_mem hc <;> exact hR R h

theorem bsDecay_spinless (Rs : List Particle) : ∀ i ∈ ([0, 1, 2, 3] : List ℤ), (bsDecay Rs).spin i = 0 := by
  intro i hi
  simp only [List.mem_cons, List.not_mem_nil, or_false] at hi
  rcases hi with rfl | rfl | rfl | rfl <;> rfl

def bsBuilder (Rs : List Particle) : Builder :=
  ⟨bsDecay Rs, Configurator.init (bsDecay Rs), true, true, false⟩

theorem bsBuilder_lineshapes (Rs : List Particle) : Lineshapes (bsBuilder Rs) (fun _ => {}) := by
  intro c hc
  refine ⟨unitDynamics, ?_, rfl⟩
  show Configurator.getBuilder (Configurator.init (bsDecay Rs)) unitDynamics (.name c.resonance.toP.name) = _
  cases hf : (bsDecay Rs).findChain c.resonance.toP.name with
  | ok c' =>
    show (Except.bind ((bsDecay Rs).findChain c.resonance.toP.name) _) = _
    rw [hf]
    rfl
  | error e =>
    exfalso
    unfold Decay.findChain at hf
    cases hf' : (bsDecay Rs).chains.find? fun c' => c'.resonance.toP.name = c.resonance.toP.name with
    | some c' => rw [hf'] at hf; cases hf
    | none =>
      rw [List.find?_eq_none] at hf'
      exact hf' c hc (by simp)

theorem bsBuilder_ok {Rs : List Particle} (hR : ∀ R ∈ Rs, IsHalfInteger R.spin) (hne : Rs ≠ []) (cl uc : Bool) :
    ∃ m, (bsBuilder Rs).formulate none cl uc = .ok m := by
  have := C36_missing_ls (b := bsBuilder Rs) (reference := none) (bsDecay_standard hR)
    (bsBuilder_lineshapes _) (by rintro x ⟨⟩) (fun _ => by
      obtain ⟨R, Rs, rfl⟩ := List.exists_cons_of_ne_nil hne
      simp [bsBuilder, bsDecay]) cl uc
  apply this.2
  rw [Ne, this.1]
  rintro ⟨-, c, -, h⟩
  exact h ⟨fun h => absurd h (by simp [bsBuilder]), fun h => absurd h (by simp [bsBuilder])⟩

/-- Masses `4`, `1`, `1`, `1`, couplings `1` and the Wigner functions, at a point of the Dalitz plot. -/
noncomputable def bsInterp (s1 s2 s3 : ℝ) : Interp :=
  ⟨fun s => if s.name = "m0" then 4 else if s.name = "sigma1" then s1
      else if s.name = "sigma2" then s2 else if s.name = "sigma3" then s3 else 1, fun _ _ _ => 1,
      fun j m m' z => (wignerD j m m' z.re : ℝ), fun _ _ _ _ _ _ => 0, fun _ _ _ _ _ => 0,
      fun _ _ _ _ _ _ _ _ => 0, fun _ _ _ => 0⟩

/-- The kinematic points `(σ1, σ2, σ3) = (7, 5, 7)` and `(5, 7, 7)` for the example. -/
theorem bs_points {Rs : List Particle} (hR : ∀ R ∈ Rs, IsHalfInteger R.spin) {cl uc : Bool}
    (h : (bsBuilder Rs).formulate none cl uc = .ok m) :
    ∃ ι ι' : Interp, Exchanged 1 2 ι ι' ∧ (SumRule fun s => (ι.sym s).re) ∧
      (∀ d ∈ m.angleDefs, Computes ι d) ∧ (∀ d ∈ m.angleDefs, Computes ι' d) ∧ UsesWignerD ι wignerD ∧
      (∀ n a l, ι.idx n a l = 1) ∧ (∀ i : ℤ, i ∈ ([1, 2, 3] : List ℤ) → ι.sym ⟨"m" ++ toString i, .nonneg⟩ = 1) ∧
      ι.sym ⟨"m0", .nonneg⟩ = 4 ∧ ι.sym ⟨"sigma1", .nonneg⟩ = 7 ∧ ι.sym ⟨"sigma2", .nonneg⟩ = 5 ∧
      ι.sym ⟨"sigma3", .nonneg⟩ = 7 := by
  have hkey : ∀ s : Sym, s.asm = .nonneg → s ∉ PyDict.keys m.angleDefs := by
    intro s hs hm
    obtain ⟨y, hy, rfl⟩ := List.mem_map.1 hm
    obtain ⟨ref, P, -, hr', -, rfl, -⟩ := formulate_inv (bsDecay_standard hR) (bsBuilder_lineshapes Rs)
      (by rintro x ⟨⟩) h
    rcases angleDefs_mem (b := bsBuilder Rs) (bsDecay_standard hR) hr' hy with
      ⟨k, -, rfl⟩ | ⟨i, -, k, -, rfl⟩
    · simp [thetaSym] at hs
    · simp [ThreeBody.zetaSym] at hs
  have h1 : DalitzInterior fun s => ((bsInterp 7 5 7).sym s).re := by
    constructor <;> simp [bsInterp, SumRule, BetweenThresholds, lam] <;> norm_num
  have h2 : DalitzInterior fun s => ((bsInterp 5 7 7).sym s).re := by
    constructor <;> simp [bsInterp, SumRule, BetweenThresholds, lam] <;> norm_num
  obtain ⟨ι, f1, i1, s1, a1⟩ := C72_evaluable (b := bsBuilder Rs) (bsDecay_standard hR)
    (bsBuilder_lineshapes Rs) (by rintro x ⟨⟩) h h1.region
  obtain ⟨ι', f2, i2, s2, a2⟩ := C72_evaluable (b := bsBuilder Rs) (bsDecay_standard hR)
    (bsBuilder_lineshapes Rs) (by rintro x ⟨⟩) h h2.region
  have v1 : ∀ n, ι.sym ⟨n, .nonneg⟩ = (bsInterp 7 5 7).sym ⟨n, .nonneg⟩ := fun n => s1 _ (hkey _ rfl)
  have v2 : ∀ n, ι'.sym ⟨n, .nonneg⟩ = (bsInterp 5 7 7).sym ⟨n, .nonneg⟩ := fun n => s2 _ (hkey _ rfl)
  have t0 : "m" ++ toString (0 : ℤ) = "m0" := by decide +kernel
  have t1 : "m" ++ toString (1 : ℤ) = "m1" := by decide +kernel
  have t2 : "m" ++ toString (2 : ℤ) = "m2" := by decide +kernel
  have t3 : "m" ++ toString (3 : ℤ) = "m3" := by decide +kernel
  have u1 : "sigma" ++ toString (1 : ℤ) = "sigma1" := by decide +kernel
  have u2 : "sigma" ++ toString (2 : ℤ) = "sigma2" := by decide +kernel
  have u3 : "sigma" ++ toString (3 : ℤ) = "sigma3" := by decide +kernel
  refine ⟨ι, ι', ⟨?_, i2.trans i1.symm, ?_, ?_, ?_⟩, ?_, a1, a2, ?_, ?_, ?_, ?_, ?_, ?_, ?_⟩
  · exact ⟨f1.wig.symm.trans f2.wig, f1.cg.symm.trans f2.cg, f1.ff.symm.trans f2.ff,
      f1.edw.symm.trans f2.edw, f1.bmom.symm.trans f2.bmom⟩
  · intro i hi
    rw [v1, v2]
    simp only [List.mem_cons, List.not_mem_nil, or_false] at hi
    rcases hi with rfl | rfl | rfl | rfl <;> simp only [t0, t1, t2, t3] <;> simp [bsInterp]
  · rw [v1, v1, t1, t2]; simp [bsInterp]
  · intro i hi
    rw [v1, v2]
    simp only [List.mem_cons, List.not_mem_nil, or_false] at hi
    rcases hi with rfl | rfl | rfl
    · rw [Equiv.swap_apply_left, u1, u2]; simp [bsInterp]
    · rw [Equiv.swap_apply_right, u1, u2]; simp [bsInterp]
    · rw [Equiv.swap_apply_of_ne_of_ne (by decide) (by decide), u3]; simp [bsInterp]
  · have := h1.sum
    unfold SumRule at this ⊢
    simpa [v1] using this
  · intro j a a' z
    rw [← f1.wig]
    simp [bsInterp]
  · intro n a l
    rw [i1]; rfl
  · intro i hi
    rw [v1]
    simp only [List.mem_cons, List.not_mem_nil, or_false] at hi
    rcases hi with rfl | rfl | rfl <;> simp only [t1, t2, t3] <;> simp [bsInterp]
  all_goals rw [v1]; simp [bsInterp]

def bsKappa : Particle := ⟨"kappa", "\\kappa", 0, some 1, 7/10, 1/2⟩
def bsKstar : Particle := ⟨"K*", "K^*", 1, some (-1), 9/10, 1/20⟩

/-- With the `K*` only, the hypotheses are met and the intensity is symmetric. -/
example : ∃ (m : AmplitudeModel) (ι ι' : Interp), (bsBuilder [bsKstar]).formulate none true true = .ok m ∧
    Exchanged 1 2 ι ι' ∧ ι.sym ⟨"sigma1", .nonneg⟩ ≠ ι.sym ⟨"sigma2", .nonneg⟩ ∧
    m.fullExpression.eval ι' (fun _ => 0) = m.fullExpression.eval ι (fun _ => 0) := by
  have hR : ∀ R ∈ [bsKstar], IsHalfInteger R.spin := by
    intro R hR
    rw [List.mem_singleton.1 hR]
    exact ⟨2, by norm_num [bsKstar]⟩
  obtain ⟨m, hm⟩ := bsBuilder_ok hR (by simp) true true
  obtain ⟨ι, ι', he, hs, ha, ha', hD, -, -, -, e1, e2, -⟩ := bs_points hR hm
  refine ⟨m, ι, ι', hm, he, by rw [e1, e2]; norm_num, ?_⟩
  refine C80_exchange_partial (b := bsBuilder [bsKstar]) (bsDecay_standard hR) (bsBuilder_lineshapes _)
    (by rintro x ⟨⟩) hm (fun _ _ => exFree) (by simp [bsBuilder]) (bsDecay_spinless _) (by simp) (by simp)
    (by decide) he hs ha ha' hD reflects (bsDecay_closed _) (fun _ _ => rfl) (.inr ?_)
  intro c hc J hJ
  obtain ⟨R, hR, rfl | rfl⟩ := bs_mem hc <;> rw [List.mem_singleton.1 hR] at hJ
  · have : (1 : ℚ) = J := hJ
    have : J = 1 := by exact_mod_cast this.symm
    exact this ▸ odd_one
  · have : (1 : ℚ) = J := hJ
    have : J = 1 := by exact_mod_cast this.symm
    exact this ▸ odd_one

/-- C80 is false with resonances of even and of odd spin: in `D → π π K` with a `κ` and a `K*` that each
decay to either pion, the intensity changes when the two pions are exchanged. -/
theorem C80_exchange_fails : ∃ (b : Builder) (dyn : Chain → DefExpr) (m : AmplitudeModel) (ι ι' : Interp)
    (mirror : Chain → Chain), Standard b.decay ∧ Lineshapes b dyn ∧ b.formulate none true true = .ok m ∧
    (∀ c ∈ b.decay.chains, dyn c = {}) ∧
    (∀ i ∈ ([0, 1, 2, 3] : List ℤ), b.decay.spin i = 0) ∧
    Exchanged 1 2 ι ι' ∧ (SumRule fun s => (ι.sym s).re) ∧
    (∀ d ∈ m.angleDefs, Computes ι d) ∧ (∀ d ∈ m.angleDefs, Computes ι' d) ∧ UsesWignerD ι wignerD ∧
    ExchangeClosed 1 2 b.decay mirror ∧
    m.fullExpression.eval ι' (fun _ => 0) ≠ m.fullExpression.eval ι (fun _ => 0) := by
  classical
  have hR : ∀ R ∈ [bsKappa, bsKstar], IsHalfInteger R.spin := by
    intro R hR
    simp only [List.mem_cons, List.not_mem_nil, or_false] at hR
    rcases hR with rfl | rfl
    · exact ⟨0, by norm_num [bsKappa]⟩
    · exact ⟨2, by norm_num [bsKstar]⟩
  obtain ⟨m, hm⟩ := bsBuilder_ok hR (by simp) true true
  obtain ⟨ι, ι', he, hs, ha, ha', hD, hidx, hmass, hm0, hs1, hs2, hs3⟩ := bs_points hR hm
  refine ⟨bsBuilder [bsKappa, bsKstar], fun _ => {}, m, ι, ι', bsMirror, bsDecay_standard hR,
    bsBuilder_lineshapes _, hm, fun _ _ => rfl, bsDecay_spinless _, he, hs, ha, ha', hD, bsDecay_closed _, ?_⟩
  obtain ⟨h1, h2⟩ := C80_exchanged_value (b := bsBuilder [bsKappa, bsKstar]) (η := fun _ => 0) (bsDecay_standard hR)
    (bsBuilder_lineshapes _) (by rintro x ⟨⟩) hm (fun _ _ => exFree) (by simp [bsBuilder])
    (bsDecay_spinless _) (by simp) (by simp) (by decide) he hs ha ha' hD reflects (bsDecay_closed _)
    (fun _ _ => rfl)
  rw [h1, h2]
  have hchains : integerChains (bsBuilder [bsKappa, bsKstar]) =
      [bsChain1 bsKappa, bsChain2 bsKappa, bsChain1 bsKstar, bsChain2 bsKstar] := by
    have i0 : 0 ≤ bsKappa.spin ∧ IsInteger bsKappa.spin := ⟨le_refl _, 0, by norm_num [bsKappa]⟩
    have i1 : 0 ≤ bsKstar.spin ∧ IsInteger bsKstar.spin := ⟨zero_le_one, 1, by norm_num [bsKstar]⟩
    show List.filter _ [bsChain1 bsKappa, bsChain2 bsKappa, bsChain1 bsKstar, bsChain2 bsKstar] = _
    rw [List.filter_eq_self]
    intro c hc
    simp only [List.mem_cons, List.not_mem_nil, or_false] at hc
    rcases hc with rfl | rfl | rfl | rfl
    · exact decide_eq_true i0
    · exact decide_eq_true i0
    · exact decide_eq_true i1
    · exact decide_eq_true i1
  have hterm : ∀ c, spinlessTerm ι (fun _ => 0) (bsBuilder [bsKappa, bsKstar]) (fun _ => {}) true c =
      ι.wig c.resonance.toP.spin 0 0 (ι.sym (helicityAngle c.spectator.index)) := by
    intro c
    have o : (({} : DefExpr).expression).eval ι (fun _ => 0) = 1 := by
      show ((1 : ℚ) : ℂ) = 1
      norm_num
    have hc : couplings ι (bsBuilder [bsKappa, bsKstar]) c true 0 0 0 0 = 1 := hidx _ _ _
    have d1 : decayFactor ι (bsBuilder [bsKappa, bsKstar]) c (fun _ => 0) = 1 := rfl
    have d2 : productionFactor ι (bsBuilder [bsKappa, bsKstar]) c 0 0 = 1 := rfl
    unfold spinlessTerm
    rw [o, hc, d1, d2]
    ring
  have angle : ∀ R ∈ [bsKappa, bsKstar], ∀ c, c = bsChain1 R ∨ c = bsChain2 R → ∃ θ : ℝ,
      (thetaExpr c.spectator.index).eval (fun s => (ι.sym s).re) = some θ ∧
      ι.sym (helicityAngle c.spectator.index) = θ := by
    intro R hmem c hc
    refine ha _ (theta_mem (b := bsBuilder [bsKappa, bsKstar]) (bsDecay_standard hR) (bsBuilder_lineshapes _)
      (by rintro x ⟨⟩) hm (nonneg_of_spinless (bsDecay_standard hR) (bsDecay_spinless _)) (c := c) ?_)
    refine List.mem_flatMap.2 ⟨R, hmem, ?_⟩
    rcases hc with rfl | rfl <;> simp
  obtain ⟨θ1, e1, f1⟩ := angle bsKstar (by simp) (bsChain1 bsKstar) (.inl rfl)
  obtain ⟨θ2, e2, f2⟩ := angle bsKstar (by simp) (bsChain2 bsKstar) (.inr rfl)
  have t0 : "m" ++ toString (0 : ℤ) = "m0" := by decide +kernel
  have u1 : "sigma" ++ toString (1 : ℤ) = "sigma1" := by decide +kernel
  have u2 : "sigma" ++ toString (2 : ℤ) = "sigma2" := by decide +kernel
  have u3 : "sigma" ++ toString (3 : ℤ) = "sigma3" := by decide +kernel
  have m0 : vm (fun s => (ι.sym s).re) 0 = 4 := by
    unfold vm; dsimp only; rw [t0, hm0]; norm_num
  have mi : ∀ i ∈ ([1, 2, 3] : List ℤ), vm (fun s => (ι.sym s).re) i = 1 := by
    intro i hi
    unfold vm; dsimp only; rw [hmass i hi]; norm_num
  have σ1 : vs (fun s => (ι.sym s).re) 1 = 7 := by unfold vs; dsimp only; rw [u1, hs1]; norm_num
  have σ2 : vs (fun s => (ι.sym s).re) 2 = 5 := by unfold vs; dsimp only; rw [u2, hs2]; norm_num
  have σ3 : vs (fun s => (ι.sym s).re) 3 = 7 := by unfold vs; dsimp only; rw [u3, hs3]; norm_num
  have cos1 : Real.cos θ1 ≠ 0 := by
    rw [show (bsChain1 bsKstar).spectator.index = 1 from rfl, (theta_form (by simp)).1,
      show (prodIds 1).1 = 2 from rfl, show (prodIds 1).2 = 3 from rfl] at e1
    obtain ⟨q, hq, e⟩ := scat_cos e1
    rw [e, scatNum, m0, mi 1 (by simp), mi 2 (by simp), mi 3 (by simp), σ1, σ3]
    exact div_ne_zero (by norm_num) hq.ne'
  have cos2 : Real.cos θ2 = 0 := by
    rw [show (bsChain2 bsKstar).spectator.index = 2 from rfl, (theta_form (by simp)).1,
      show (prodIds 2).1 = 3 from rfl, show (prodIds 2).2 = 1 from rfl] at e2
    obtain ⟨q, hq, e⟩ := scat_cos e2
    rw [e, scatNum, m0, mi 1 (by simp), mi 2 (by simp), mi 3 (by simp), σ1, σ2]
    norm_num
  have k0 : ∀ z : ℝ, ι.wig 0 0 0 (z : ℂ) = 1 := by
    intro z
    rw [hD, wignerD_zero]
    norm_num
  have k1 : ∀ z : ℝ, ι.wig 1 0 0 (z : ℂ) = (Real.cos z : ℝ) := by
    intro z
    rw [hD, wignerD_one]
  have v1 : spinlessTerm ι (fun _ => 0) (bsBuilder [bsKappa, bsKstar]) (fun _ => {}) true (bsChain1 bsKappa) = 1 := by
    rw [hterm]
    exact (congrArg _ f1).trans (k0 θ1)
  have v2 : spinlessTerm ι (fun _ => 0) (bsBuilder [bsKappa, bsKstar]) (fun _ => {}) true (bsChain2 bsKappa) = 1 := by
    rw [hterm]
    exact (congrArg _ f2).trans (k0 θ2)
  have v3 : spinlessTerm ι (fun _ => 0) (bsBuilder [bsKappa, bsKstar]) (fun _ => {}) true (bsChain1 bsKstar) =
      (Real.cos θ1 : ℝ) := by
    rw [hterm]
    exact (congrArg _ f1).trans (k1 θ1)
  have v4 : spinlessTerm ι (fun _ => 0) (bsBuilder [bsKappa, bsKstar]) (fun _ => {}) true (bsChain2 bsKstar) = 0 := by
    rw [hterm]
    exact ((congrArg _ f2).trans (k1 θ2)).trans (by rw [cos2]; norm_num)
  have p0 : ∀ c : Chain, c.resonance.toP.spin = 0 → (-1 : ℂ) ^ ⌊c.resonance.toP.spin⌋.toNat = 1 := by
    intro c hc
    rw [hc]
    simp
  have p1 : ∀ c : Chain, c.resonance.toP.spin = 1 → (-1 : ℂ) ^ ⌊c.resonance.toP.spin⌋.toNat = -1 := by
    intro c hc
    rw [hc]
    simp
  rw [hchains]
  simp only [List.map_cons, List.map_nil, List.sum_cons, List.sum_nil, v1, v2, v3, v4]
  rw [p0 (bsChain1 bsKappa) rfl, p0 (bsChain2 bsKappa) rfl, p1 (bsChain1 bsKstar) rfl]
  generalize Real.cos θ1 = z at cos1
  rw [Ne, Complex.ofReal_inj]
  have w1 : (1 * 1 + (1 * 1 + (-1 * (z : ℂ) + ((-1) ^ ⌊(bsChain2 bsKstar).resonance.toP.spin⌋.toNat * 0 + 0)))) =
    ((2 - z : ℝ) : ℂ) := by push_cast; ring
  have w2 : (1 + (1 + ((z : ℂ) + (0 + 0)))) = ((2 + z : ℝ) : ℂ) := by push_cast; ring
  rw [w1, w2, Complex.norm_real, Complex.norm_real, Real.norm_eq_abs, Real.norm_eq_abs, sq_abs, sq_abs]
  intro h
  exact cos1 (by nlinarith)

end Verif.ThreeBody
