import Verif.Model.DocsBuilders
import Verif.Props.Closure
import Verif.Props.Dynamics

/-!
Property C125: the custom dynamics builders of the documentation.
-/
namespace Verif.ThreeBody
open Verif Verif.Spec Verif.ThreeBody.Lineshape

variable {c : Chain} {R : Particle} {first : Bool} {e : DefExpr} {phsp : String}

/-- The parameter `\sigma_{R}^2` of the Gaussian lineshape. -/
def gaussianWidth (R : Particle) : Sym := ⟨"\\sigma_{" ++ R.latex ++ "}^2", .nonneg⟩

theorem decay_node (hc : PlainChain c R first) : c.decay.decayNode =
    .ok (.isobar (.particle R) (.leaf (.state c.product1)) (.leaf (.state c.product2)) c.outgoingLs) := by
  unfold PlainChain at hc
  rw [hc]
  cases first <;> rfl

theorem gaussian_eq (hc : PlainChain c R first) (hid : NumberedFinalState c) (hR : c.resonance = .particle R) :
    formulateGaussian c = .ok ⟨.exp (-((Expr.sqrt (.sym (mandelstam c.spectator.index)) - .sym (massOfResonance R)) ^ 2)
        / (2 * .sym (gaussianWidth R))),
      PyDict.ofItems [(.sym (massOfResonance R), .real R.mass), (.sym (gaussianWidth R), .real (R.width ^ 2))]⟩ := by
  unfold formulateGaussian
  simp only [decay_node hc, mandelstam_of_ids hid, hR, bind, Except.bind, pure, Except.pure]
  rfl

theorem mem_items_key {l : List (Key × Val)} {k : Key} (h : k ∈ l.map Prod.fst) : k ∈ PyDict.keys (PyDict.ofItems l) := by
  unfold PyDict.ofItems
  rw [PyDict.mem_keys_update]
  exact .inr h

/-- C125: `formulate_gaussian` returns for every chain; the parameters are the mass of the resonance and the
square of its width. -/
theorem C125_gaussian (hc : PlainChain c R first) (hid : NumberedFinalState c) (hR : c.resonance = .particle R) :
    ∃ e, formulateGaussian c = .ok e ∧ ClosedLineshape e ∧
      PyDict.get? e.parameters (.sym (massOfResonance R)) = some (.real R.mass) ∧
      PyDict.get? e.parameters (.sym (gaussianWidth R)) = some (.real (R.width ^ 2)) := by
  have hne : massOfResonance R ≠ gaussianWidth R := name_ne (head_res R) (y := '\\') (by
    simp [gaussianWidth, String.toList_append]) (by decide)
  refine ⟨_, gaussian_eq hc hid hR, ⟨rfl, rfl, ?_⟩, ?_, ?_⟩
  · intro s hs
    have hs' : s ∈ ([mandelstam c.spectator.index, massOfResonance R, gaussianWidth R] : List Sym) := hs
    simp only [List.mem_cons, List.not_mem_nil, or_false] at hs'
    rcases hs' with rfl | rfl | rfl
    · exact .inl (provided_mandelstam (hid.subset (by simp)))
    · exact .inr (mem_items_key (by simp))
    · exact .inr (mem_items_key (by simp))
  · rw [PyDict.get?_ofItems]
    simp [PyDict.get?, hne.symm]
  · rw [PyDict.get?_ofItems]
    simp [PyDict.get?]

/-- C125: its value is a Gaussian function of the mass `√σ`. -/
theorem C125_gaussian_value (hc : PlainChain c R first) (hid : NumberedFinalState c) (hR : c.resonance = .particle R)
    (h : formulateGaussian c = .ok e) (ι : Interp) (η : Sym → ℚ) {σ μ w : ℝ} (hσ : 0 ≤ σ)
    (h1 : ι.sym (mandelstam c.spectator.index) = σ) (h2 : ι.sym (massOfResonance R) = μ)
    (h3 : ι.sym (gaussianWidth R) = w) :
    e.expression.eval ι η = (Real.exp (-(Real.sqrt σ - μ) ^ 2 / (2 * w)) : ℝ) := by
  rw [gaussian_eq hc hid hR] at h
  cases h
  have hs : ((σ : ℂ) ^ (1 / 2 : ℂ)) = (Real.sqrt σ : ℝ) := by
    rw [Real.sqrt_eq_rpow, Complex.ofReal_cpow hσ]
    norm_num
  change Complex.exp (-((ι.sym (mandelstam c.spectator.index) ^ (1 / 2 : ℂ) - ι.sym (massOfResonance R)) ^ 2) /
    (((2 : ℚ) : ℂ) * ι.sym (gaussianWidth R))) = _
  rw [h1, h2, h3, hs]
  push_cast
  rfl

/-- C125: for a positive width it is at most 1, which it is exactly at the mass of the resonance. -/
theorem C125_gaussian_peak {σ μ w : ℝ} (hw : 0 < w) :
    0 < Real.exp (-(Real.sqrt σ - μ) ^ 2 / (2 * w)) ∧ Real.exp (-(Real.sqrt σ - μ) ^ 2 / (2 * w)) ≤ 1 ∧
    (Real.exp (-(Real.sqrt σ - μ) ^ 2 / (2 * w)) = 1 ↔ Real.sqrt σ = μ) := by
  have h0 : 0 ≤ (Real.sqrt σ - μ) ^ 2 / (2 * w) := by positivity
  refine ⟨Real.exp_pos _, ?_, ?_⟩
  · rw [Real.exp_le_one_iff, neg_div]
    linarith
  · rw [Real.exp_eq_one_iff, div_eq_zero_iff, neg_eq_zero, pow_eq_zero_iff two_ne_zero, sub_eq_zero]
    exact ⟨fun h => h.resolve_right (by positivity), .inl⟩

/-! ### `BreitWignerMinL` -/

theorem minL_eq (hc : PlainChain c R first) (hid : NumberedFinalState c) (hR : c.resonance = .particle R) {a b : LS}
    (ha : c.outgoingLs = some a) (hb : c.incomingLs = some b) :
    formulateBreitWignerMinL phsp c = .ok ⟨breitWignerMinL (.sym (mandelstam c.spectator.index))
        (.sym (massOfResonance c.parent.toParticle)) (.sym (massOfResonance c.spectator.toParticle)) (.sym (massOfResonance R))
        (.sym (widthOfResonance R)) (.sym (massOfState c.product1.index)) (.sym (massOfState c.product2.index)) a.L b.L
        (.sym resonanceRadius) (.sym ⟨"R_{\\Lambda_c}", .nonneg⟩) phsp,
      PyDict.ofItems [(.sym (massOfResonance c.parent.toParticle), .real c.parent.mass),
        (.sym (massOfResonance c.spectator.toParticle), .real c.spectator.mass),
        (.sym (massOfResonance R), .real R.mass), (.sym (widthOfResonance R), .real R.width),
        (.sym (massOfState c.product1.index), .real c.product1.mass),
        (.sym (massOfState c.product2.index), .real c.product2.mass),
        (.sym resonanceRadius, .real (3 / 2)), (.sym ⟨"R_{\\Lambda_c}", .nonneg⟩, .real 5)]⟩ := by
  unfold formulateBreitWignerMinL
  simp only [decay_node hc, mandelstam_of_ids hid, hR, ha, hb, couplingL, bind, Except.bind, pure, Except.pure]
  rfl

/-- C125: `formulate_breit_wigner` returns exactly if the chain has LS couplings at both nodes; otherwise it
raises `AttributeError`. -/
theorem C125_min_l_returns (hc : PlainChain c R first) (hid : NumberedFinalState c) (hR : c.resonance = .particle R) :
    ((∃ e, formulateBreitWignerMinL phsp c = .ok e) ↔ c.outgoingLs ≠ none ∧ c.incomingLs ≠ none) ∧
    (c.outgoingLs = none ∨ c.incomingLs = none → formulateBreitWignerMinL phsp c = .error .attributeError) := by
  have key : c.outgoingLs = none ∨ c.incomingLs = none → formulateBreitWignerMinL phsp c = .error .attributeError := by
    unfold formulateBreitWignerMinL
    simp only [decay_node hc, mandelstam_of_ids hid, bind, Except.bind]
    rintro (h | h)
    · rw [h]; rfl
    · rw [h]
      cases c.outgoingLs <;> rfl
  refine ⟨⟨fun ⟨e, he⟩ => ?_, fun ⟨h1, h2⟩ => ?_⟩, key⟩
  · by_contra hn
    rw [key (by tauto)] at he
    cases he
  · obtain ⟨a, ha⟩ := Option.ne_none_iff_exists'.1 h1
    obtain ⟨b, hb⟩ := Option.ne_none_iff_exists'.1 h2
    exact ⟨_, minL_eq hc hid hR ha hb⟩

/-- The inverse direction of `minL_eq`. -/
theorem minL_inv (hc : PlainChain c R first) (hid : NumberedFinalState c) (hR : c.resonance = .particle R)
    (h : formulateBreitWignerMinL phsp c = .ok e) : ∃ a b, c.outgoingLs = some a ∧ c.incomingLs = some b := by
  obtain ⟨h1, h2⟩ := (C125_min_l_returns (phsp := phsp) hc hid hR).1.1 ⟨e, h⟩
  obtain ⟨a, ha⟩ := Option.ne_none_iff_exists'.1 h1
  obtain ⟨b, hb⟩ := Option.ne_none_iff_exists'.1 h2
  exact ⟨a, b, ha, hb⟩

theorem massOfResonance_ne {p q : Particle} (h : p.latex ≠ q.latex) : massOfResonance p ≠ massOfResonance q := by
  intro h'
  refine h ?_
  have := congrArg (fun s : Sym => s.name.toList) h'
  simp only [massOfResonance, String.toList_append] at this
  exact String.toList_inj.1 (List.append_cancel_left (List.append_cancel_right this))

theorem bwMinL_syms (s t p m g a b r q : Sym) (l k : ℤ) : (breitWignerMinL (.sym s) (.sym t) (.sym p) (.sym m) (.sym g) (.sym a)
    (.sym b) l k (.sym r) (.sym q) phsp).syms =
    [t, s, p, q, t, m, p, q, m, s, m, s, m, g, a, b, r, s, a, b, r, m, a, b, r] := rfl

theorem minL_syms (hc : PlainChain c R first) (hid : NumberedFinalState c) (hR : c.resonance = .particle R)
    (h : formulateBreitWignerMinL phsp c = .ok e) {s : Sym} (hs : s ∈ e.expression.syms) :
    s = mandelstam c.spectator.index ∨ s = massOfResonance c.parent.toParticle ∨
    s = massOfResonance c.spectator.toParticle ∨ s = massOfResonance R ∨ s = widthOfResonance R ∨
    s = massOfState c.product1.index ∨ s = massOfState c.product2.index ∨ s = resonanceRadius ∨
    s = ⟨"R_{\\Lambda_c}", .nonneg⟩ := by
  obtain ⟨a, b, ha, hb⟩ := minL_inv hc hid hR h
  rw [minL_eq hc hid hR ha hb] at h
  cases h
  simp only [bwMinL_syms, List.mem_cons, List.not_mem_nil, or_false] at hs
  tauto

/-- C125: the lineshape leaves nothing undefined. -/
theorem C125_min_l_closed (hc : PlainChain c R first) (hid : NumberedFinalState c) (hR : c.resonance = .particle R)
    (h : formulateBreitWignerMinL phsp c = .ok e) : ClosedLineshape e := by
  refine ⟨?_, ?_, fun s hs => ?_⟩
  · obtain ⟨a, b, ha, hb⟩ := minL_inv hc hid hR h
    rw [minL_eq hc hid hR ha hb] at h
    cases h
    rfl
  · obtain ⟨a, b, ha, hb⟩ := minL_inv hc hid hR h
    rw [minL_eq hc hid hR ha hb] at h
    cases h
    rfl
  · have hs' := minL_syms hc hid hR h hs
    obtain ⟨a, b, ha, hb⟩ := minL_inv hc hid hR h
    rw [minL_eq hc hid hR ha hb] at h
    cases h
    rcases hs' with rfl | h
    · exact .inl (provided_mandelstam (hid.subset (by simp)))
    · refine .inr (mem_items_key ?_)
      simp only [List.map_cons, List.map_nil, List.mem_cons, List.not_mem_nil, or_false, Key.sym.injEq]
      exact h

/-- C125: if the LaTeX of the initial state, the spectator and the resonance are different, every parameter has the
value of the particle it is named after. -/
theorem C125_min_l_defaults (hc : PlainChain c R first) (hid : NumberedFinalState c) (hR : c.resonance = .particle R)
    (h : formulateBreitWignerMinL phsp c = .ok e) (h1 : c.parent.latex ≠ c.spectator.latex)
    (h2 : c.parent.latex ≠ R.latex) (h3 : c.spectator.latex ≠ R.latex) :
    PyDict.get? e.parameters (.sym (massOfResonance c.parent.toParticle)) = some (.real c.parent.mass) ∧
    PyDict.get? e.parameters (.sym (massOfResonance c.spectator.toParticle)) = some (.real c.spectator.mass) ∧
    PyDict.get? e.parameters (.sym (massOfResonance R)) = some (.real R.mass) ∧
    PyDict.get? e.parameters (.sym (widthOfResonance R)) = some (.real R.width) ∧
    PyDict.get? e.parameters (.sym (massOfState c.product1.index)) = some (.real c.product1.mass) ∧
    PyDict.get? e.parameters (.sym (massOfState c.product2.index)) = some (.real c.product2.mass) ∧
    PyDict.get? e.parameters (.sym resonanceRadius) = some (.real (3 / 2)) ∧
    PyDict.get? e.parameters (.sym ⟨"R_{\\Lambda_c}", .nonneg⟩) = some (.real 5) := by
  obtain ⟨a, b, ha, hb⟩ := minL_inv hc hid hR h
  rw [minL_eq hc hid hR ha hb] at h
  cases h
  have hi : c.product2.index ≠ c.product1.index := by
    have := hid.nodup_iff.2 (by decide)
    simp only [List.nodup_cons, List.mem_cons, not_or] at this
    exact fun h => this.1.1 h.symm
  have n1 : massOfResonance c.parent.toParticle ≠ massOfResonance c.spectator.toParticle := massOfResonance_ne h1
  have n2 : massOfResonance c.parent.toParticle ≠ massOfResonance R := massOfResonance_ne h2
  have n3 : massOfResonance c.spectator.toParticle ≠ massOfResonance R := massOfResonance_ne h3
  have n4 : massOfState c.product2.index ≠ massOfState c.product1.index := fun h => hi (massOfState_inj h)
  have n5 : ∀ i p, massOfState i ≠ massOfResonance p := massOfState_ne
  have n6 : ∀ i p, massOfState i ≠ widthOfResonance p := fun i p => name_ne (head_state i) (head_width p) (by decide)
  have n7 : ∀ q p, massOfResonance q ≠ widthOfResonance p := fun q p => name_ne (head_res q) (head_width p) (by decide)
  have n8 : ∀ p, massOfResonance p ≠ resonanceRadius := fun p => name_ne (head_res p) head_radius (by decide)
  have n9 : ∀ p, widthOfResonance p ≠ resonanceRadius := fun p => name_ne (head_width p) head_radius (by decide)
  have n10 : ∀ i, massOfState i ≠ resonanceRadius := fun p => name_ne (head_state p) head_radius (by decide)
  have hq : (⟨"R_{\\Lambda_c}", .nonneg⟩ : Sym).name.toList.head? = some 'R' := by decide
  have n11 : ∀ p, massOfResonance p ≠ ⟨"R_{\\Lambda_c}", .nonneg⟩ := fun p => name_ne (head_res p) hq (by decide)
  have n12 : ∀ p, widthOfResonance p ≠ ⟨"R_{\\Lambda_c}", .nonneg⟩ := fun p => name_ne (head_width p) hq (by decide)
  have n13 : ∀ i, massOfState i ≠ ⟨"R_{\\Lambda_c}", .nonneg⟩ := fun i => name_ne (head_state i) hq (by decide)
  have n14 : resonanceRadius ≠ ⟨"R_{\\Lambda_c}", .nonneg⟩ := by decide
  simp only [PyDict.get?_ofItems]
  refine ⟨?_, ?_, ?_, ?_, ?_, ?_, ?_, ?_⟩ <;>
    simp [PyDict.get?, n1.symm, n2.symm, n3.symm, n4, n5, n6, (n7 _ _).symm, (n8 _).symm, (n9 _).symm, (n10 _).symm,
      (n11 _).symm, (n12 _).symm, (n13 _).symm, n14.symm]

/-- C125: the mass `m0` of the initial state, in the angles, does not occur in the lineshape, which has another
parameter for the same mass. -/
theorem C125_parent_mass_twice (hc : PlainChain c R first) (hid : NumberedFinalState c) (hR : c.resonance = .particle R)
    (h : formulateBreitWignerMinL phsp c = .ok e) :
    massOfState 0 ∉ e.expression.syms ∧ massOfResonance c.parent.toParticle ∈ e.expression.syms ∧
    .sym (massOfResonance c.parent.toParticle) ∈ PyDict.keys e.parameters := by
  refine ⟨fun hs => ?_, ?_, ?_⟩
  · have h0 : (0 : ℤ) ∉ [c.product1.index, c.product2.index, c.spectator.index] := by
      rw [hid.mem_iff]; decide
    simp only [List.mem_cons, List.not_mem_nil, or_false, not_or] at h0
    rcases minL_syms hc hid hR h hs with h | h | h | h | h | h | h | h | h
    · exact name_ne (head_state 0) (y := 's') (by simp [mandelstam, String.toList_append]) (by decide) h
    · exact massOfState_ne _ _ h
    · exact massOfState_ne _ _ h
    · exact massOfState_ne _ _ h
    · exact name_ne (head_state 0) (head_width R) (by decide) h
    · exact h0.1 (massOfState_inj h)
    · exact h0.2.1 (massOfState_inj h)
    · exact name_ne (head_state 0) head_radius (by decide) h
    · exact name_ne (head_state 0) (y := 'R') (by decide) (by decide) h
  · obtain ⟨a, b, ha, hb⟩ := minL_inv hc hid hR h
    rw [minL_eq hc hid hR ha hb] at h
    cases h
    simp only [bwMinL_syms, List.mem_cons, true_or]
  · obtain ⟨a, b, ha, hb⟩ := minL_inv hc hid hR h
    rw [minL_eq hc hid hR ha hb] at h
    cases h
    exact mem_items_key (by simp)

/-- C125: the value of the lineshape, with form factors for the angular momentum of the production and of the decay
of the resonance. -/
theorem C125_min_l_value (hc : PlainChain c R first) (hid : NumberedFinalState c) (hR : c.resonance = .particle R)
    (h : formulateBreitWignerMinL phsp c = .ok e) (ι : Interp) (η : Sym → ℚ) {dec prod : LS}
    (hd : c.outgoingLs = some dec) (hp : c.incomingLs = some prod) {σ M ms m Γ m1 m2 r q : ℂ}
    (e1 : ι.sym (mandelstam c.spectator.index) = σ) (e2 : ι.sym (massOfResonance c.parent.toParticle) = M)
    (e3 : ι.sym (massOfResonance c.spectator.toParticle) = ms) (e4 : ι.sym (massOfResonance R) = m)
    (e5 : ι.sym (widthOfResonance R) = Γ) (e6 : ι.sym (massOfState c.product1.index) = m1)
    (e7 : ι.sym (massOfState c.product2.index) = m2) (e8 : ι.sym resonanceRadius = r)
    (e9 : ι.sym ⟨"R_{\\Lambda_c}", .nonneg⟩ = q) :
    e.expression.eval ι η = ι.ff (M ^ 2) (σ ^ (1 / 2 : ℂ)) ms prod.L q / ι.ff (M ^ 2) m ms prod.L q *
      (1 / (m ^ 2 - σ - Complex.I * m * ι.edw phsp σ m Γ m1 m2 dec.L r)) *
      (ι.ff σ m1 m2 dec.L r / ι.ff (m ^ 2) m1 m2 dec.L r) := by
  rw [minL_eq hc hid hR hd hp] at h
  cases h
  subst e1 e2 e3 e4 e5 e6 e7 e8 e9
  simp only [breitWignerMinL, Lineshape.eval_mul, Lineshape.eval_div, Lineshape.eval_sub, Lineshape.eval_pow,
    Expr.eval]
  norm_num

/-- C125: at the mass of the resonance the lineshape is `i/(m Γ)`. -/
theorem C125_min_l_pole (hc : PlainChain c R first) (hid : NumberedFinalState c) (hR : c.resonance = .particle R)
    (h : formulateBreitWignerMinL phsp c = .ok e) (ι : Interp) (η : Sym → ℚ) {m : ℝ} (hm : 0 < m)
    (h1 : ι.sym (massOfResonance R) = m) (h2 : ι.sym (mandelstam c.spectator.index) = m ^ 2)
    (h3 : ι.sym (widthOfResonance R) ≠ 0) (hff : ∀ L,
      ι.ff (m ^ 2) (ι.sym (massOfState c.product1.index)) (ι.sym (massOfState c.product2.index)) L (ι.sym resonanceRadius) ≠ 0)
    (hff' : ∀ L, ι.ff (ι.sym (massOfResonance c.parent.toParticle) ^ 2) m
      (ι.sym (massOfResonance c.spectator.toParticle)) L (ι.sym ⟨"R_{\\Lambda_c}", .nonneg⟩) ≠ 0)
    (hw : ∀ L, ι.edw phsp (m ^ 2) m (ι.sym (widthOfResonance R)) (ι.sym (massOfState c.product1.index))
      (ι.sym (massOfState c.product2.index)) L (ι.sym resonanceRadius) = ι.sym (widthOfResonance R)) :
    e.expression.eval ι η = Complex.I / (m * ι.sym (widthOfResonance R)) := by
  obtain ⟨a, b, ha, hb⟩ := minL_inv hc hid hR h
  rw [minL_eq hc hid hR ha hb] at h
  cases h
  have e1 : (Expr.sym (massOfResonance R)).eval ι η = (m : ℂ) := h1
  have e2 : (Expr.sym (mandelstam c.spectator.index)).eval ι η = (m : ℂ) ^ 2 := h2
  have e3 : (Expr.sym (widthOfResonance R)).eval ι η ≠ 0 := h3
  refine (C38_minL_normalised ι η (.sym (mandelstam c.spectator.index)) (.sym (massOfResonance c.parent.toParticle))
    (.sym (massOfResonance c.spectator.toParticle)) (.sym (massOfResonance R)) (.sym (widthOfResonance R))
    (.sym (massOfState c.product1.index)) (.sym (massOfState c.product2.index)) (.sym resonanceRadius)
    (.sym ⟨"R_{\\Lambda_c}", .nonneg⟩) a.L b.L phsp m e1 hm (by rw [e1, e2]) e3 (by rw [e1, e2]; exact hw _)
    (by rw [e2]; exact hff _) (by rw [e1]; exact hff' _)).trans ?_
  rw [e1]
  rfl

/-- C125: a model with these builders, `BreitWignerBuilder` or none for every chain leaves nothing undefined. -/
theorem C125_model_closed {b : Builder} {dyn : Chain → DefExpr} {reference : Option ℤ} {cl uc : Bool} {m : AmplitudeModel}
    (hd : Standard b.decay) (hdyn : Lineshapes b dyn) (hr : RefOk reference) (h : b.formulate reference cl uc = .ok m)
    (hl : ∀ c ∈ b.decay.chains, dyn c = {} ∨ ∃ R first, PlainChain c R first ∧ NumberedFinalState c ∧
      c.resonance = .particle R ∧ ((∃ bw, BreitWignerBuilder.call bw c = .ok (dyn c)) ∨
        formulateGaussian c = .ok (dyn c) ∨ ∃ phsp, formulateBreitWignerMinL phsp c = .ok (dyn c))) : Closed m := by
  refine C72_closed hd hdyn hr h fun c hc => ?_
  rcases hl c hc with h | ⟨R, first, h1, h2, h3, ⟨bw, h⟩ | h | ⟨phsp, h⟩⟩
  · rw [h]; exact closed_unit
  · exact C72_breit_wigner h1 h2 h
  · obtain ⟨e, he, hcl, -⟩ := C125_gaussian h1 h2 h3
    rw [h] at he
    cases he
    exact hcl
  · exact C125_min_l_closed h1 h2 h3 h

/-! ### Example: `BreitWignerMinL` for the `K*` and a Gaussian for the `Λ` -/

def exDocs : Builder :=
  { exBuilder true false false with
    dynamics := ⟨exDecay, [(exChainK, formulateBreitWignerMinL "PhaseSpaceFactor"), (exChainL, formulateGaussian)]⟩ }

/-- `exDocs` is the result of two calls to `register_builder`. -/
example : exDocs.dynamics = (((Configurator.init exDecay).registerBuilder (.name "K*")
    (formulateBreitWignerMinL "PhaseSpaceFactor")).2.registerBuilder (.name "L*") formulateGaussian).2 := by
  have h1 : exDecay.findChain "K*" = .ok exChainK := rfl
  have h2 : exDecay.findChain "L*" = .ok exChainL := rfl
  have hne : exChainK ≠ exChainL := fun h => by
    have := congrArg (fun c : Chain => c.spectator.index) h
    simp [exChainL, exChainK, exState] at this
  simp only [Configurator.registerBuilder, Configurator.getChain, Configurator.init, h1, h2, PyDict.set, exDocs, if_neg hne]

theorem exL_plain : PlainChain exChainL ⟨"L*", "L^*", 3/2, some (-1), 3/2, 1/60⟩ true := rfl

theorem exL_numbered : NumberedFinalState exChainL := by
  show [(3 : ℤ), 1, 2].Perm [1, 2, 3]
  decide

example : ∃ m, exDocs.formulate (some 1) true false = .ok m ∧ Closed m := by
  obtain ⟨e, he⟩ := (C125_min_l_returns (phsp := "PhaseSpaceFactor") exK_plain exK_numbered rfl).1.2
    ⟨by simp [exChainK], by simp [exChainK]⟩
  obtain ⟨g, hg, -⟩ := C125_gaussian exL_plain exL_numbered rfl
  let dyn : Chain → DefExpr := fun c => if c = exChainK then e else g
  have hne : exChainL ≠ exChainK := fun h => by
    have := congrArg (fun c : Chain => c.spectator.index) h
    simp [exChainL, exChainK, exState] at this
  have hK : dyn exChainK = e := if_pos rfl
  have hL : dyn exChainL = g := if_neg hne
  have hdyn : Lineshapes exDocs dyn := by
    intro c hc
    simp only [exDocs, exBuilder, exDecay, List.mem_cons, List.not_mem_nil, or_false] at hc
    rcases hc with rfl | rfl
    · refine ⟨formulateBreitWignerMinL "PhaseSpaceFactor", ?_, by rw [hK]; exact he⟩
      change Except.ok ((PyDict.get? exDocs.dynamics.builders exChainK).getD unitDynamics) = _
      rw [exDocs, PyDict.get?_cons, if_pos rfl]; rfl
    · refine ⟨formulateGaussian, ?_, by rw [hL]; exact hg⟩
      change Except.ok ((PyDict.get? exDocs.dynamics.builders exChainL).getD unitDynamics) = _
      rw [exDocs, PyDict.get?_cons, if_neg hne.symm, PyDict.get?_cons, if_pos rfl]; rfl
  have hM : ¬ Missing exDocs := by
    rw [missing_iff (b := exDocs) exDecay_standard]
    rintro ⟨-, c, hc, h⟩
    exact h (exBuilder_ls true false false hc)
  obtain ⟨P, hP, -⟩ := formulate_ok (b := exDocs) (reference := some 1)
    exDecay_standard hdyn (ref := 1) rfl (by simp) true false hM
  refine ⟨_, hP, C125_model_closed exDecay_standard hdyn (by simp [RefOk]) hP fun c hc => .inr ?_⟩
  simp only [exDocs, exBuilder, exDecay, List.mem_cons, List.not_mem_nil, or_false] at hc
  rcases hc with rfl | rfl
  · exact ⟨_, true, exK_plain, exK_numbered, rfl, .inr (.inr ⟨_, by rw [hK]; exact he⟩)⟩
  · exact ⟨_, true, exL_plain, exL_numbered, rfl, .inr (.inl (by rw [hL]; exact hg))⟩

/-- The other theorems for the `K*`. -/
example : ∃ e, formulateBreitWignerMinL "PhaseSpaceFactor" exChainK = .ok e ∧
    massOfState 0 ∉ e.expression.syms ∧
    PyDict.get? e.parameters (.sym ⟨"m_{Lc}", .nonneg⟩) = some (.real 2) ∧
    PyDict.get? e.parameters (.sym ⟨"m_{p}", .nonneg⟩) = some (.real 1) := by
  obtain ⟨e, he⟩ := (C125_min_l_returns (phsp := "PhaseSpaceFactor") exK_plain exK_numbered rfl).1.2
    ⟨by simp [exChainK], by simp [exChainK]⟩
  have hd := C125_min_l_defaults exK_plain exK_numbered rfl he (by decide) (by decide) (by decide)
  exact ⟨e, he, (C125_parent_mass_twice exK_plain exK_numbered rfl he).1, hd.1, hd.2.1⟩

example : ∃ (e : DefExpr) (ι : Interp), formulateBreitWignerMinL "PhaseSpaceFactor" exChainK = .ok e ∧
    e.expression.eval ι (fun _ => 0) = Complex.I / 9 := by
  obtain ⟨e, he⟩ := (C125_min_l_returns (phsp := "PhaseSpaceFactor") exK_plain exK_numbered rfl).1.2
    ⟨by simp [exChainK], by simp [exChainK]⟩
  let ι : Interp := { constInterp with sym := fun s => if s = mandelstam 1 then 9 else 3 }
  refine ⟨e, ι, he, ?_⟩
  have key : ∀ s, s ≠ mandelstam 1 → ι.sym s = 3 := fun s h => if_neg h
  have hw : ι.sym (widthOfResonance ⟨"K*", "K^*", 1, some (-1), 9/10, 1/20⟩) = 3 := key _ (by decide)
  rw [C125_min_l_pole exK_plain exK_numbered rfl he ι _ (m := 3) (by norm_num)]
  · rw [hw]; norm_num
  · rw [key _ (by decide)]; norm_num
  · norm_num [ι, exChainK, exState]
  · rw [hw]; norm_num
  · intro L; norm_num [ι, constInterp]
  · intro L; norm_num [ι, constInterp]
  · intro L; rfl

example : ∃ e, formulateGaussian exChainK = .ok e ∧ ∃ ι : Interp, e.expression.eval ι (fun _ => 0) =
    (Real.exp (-(Real.sqrt 4 - 3) ^ 2 / (2 * 3)) : ℝ) ∧ Real.exp (-(Real.sqrt 4 - 3) ^ 2 / (2 * 3)) < 1 := by
  obtain ⟨e, he, -⟩ := C125_gaussian exK_plain exK_numbered rfl
  let ι : Interp := { constInterp with sym := fun s => if s = mandelstam 1 then 4 else 3 }
  have key : ∀ s, s ≠ mandelstam 1 → ι.sym s = 3 := fun s h => if_neg h
  refine ⟨e, he, ι, C125_gaussian_value exK_plain exK_numbered rfl he ι _ (by norm_num) ?_ ?_ ?_, ?_⟩
  · norm_num [ι, exChainK, exState]
  · rw [key _ (by decide)]; norm_num
  · rw [key _ (by decide)]; norm_num
  · have h := C125_gaussian_peak (σ := 4) (μ := 3) (w := 3) (by norm_num)
    refine lt_of_le_of_ne h.2.1 fun h' => ?_
    have := h.2.2.1 h'
    rw [show (4 : ℝ) = 2 ^ 2 by norm_num, Real.sqrt_sq (by norm_num)] at this
    norm_num at this

example : ∃ (e : DefExpr) (ι : Interp), formulateBreitWignerMinL "PhaseSpaceFactor" exChainK = .ok e ∧
    e.expression.eval ι (fun _ => 0) = 1 / (5 - 9 * Complex.I) := by
  obtain ⟨e, he⟩ := (C125_min_l_returns (phsp := "PhaseSpaceFactor") exK_plain exK_numbered rfl).1.2
    ⟨by simp [exChainK], by simp [exChainK]⟩
  let ι : Interp :=
    { constInterp with ff := fun _ _ _ L _ => L + 1, sym := fun s => if s = mandelstam 1 then 4 else 3 }
  have key : ∀ s, s ≠ mandelstam 1 → ι.sym s = 3 := fun s h => if_neg h
  have h4 : ι.sym (mandelstam exChainK.spectator.index) = 4 := by norm_num [ι, exChainK, exState]
  refine ⟨e, ι, he, ?_⟩
  refine (C125_min_l_value exK_plain exK_numbered rfl he ι _ rfl rfl h4 (key _ ?_) (key _ ?_) (key _ ?_) (key _ ?_)
    (key _ ?_) (key _ ?_) (key _ ?_) (key _ ?_)).trans ?_
  all_goals try decide
  norm_num [ι, constInterp]
  ring_nf

/-- Without LS couplings the builder raises `AttributeError`. -/
example : ∃ c, c ∈ exNoLS.chains ∧ formulateBreitWignerMinL "PhaseSpaceFactor" c = .error .attributeError := by
  let c := exNoLS.chains.head (by simp [exNoLS])
  have hc : PlainChain c ⟨"K*", "K^*", 1, some (-1), 9/10, 1/20⟩ true := rfl
  exact ⟨c, List.head_mem _, (C125_min_l_returns hc exK_numbered rfl).2 (.inr rfl)⟩

end Verif.ThreeBody
