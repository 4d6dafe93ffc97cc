import Verif.Proofs.Division
import Verif.Props.Closure

/-! Property C81: no division by zero. -/
namespace Verif.ThreeBody
open Verif Verif.Spec Verif.Spin

variable {b : Builder} {dyn : Chain → DefExpr} {cl uc : Bool} {reference : Option ℤ}
  {m : AmplitudeModel} {ι : Interp}

theorem safe_termBody {c : Chain} {e : Expr} {lam spin : ℤ → ℚ} {i j k : ℤ} {θ : Sym} {η : Sym → ℚ}
    (he : NoZeroDivision ι η e) : NoZeroDivision ι η (termBody b c e lam spin i j k θ uc) := by
  have h1 : NoZeroDivision ι η (decCG c lam) := ⟨⟨trivial, trivial⟩, trivial⟩
  have h2 : NoZeroDivision ι η (prodCG c lam k) := by
    unfold prodCG
    simp only
    split <;> exact ⟨⟨trivial, trivial⟩, trivial⟩
  have h3 : ∀ sc : Scaling, NoZeroDivision ι η sc.product := by
    intro sc
    cases sc
    · exact ⟨trivial, trivial⟩
    · trivial
  have h4 : ∀ sc, NoZeroDivision ι η (subAmpExpr lam spin i j k c.resonance.toP.spin e θ sc) := fun sc =>
    ⟨⟨⟨⟨⟨trivial, trivial⟩, he⟩, trivial⟩, h3 sc⟩, trivial⟩
  unfold termBody
  simp only [mul_def]
  cases b.useDecHel <;> cases b.useProdHel
  · exact ⟨⟨h4 _, h1⟩, h2⟩
  · exact ⟨h4 _, h1⟩
  · exact ⟨h4 _, h2⟩
  · exact h4 _

theorem safe_ampExpr {k : ℤ} {l : ℚ × ℚ × ℚ × ℚ} {η : Sym → ℚ}
    (hl : ∀ c ∈ b.decay.chains, ∀ η, NoZeroDivision ι η (dyn c).expression) :
    NoZeroDivision ι η (ampExpr b dyn uc k l) := by
  unfold ampExpr
  rw [Expr.safe_addAll]
  intro e he
  obtain ⟨c, hc, rfl⟩ := List.mem_map.1 he
  intro a _
  exact safe_termBody (hl c (List.mem_filter.1 hc).1 _)

theorem undivided_alignTerm (ref : ℤ) (j : ℤ → ℚ) (h : ℤ → Hel) (k : ℤ) :
    (alignTerm ref j h k).Undivided := by
  have hw : ∀ i m mp, (wigFactor ref (j i) m mp i k).Undivided := by
    intro i m mp
    unfold wigFactor
    split <;> trivial
  exact ⟨⟨⟨⟨trivial, hw _ _ _⟩, hw _ _ _⟩, hw _ _ _⟩, hw _ _ _⟩

/-- C81: the full expression of a formulated model contains no division by zero at points at which the
lineshapes contain none. All other factors are free of divisions. -/
theorem C81_formulated (hd : Standard b.decay) (hdyn : Lineshapes b dyn) (hr : RefOk reference)
    (h : b.formulate reference cl uc = .ok m)
    (hl : ∀ c ∈ b.decay.chains, ∀ η, NoZeroDivision ι η (dyn c).expression) (η : Sym → ℚ) :
    NoZeroDivision ι η m.fullExpression := by
  obtain ⟨ref, P, -, hr', -, rfl, hP⟩ := formulate_inv hd hdyn hr h
  refine Expr.safe_xreplace _ ?_ _ (Expr.flat_doit _ _) (Expr.undivided_doit _ _ ?_)
  · intro x hx
    obtain ⟨y, hy, rfl⟩ := List.mem_map.1 hx
    apply Expr.safe_doit
    obtain ⟨z, -, rfl⟩ := List.mem_map.1 (PyDict.mem_ofItems hy)
    exact safe_ampExpr hl
  · have : (alignedExpr b ref fun i => .sym (lambdaSym i)).Undivided := by
      refine (Expr.undivided_addAll _).2 ?_
      intro e he
      obtain ⟨k, -, rfl⟩ := List.mem_map.1 he
      exact undivided_alignTerm _ _ _ _
    cases cl
    · exact this
    · exact Expr.undivided_cleanup this

/-- The width that `BreitWignerBuilder` uses: a function of the energy or a constant. -/
noncomputable def usedWidth (ι : Interp) (bw : BreitWignerBuilder) (c : Chain) (R : Particle) : ℂ :=
  if bw.energyDependentWidth then
    ι.edw bw.phsp (ι.sym (mandelstam c.spectator.index)) (ι.sym (massOfResonance R))
      (ι.sym (widthOfResonance R)) (ι.sym (massOfState c.product1.index))
      (ι.sym (massOfState c.product2.index)) (angularMomentum c.outgoingLs) (ι.sym resonanceRadius)
  else ι.sym (widthOfResonance R)

/-- C81: the lineshape of `BreitWignerBuilder` contains a division by zero exactly at
`s = m² - i m Γ`. -/
theorem C81_breit_wigner {bw : BreitWignerBuilder} {c : Chain} {R : Particle} {first : Bool} {e : DefExpr}
    (hc : PlainChain c R first) (hid : NumberedFinalState c) (he : bw.call c = .ok e) (η : Sym → ℚ) :
    NoZeroDivision ι η e.expression ↔ ι.sym (massOfResonance R) ^ 2 - ι.sym (mandelstam c.spectator.index) -
      Complex.I * ι.sym (massOfResonance R) * usedWidth ι bw c R ≠ 0 := by
  have h1 : NoZeroDivision ι η (decFFExpr c) := ⟨trivial, trivial, trivial, trivial⟩
  have h2 : NoZeroDivision ι η (prodFFExpr c R first) := ⟨trivial, trivial, trivial, trivial⟩
  have h3 : NoZeroDivision ι η (bareExpr bw c R) ↔ ι.sym (massOfResonance R) ^ 2 -
      ι.sym (mandelstam c.spectator.index) -
      Complex.I * ι.sym (massOfResonance R) * usedWidth ι bw c R ≠ 0 := by
    unfold bareExpr usedWidth
    cases bw.energyDependentWidth
    · simp only [Bool.false_eq_true, if_false]
      constructor
      · intro h
        refine fun h' => h.2.2 (Eq.trans ?_ h')
        show ι.sym (massOfResonance R) ^ 2 - ι.sym (mandelstam c.spectator.index) -
          ι.sym (massOfResonance R) * ι.sym (widthOfResonance R) * Complex.I = _
        ring
      · intro h
        refine ⟨trivial, ⟨⟨trivial, trivial⟩, ⟨trivial, trivial⟩, trivial⟩, fun h' => h (Eq.trans ?_ h')⟩
        show _ = ι.sym (massOfResonance R) ^ 2 - ι.sym (mandelstam c.spectator.index) -
          ι.sym (massOfResonance R) * ι.sym (widthOfResonance R) * Complex.I
        ring
    · simp only [if_true]
      constructor
      · intro h
        refine fun h' => h.2.2 (Eq.trans ?_ h')
        show ι.sym (massOfResonance R) ^ 2 - ι.sym (mandelstam c.spectator.index) -
          ι.edw bw.phsp (ι.sym (mandelstam c.spectator.index)) (ι.sym (massOfResonance R))
            (ι.sym (widthOfResonance R)) (ι.sym (massOfState c.product1.index))
            (ι.sym (massOfState c.product2.index)) (angularMomentum c.outgoingLs) (ι.sym resonanceRadius) *
            ι.sym (massOfResonance R) * Complex.I = _
        ring
      · intro h
        refine ⟨⟨trivial, trivial⟩, ⟨⟨trivial, trivial⟩,
          ⟨⟨trivial, trivial, trivial, trivial, trivial, trivial⟩, trivial⟩, trivial⟩,
          fun h' => h (Eq.trans ?_ h')⟩
        show _ = ι.sym (massOfResonance R) ^ 2 - ι.sym (mandelstam c.spectator.index) -
          ι.edw bw.phsp (ι.sym (mandelstam c.spectator.index)) (ι.sym (massOfResonance R))
            (ι.sym (widthOfResonance R)) (ι.sym (massOfState c.product1.index))
            (ι.sym (massOfState c.product2.index)) (angularMomentum c.outgoingLs) (ι.sym resonanceRadius) *
            ι.sym (massOfResonance R) * Complex.I
        ring
  rw [← h3, (call_ok_inv hc hid he).2.1]
  unfold builtExpr
  simp only [mul_def]
  cases bw.decayFormFactor <;> cases bw.productionFormFactor
  · exact Iff.rfl
  · exact ⟨fun h => h.1, fun h => ⟨h, h2⟩⟩
  · exact ⟨fun h => h.1, fun h => ⟨h, h1⟩⟩
  · exact ⟨fun h => h.1.1, fun h => ⟨⟨h, h1⟩, h2⟩⟩

/-- Real energies, positive masses and widths: the Breit-Wigner denominator is not zero. -/
theorem denominator_ne {s m Γ : ℝ} (hm : 0 < m) (hΓ : 0 < Γ) :
    ((m : ℂ) ^ 2 - s - Complex.I * m * Γ) ≠ 0 := by
  intro h
  have := congrArg Complex.im h
  simp [← Complex.ofReal_pow] at this
  rcases this with h | h
  · exact hm.ne' h
  · exact hΓ.ne' h

/-- C81: a model with Breit-Wigner lineshapes, or none, can be evaluated without division by zero
wherever the Mandelstam variables are real and the masses and widths of the resonances are positive. -/
theorem C81_physical (hd : Standard b.decay) (hdyn : Lineshapes b dyn) (hr : RefOk reference)
    (h : b.formulate reference cl uc = .ok m)
    (hl : ∀ c ∈ b.decay.chains, dyn c = {} ∨ ∃ bw R first, PlainChain c R first ∧
      NumberedFinalState c ∧ BreitWignerBuilder.call bw c = .ok (dyn c) ∧
      ∃ s M Γ : ℝ, ι.sym (mandelstam c.spectator.index) = s ∧ ι.sym (massOfResonance R) = M ∧ 0 < M ∧
        usedWidth ι bw c R = Γ ∧ 0 < Γ) (η : Sym → ℚ) :
    NoZeroDivision ι η m.fullExpression := by
  refine C81_formulated hd hdyn hr h (fun c hc η => ?_) η
  rcases hl c hc with h | ⟨bw, R, first, h1, h2, h3, s, M, Γ, e1, e2, hM, e3, hΓ⟩
  · rw [h]; trivial
  · rw [C81_breit_wigner h1 h2 h3, e1, e2, e3]
    exact denominator_ne hM hΓ

/-- A point at which the Breit-Wigner of the example is finite, and one where it is not: the bare
condition is about the values of the parameters. -/
example : ∃ (e : DefExpr) (ι ι' : Interp), ({} : BreitWignerBuilder).call exChainK = .ok e ∧
    (∀ η, NoZeroDivision ι η e.expression) ∧ ∀ η, ¬ NoZeroDivision ι' η e.expression := by
  obtain ⟨e, he⟩ := exK_lineshape
  let ι : Interp := ⟨fun _ => 1, fun _ _ _ => 0, fun _ _ _ _ => 0, fun _ _ _ _ _ _ => 0,
    fun _ _ _ _ _ => 0, fun _ _ _ _ _ _ _ _ => 1, fun _ _ _ => 0⟩
  refine ⟨e, ι, { ι with edw := fun _ _ _ _ _ _ _ _ => 0 }, he, fun η => ?_, fun η => ?_⟩
  · rw [C81_breit_wigner exK_plain exK_numbered he]
    show ((1 : ℂ) ^ 2 - 1 - Complex.I * 1 * 1) ≠ 0
    simp
  · rw [C81_breit_wigner exK_plain exK_numbered he]
    show ¬ ((1 : ℂ) ^ 2 - 1 - Complex.I * 1 * 0) ≠ 0
    simp

/-- The lineshapes of the example with a Breit-Wigner for the `K*` and none for the `Λ`. -/
theorem exBW_lineshapes {e : DefExpr} (he : ({} : BreitWignerBuilder).call exChainK = .ok e) :
    Lineshapes exBreitWigner fun c => if c = exChainK then e else {} := by
  have hne : exChainL ≠ exChainK := fun h => by
    have := congrArg (fun c : Chain => c.spectator.index) h
    simp [exChainL, exChainK, exState] at this
  intro c hc
  simp only [exBreitWigner, exBuilder, exDecay, List.mem_cons, List.not_mem_nil, or_false] at hc
  rcases hc with rfl | rfl
  · refine ⟨({} : BreitWignerBuilder).call, ?_, by simp only [if_true]; exact he⟩
    change Except.ok ((PyDict.get? [(exChainK, ({} : BreitWignerBuilder).call)] exChainK).getD unitDynamics) = _
    rw [PyDict.get?_cons, if_pos rfl]; rfl
  · refine ⟨unitDynamics, ?_, by simp only [if_neg hne]; rfl⟩
    change Except.ok ((PyDict.get? [(exChainK, ({} : BreitWignerBuilder).call)] exChainL).getD unitDynamics) = _
    rw [PyDict.get?_cons, if_neg (Ne.symm hne)]; rfl

example : ∃ (m : AmplitudeModel) (ι : Interp), exBreitWigner.formulate (some 1) true false = .ok m ∧
    ∀ η, NoZeroDivision ι η m.fullExpression := by
  obtain ⟨e, he⟩ := exK_lineshape
  have hM : ¬ Missing exBreitWigner := by
    rw [missing_iff (b := exBreitWigner) exDecay_standard]
    rintro ⟨-, c, hc, h⟩
    exact h (exBuilder_ls true false false hc)
  obtain ⟨P, hP, -⟩ := formulate_ok (b := exBreitWigner) (reference := some 1)
    exDecay_standard (exBW_lineshapes he) (ref := 1) rfl (by simp) true false hM
  let ι : Interp := ⟨fun _ => 1, fun _ _ _ => 0, fun _ _ _ _ => 0, fun _ _ _ _ _ _ => 0,
    fun _ _ _ _ _ => 0, fun _ _ _ _ _ _ _ _ => 1, fun _ _ _ => 0⟩
  refine ⟨_, ι, hP, C81_physical exDecay_standard (exBW_lineshapes he) (by simp [RefOk]) hP ?_⟩
  intro c hc
  simp only [exBreitWigner, exBuilder, exDecay, List.mem_cons, List.not_mem_nil, or_false] at hc
  rcases hc with rfl | rfl
  · refine .inr ⟨{}, _, true, exK_plain, exK_numbered, by simp only [if_true]; exact he, 1, 1, 1, ?_, ?_,
      one_pos, ?_, one_pos⟩ <;> exact Complex.ofReal_one.symm
  · left
    rw [if_neg]
    intro h
    have := congrArg (fun c : Chain => c.spectator.index) h
    simp [exChainL, exChainK, exState] at this

end Verif.ThreeBody
