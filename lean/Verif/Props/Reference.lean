import Verif.Proofs.WignerExists
import Verif.Proofs.DalitzEvent
import Verif.Props.Amplitude
import Verif.Props.Region

/-!
Property C31: what the choice of the reference subsystem does to the intensity, at every point of the Dalitz
plot, also on its boundary and for all values of the parameters.
-/
namespace Verif.ThreeBody
open Verif Verif.Spec Verif.Spin

variable {b : Builder} {dyn : Chain → DefExpr} {cl₁ cl₂ uc : Bool} {m₁ m₂ : AmplitudeModel}
  {r₁ r₂ : ℤ} {ι : Interp} {ρ : Sym → ℝ} {D : ℚ → ℚ → ℚ → ℝ → ℝ}

/-- Value of `ζ^i_{j(k)}`. -/
noncomputable def zv (ρ : Sym → ℝ) (i j k : ℤ) : ℝ := ((zetaExpr i j k).eval ρ).getD 0

theorem zeta_defined (h : DalitzRegion ρ) {i j k : ℤ} (hi : i ∈ ([0, 1, 2, 3] : List ℤ))
    (hj : j ∈ ([1, 2, 3] : List ℤ)) (hk : k ∈ ([1, 2, 3] : List ℤ)) :
    (zetaExpr i j k).eval ρ = some (zv ρ i j k) := by
  have hz := zeta_eq hi hj hk
  have key : ∃ v, (zetaExpr i j k).eval ρ = some v := by
    by_cases hjk : j = k
    · subst hjk
      obtain ⟨s, hs⟩ := Angles.C13_zeta_symmetry.1 i hi j hj
      rw [hs] at hz
      injection hz with hz
      injection hz with h1 h2
      rw [← h2]
      exact ⟨((0 : ℕ) : ℚ), rfl⟩
    · obtain ⟨s, e, v, he, hv, -⟩ := (Angles.C120_defined h).2.2 i hi j hj k hk hjk
      rw [he] at hz
      injection hz with hz
      injection hz with h1 h2
      rw [← h2]
      exact ⟨v, hv⟩
  obtain ⟨v, hv⟩ := key
  unfold zv
  rw [hv]; rfl

theorem zv_self {i k : ℤ} (hi : i ∈ ([0, 1, 2, 3] : List ℤ)) (hk : k ∈ ([1, 2, 3] : List ℤ)) :
    zv ρ i k k = 0 := by
  have hz := zeta_eq hi hk hk
  obtain ⟨s, hs⟩ := Angles.C13_zeta_symmetry.1 i hi k hk
  rw [hs] at hz
  injection hz with hz
  injection hz with h1 h2
  unfold zv
  rw [← h2]
  change ((((0 : ℕ) : ℚ) : ℝ)) = 0
  simp

theorem zv_swap (h : DalitzRegion ρ) {i j k : ℤ} (hi : i ∈ ([0, 1, 2, 3] : List ℤ))
    (hj : j ∈ ([1, 2, 3] : List ℤ)) (hk : k ∈ ([1, 2, 3] : List ℤ)) :
    zv ρ i k j = -zv ρ i j k := by
  have := (Angles.C13_zeta_symmetry.2.2 i hi j hj k hk _ _ _ _ (zeta_eq hi hj hk) (zeta_eq hi hk hj) ρ
    (zv ρ i j k)).1 (zeta_defined h hi hj hk)
  unfold zv at this ⊢
  rw [this]; rfl

theorem zv_sum (h : DalitzRegion ρ) {i j l k : ℤ} (hi : i ∈ ([1, 2, 3] : List ℤ))
    (hj : j ∈ ([1, 2, 3] : List ℤ)) (hl : l ∈ ([1, 2, 3] : List ℤ)) (hk : k ∈ ([1, 2, 3] : List ℤ)) :
    zv ρ i j k = zv ρ i j l + zv ρ i l k := by
  obtain ⟨ev, hev, -⟩ := Angles.event_of_region h
  have hi' := Angles.mem0 hi
  exact (Angles.C14_zeta_sum_rule hev hi hj hl hk (zeta_eq hi' hj hl) (zeta_eq hi' hl hk) (zeta_eq hi' hj hk)
    (zeta_defined h hi' hj hl) (zeta_defined h hi' hl hk) (zeta_defined h hi' hj hk)).symm

theorem zv_turn (h : DalitzRegion ρ) : zv ρ 0 1 2 + zv ρ 0 2 3 = zv ρ 0 1 3 + 2 * Real.pi := by
  obtain ⟨ev, hev, hm, -⟩ := Angles.event_of_region h
  have h0 : (0 : ℤ) ∈ ([0, 1, 2, 3] : List ℤ) := by simp
  have h1 : (1 : ℤ) ∈ ([1, 2, 3] : List ℤ) := by simp
  have h2 : (2 : ℤ) ∈ ([1, 2, 3] : List ℤ) := by simp
  have h3 : (3 : ℤ) ∈ ([1, 2, 3] : List ℤ) := by simp
  exact Angles.C14_initial_state_turn hev hm (zeta_eq h0 h1 h2) (zeta_eq h0 h2 h3) (zeta_eq h0 h1 h3)
    (zeta_defined h h0 h1 h2) (zeta_defined h h0 h2 h3) (zeta_defined h h0 h1 h3)

theorem zv_initial (h : DalitzRegion ρ) {k : ℤ} (hk : k ∈ ([1, 2, 3] : List ℤ))
    (hr₁ : r₁ ∈ ([1, 2, 3] : List ℤ)) (hr₂ : r₂ ∈ ([1, 2, 3] : List ℤ)) (hne : r₁ ≠ r₂) :
    (k = r₁ ∨ k = r₂ → zv ρ 0 k r₂ = zv ρ 0 r₁ r₂ + zv ρ 0 k r₁) ∧
      (zv ρ 0 k r₂ = zv ρ 0 r₁ r₂ + zv ρ 0 k r₁ ∨
        zv ρ 0 k r₂ = zv ρ 0 r₁ r₂ + zv ρ 0 k r₁ + 2 * Real.pi ∨
        zv ρ 0 k r₂ = zv ρ 0 r₁ r₂ + zv ρ 0 k r₁ - 2 * Real.pi) ∧
      (k ≠ r₁ → k ≠ r₂ → zv ρ 0 k r₂ ≠ zv ρ 0 r₁ r₂ + zv ρ 0 k r₁) := by
  have h0 : (0 : ℤ) ∈ ([0, 1, 2, 3] : List ℤ) := by simp
  have h1 : (1 : ℤ) ∈ ([1, 2, 3] : List ℤ) := by simp
  have h2 : (2 : ℤ) ∈ ([1, 2, 3] : List ℤ) := by simp
  have h3 : (3 : ℤ) ∈ ([1, 2, 3] : List ℤ) := by simp
  have t := zv_turn h
  have s12 := zv_swap h h0 h1 h2
  have s23 := zv_swap h h0 h2 h3
  have s13 := zv_swap h h0 h1 h3
  have e1 := zv_self (ρ := ρ) h0 h1
  have e2 := zv_self (ρ := ρ) h0 h2
  have e3 := zv_self (ρ := ρ) h0 h3
  have hp := Real.pi_pos
  simp only [List.mem_cons, List.not_mem_nil, or_false] at hk hr₁ hr₂
  rcases hk with rfl | rfl | rfl <;> rcases hr₁ with rfl | rfl | rfl <;>
    rcases hr₂ with rfl | rfl | rfl <;>
    first
    | exact absurd rfl hne
    | (refine ⟨fun _ => ?_, .inl ?_, fun h1 h2 => ?_⟩
       · linarith
       · linarith
       · first | exact absurd rfl h1 | exact absurd rfl h2)
    | (refine ⟨fun h => ?_, .inr (.inl ?_), fun _ _ => ?_⟩
       · rcases h with h | h <;> norm_num at h
       · linarith
       · intro h; linarith)
    | (refine ⟨fun h => ?_, .inr (.inr ?_), fun _ _ => ?_⟩
       · rcases h with h | h <;> norm_num at h
       · linarith
       · intro h; linarith)

theorem fin4_mem (i : Fin 4) : ((i : ℕ) : ℤ) ∈ ([0, 1, 2, 3] : List ℤ) := by
  fin_cases i <;> simp

/-- The alignment angles of a formulated model. -/
theorem zeta_value (hd : Standard b.decay) (hρ : DalitzRegion ρ) {r : ℤ}
    (hr : r ∈ ([1, 2, 3] : List ℤ)) {cl : Bool} {P : PyDict Key Val}
    (hang : AnglesAt ι ρ (result b dyn r cl uc P)) {k : ℤ} (hk : k ∈ Spec.subsystems b.decay)
    (i : Fin 4) (hs : b.decay.spin i ≠ 0) : ι.sym (zetaSymbol i k r) = zv ρ i k r := by
  have hi := fin4_mem i
  have hk' := (mem_subsystems _ _).1 hk
  exact hang _ _ _ (angle_get?_zeta hd hr hi hk' (by rw [spins_eq _ hi]; exact hs))
    (zeta_defined hρ hi (Standard.subsystem hd hk') hr)

/-- Change of reference at a point of the Dalitz plot. -/
theorem over_change {d : Decay} {S : Finset ℤ} (hd : Standard d) (hρ : DalitzRegion ρ)
    (hS : ∀ k ∈ S, k ∈ ([1, 2, 3] : List ℤ))
    (hr₁ : r₁ ∈ ([1, 2, 3] : List ℤ)) (hr₂ : r₂ ∈ ([1, 2, 3] : List ℤ)) (hne : r₁ ≠ r₂)
    (h1 : ∀ k ∈ S, ∀ i : Fin 4, d.spin i ≠ 0 → ι.sym (zetaSymbol i k r₁) = zv ρ i k r₁)
    (h2 : ∀ k ∈ S, ∀ i : Fin 4, d.spin i ≠ 0 → ι.sym (zetaSymbol i k r₂) = zv ρ i k r₂)
    (hD : IsWignerD D) (hι : UsesWignerD ι D) (A : ℤ → (Fin 4 → ℚ) → ℂ) :
    intensityOver ι d S r₂ A = intensityOver ι d S r₁ (fun k l => refSign d r₁ r₂ k * A k l) := by
  apply intensity_change_ref hd hD hι (zv ρ) h1 h2
  · intro k hk i hi
    have hi' : ((i : ℕ) : ℤ) ∈ ([1, 2, 3] : List ℤ) := by
      fin_cases i
      · exact absurd rfl hi
      all_goals simp
    exact zv_sum hρ hi' (hS k hk) hr₁ hr₂
  · intro k hk
    exact zv_initial hρ (hS k hk) hr₁ hr₂ hne

/-- For half-integer initial spin there are amplitudes that interfere constructively with one reference and
destructively with the other. -/
theorem over_depends {d : Decay} {S : Finset ℤ} (hd : Standard d) (hn : ∀ i : Fin 4, 0 ≤ d.spin i)
    (hr₁ : r₁ ∈ ([1, 2, 3] : List ℤ))
    (h1 : ∀ k ∈ S, ∀ i : Fin 4, d.spin i ≠ 0 → ι.sym (zetaSymbol i k r₁) = zv ρ i k r₁)
    (hD : IsWignerD D) (hι : UsesWignerD ι D) (hspin : ¬ IsInteger (d.spin 0))
    (hrS : r₁ ∈ S) {k : ℤ} (hkS : k ∈ S) (hk1 : k ≠ r₁) (hk2 : k ≠ r₂) :
    ∃ A, intensityOver ι d S r₁ A = 4 ∧
      intensityOver ι d S r₁ (fun k l => refSign d r₁ r₂ k * A k l) = 0 := by
  obtain ⟨l, hl0⟩ : ∃ l, l ∈ helicities d := by
    refine ⟨fun i => d.spin i, (mem_helicities hd _).2 fun i => ⟨by linarith [hn i], le_refl _, ?_⟩⟩
    rw [sub_self]
    exact ⟨0, by simp⟩
  have hz : ∀ i : Fin 4, ∀ a ∈ projections (d.spin i), ∀ a' ∈ projections (d.spin i),
      factor ι d r₁ r₁ i a a' = if a = a' then 1 else 0 := by
    intro i a ha a' ha'
    apply rotation_zero hd hD hι _ ha ha'
    intro hs
    rw [h1 r₁ hrS i hs, zv_self (fin4_mem i) hr₁]
    simp
  have hnorm : ∀ i : Fin 4, ∀ a' ∈ projections (d.spin i),
      ∑ a ∈ projections (d.spin i), ‖factor ι d r₁ k i a a'‖ ^ 2 = 1 := by
    intro i a' ha'
    exact factor_norm hd hD hι (x := zv ρ i k r₁) (fun hs => h1 k hkS i hs) ha'
  have g := fun c₁ c₂ => intensity_matching hrS hkS hk1 hz hnorm hl0 c₁ c₂
  refine ⟨matching ι d r₁ k l, ?_, ?_⟩
  · have := g 1 1
    simp only [ite_self, one_mul] at this
    rw [this]
    norm_num
  · have : (fun k' l' => (refSign d r₁ r₂ k' : ℂ) * matching ι d r₁ k l k' l') =
        fun k' l' => (if k' = r₁ then 1 else -1) * matching ι d r₁ k l k' l' := by
      funext x y
      by_cases h1 : x = r₁
      · simp [refSign, h1]
      · by_cases h2 : x = k
        · subst h2
          simp [refSign, h1, hk2, hspin]
        · simp [matching, h1, h2]
    rw [this, g 1 (-1)]
    norm_num

theorem ref_change (hd : Standard b.decay) (hρ : DalitzRegion ρ)
    (hr₁ : r₁ ∈ ([1, 2, 3] : List ℤ)) (hr₂ : r₂ ∈ ([1, 2, 3] : List ℤ)) (hne : r₁ ≠ r₂)
    {P₁ P₂ : PyDict Key Val}
    (ha₁ : AnglesAt ι ρ (result b dyn r₁ cl₁ uc P₁)) (ha₂ : AnglesAt ι ρ (result b dyn r₂ cl₂ uc P₂))
    (hD : IsWignerD D) (hι : UsesWignerD ι D) (A : ℤ → (Fin 4 → ℚ) → ℂ) :
    Spec.intensity ι b.decay r₂ A =
      Spec.intensity ι b.decay r₁ (fun k l => refSign b.decay r₁ r₂ k * A k l) :=
  over_change hd hρ (fun _ hk => Standard.subsystem hd ((mem_subsystems _ _).1 hk)) hr₁ hr₂ hne
    (fun _ hk i hs => zeta_value hd hρ hr₁ ha₁ hk i hs) (fun _ hk i hs => zeta_value hd hρ hr₂ ha₂ hk i hs)
    hD hι A

theorem refOk_some {r : ℤ} (h : r ∈ ([1, 2, 3] : List ℤ)) : RefOk (some r) := by
  intro x hx
  cases hx
  simpa using h

/-- C31: changing the reference subsystem from `r₁` to `r₂` is the same as giving the amplitudes of
each subsystem the sign `refSign`. This holds for the intensity in terms of amplitude symbols and
for the full expression. -/
theorem C31_change_of_reference (hd : Standard b.decay) (hdyn : Lineshapes b dyn)
    (hr₁ : r₁ ∈ ([1, 2, 3] : List ℤ)) (hr₂ : r₂ ∈ ([1, 2, 3] : List ℤ)) (hne : r₁ ≠ r₂)
    (h₁ : b.formulate (some r₁) cl₁ uc = .ok m₁) (h₂ : b.formulate (some r₂) cl₂ uc = .ok m₂)
    (hρ : DalitzRegion ρ) (ha₁ : AnglesAt ι ρ m₁) (ha₂ : AnglesAt ι ρ m₂)
    (hD : IsWignerD D) (hι : UsesWignerD ι D) (η : Sym → ℚ) :
    m₁.intensity.eval ι η = (intensity ι b.decay r₁ (symbolValue ι) : ℂ) ∧
    m₂.intensity.eval ι η = (intensity ι b.decay r₁
      (fun k l => refSign b.decay r₁ r₂ k * symbolValue ι k l) : ℂ) ∧
    m₁.fullExpression.eval ι η = (intensity ι b.decay r₁ (definedValue m₁ ι η) : ℂ) ∧
    m₂.fullExpression.eval ι η = (intensity ι b.decay r₁
      (fun k l => refSign b.decay r₁ r₂ k * definedValue m₁ ι η k l) : ℂ) := by
  obtain ⟨x₁, P₁, hu₁, -, -, rfl, -⟩ := formulate_inv hd hdyn (refOk_some hr₁) h₁
  obtain ⟨x₂, P₂, hu₂, -, -, rfl, -⟩ := formulate_inv hd hdyn (refOk_some hr₂) h₂
  obtain rfl : r₁ = x₁ := hu₁
  obtain rfl : r₂ = x₂ := hu₂
  have key := ref_change hd hρ hr₁ hr₂ hne ha₁ ha₂ hD hι
  refine ⟨eval_intensity ι η hd dyn r₁ cl₁ uc P₁, ?_, eval_full ι η hd dyn r₁ cl₁ uc P₁, ?_⟩
  · rw [eval_intensity ι η hd dyn r₂ cl₂ uc P₂, key]
  · rw [eval_full ι η hd dyn r₂ cl₂ uc P₂, key]
    rfl

/-- C31: if the initial spin is an integer, or no third subsystem is populated, the choice of the
reference subsystem changes neither the intensity nor the full expression. -/
theorem C31_reference_irrelevant (hd : Standard b.decay) (hdyn : Lineshapes b dyn)
    (hr₁ : r₁ ∈ ([1, 2, 3] : List ℤ)) (hr₂ : r₂ ∈ ([1, 2, 3] : List ℤ)) (hne : r₁ ≠ r₂)
    (h₁ : b.formulate (some r₁) cl₁ uc = .ok m₁) (h₂ : b.formulate (some r₂) cl₂ uc = .ok m₂)
    (hρ : DalitzRegion ρ) (ha₁ : AnglesAt ι ρ m₁) (ha₂ : AnglesAt ι ρ m₂)
    (hD : IsWignerD D) (hι : UsesWignerD ι D) (η : Sym → ℚ)
    (hc : IsInteger (b.decay.spin 0) ∨
      ∀ c ∈ b.decay.chains, c.spectator.index = r₁ ∨ c.spectator.index = r₂) :
    m₁.intensity.eval ι η = m₂.intensity.eval ι η ∧
    m₁.fullExpression.eval ι η = m₂.fullExpression.eval ι η := by
  obtain ⟨q1, q2, q3, q4⟩ := C31_change_of_reference hd hdyn hr₁ hr₂ hne h₁ h₂ hρ ha₁ ha₂ hD hι η
  have hs : ∀ k ∈ subsystems b.decay, refSign b.decay r₁ r₂ k = 1 := by
    intro k hk
    unfold refSign
    rw [if_pos]
    rcases hc with h | h
    · exact .inl h
    · unfold subsystems at hk
      rw [List.mem_toFinset] at hk
      obtain ⟨c, hc, rfl⟩ := List.mem_map.1 hk
      exact .inr (h c hc)
  rw [q1, q2, q3, q4]
  constructor
  · congr 1
    apply intensity_congr
    intro k hk l _
    rw [hs k hk]; simp
  · congr 1
    apply intensity_congr
    intro k hk l _
    rw [hs k hk]; simp

/-- Amplitude values given by a function. -/
noncomputable def withAmplitudes (ι : Interp) (A : ℤ → (Fin 4 → ℚ) → ℂ) : Interp :=
  { ι with idx := fun s _ ix =>
      let l : Fin 4 → ℚ := fun i => ix.getD i 0
      if s = "A^1" then A 1 l else if s = "A^2" then A 2 l else A 3 l }

theorem symbolValue_withAmplitudes (A : ℤ → (Fin 4 → ℚ) → ℂ) {k : ℤ}
    (hk : k ∈ ([1, 2, 3] : List ℤ)) (l : Fin 4 → ℚ) :
    symbolValue (withAmplitudes ι A) k l = A k l := by
  have hl : (fun i : Fin 4 => ([l 0, l 1, l 2, l 3] : List ℚ).getD i 0) = l := by
    funext i; fin_cases i <;> rfl
  have h1 : ("A^" ++ toString (1 : ℤ)) = "A^1" := rfl
  have h2 : ("A^" ++ toString (2 : ℤ)) = "A^2" := rfl
  have h3 : ("A^" ++ toString (3 : ℤ)) = "A^3" := rfl
  unfold symbolValue withAmplitudes
  simp only [hl]
  simp only [List.mem_cons, List.not_mem_nil, or_false] at hk
  rcases hk with rfl | rfl | rfl
  · rw [h1, if_pos rfl]
  · rw [h2, if_neg (by decide), if_pos rfl]
  · rw [h3, if_neg (by decide), if_neg (by decide)]

/-- C31: for half-integer initial spin the intensity does depend on the reference subsystem: whenever
the reference subsystem `r₁` and the third subsystem `k` are populated, there are values of the
amplitudes for which the intensity is 4 with reference `r₁` and 0 with reference `r₂`, at the same
kinematic point. -/
theorem C31_half_integer_depends (hd : Standard b.decay) (hn : NonnegSpins b.decay)
    (hdyn : Lineshapes b dyn)
    (hr₁ : r₁ ∈ ([1, 2, 3] : List ℤ)) (hr₂ : r₂ ∈ ([1, 2, 3] : List ℤ)) (hne : r₁ ≠ r₂)
    (h₁ : b.formulate (some r₁) cl₁ uc = .ok m₁) (h₂ : b.formulate (some r₂) cl₂ uc = .ok m₂)
    (hρ : DalitzRegion ρ) (ha₁ : AnglesAt ι ρ m₁) (ha₂ : AnglesAt ι ρ m₂)
    (hD : IsWignerD D) (hι : UsesWignerD ι D) (η : Sym → ℚ)
    (hspin : ¬ IsInteger (b.decay.spin 0))
    (hpop : ∃ c ∈ b.decay.chains, c.spectator.index = r₁) {k : ℤ}
    (hk : ∃ c ∈ b.decay.chains, c.spectator.index = k) (hk1 : k ≠ r₁) (hk2 : k ≠ r₂) :
    ∃ idx, m₁.intensity.eval { ι with idx := idx } η = 4 ∧
      m₂.intensity.eval { ι with idx := idx } η = 0 := by
  have hsub : ∀ {x}, (∃ c ∈ b.decay.chains, c.spectator.index = x) → x ∈ subsystems b.decay := by
    rintro x ⟨c, hc, rfl⟩
    unfold subsystems
    rw [List.mem_toFinset]
    exact List.mem_map.2 ⟨c, hc, rfl⟩
  have hkS := hsub hk
  have hrS := hsub hpop
  obtain ⟨A, g1, g2⟩ : ∃ A, Spec.intensity ι b.decay r₁ A = 4 ∧
      Spec.intensity ι b.decay r₁ (fun k l => refSign b.decay r₁ r₂ k * A k l) = 0 := by
    obtain ⟨x₁, P₁, hu₁, -, -, rfl, -⟩ := formulate_inv hd hdyn (refOk_some hr₁) h₁
    obtain rfl : r₁ = x₁ := hu₁
    exact over_depends hd (fun i => hn _ (Standard.mem hd (fin4_mem i))) hr₁ (fun k hk i hs => zeta_value hd hρ hr₁ ha₁ hk i hs) hD hι
      hspin hrS hkS hk1 hk2
  refine ⟨(withAmplitudes ι A).idx, ?_⟩
  change m₁.intensity.eval (withAmplitudes ι A) η = 4 ∧ m₂.intensity.eval (withAmplitudes ι A) η = 0
  obtain ⟨q1, q2, -, -⟩ := C31_change_of_reference (ι := withAmplitudes ι A) hd hdyn hr₁ hr₂ hne h₁ h₂
    hρ ha₁ ha₂ hD hι η
  have hval : ∀ x ∈ subsystems b.decay, ∀ l, symbolValue (withAmplitudes ι A) x l = A x l := by
    intro x hx l
    exact symbolValue_withAmplitudes A (Standard.subsystem hd ((mem_subsystems _ _).1 hx)) l
  have hI : ∀ ref B, Spec.intensity (withAmplitudes ι A) b.decay ref B =
      Spec.intensity ι b.decay ref B := fun ref B => intensity_interp rfl rfl b.decay ref B
  rw [q1, q2, hI, hI]
  constructor
  · rw [intensity_congr (B := A) fun x hx l _ => hval x hx l, g1]
    norm_num
  · rw [intensity_congr (B := fun k l => refSign b.decay r₁ r₂ k * A k l)
      fun x hx l _ => by rw [hval x hx l], g2]
    norm_num

/-! ### The hypotheses can be met -/

theorem angleDefs_cases (hd : Standard b.decay) {r : ℤ} (hr : r ∈ ([1, 2, 3] : List ℤ)) {cl : Bool}
    {P : PyDict Key Val} {s : Sym} {e : RExpr}
    (h : PyDict.get? (result b dyn r cl uc P).angleDefs s = some e) :
    (∃ k ∈ ([1, 2, 3] : List ℤ), s = thetaSym (prodIds k).1 (prodIds k).2 ∧ e = thetaExpr k) ∨
    ∃ i k r, Angles.formulateZetaAngle i k r = .ok (s, e) := by
  change PyDict.get? (PyDict.update _ (PyDict.ofItems _)) _ = _ at h
  rw [PyDict.get?_update] at h
  cases hc : PyDict.get? (PyDict.ofItems (b.decay.subsystemIds.flatMap
      (alignItems r (spins b.decay)))).reverse s with
  | some e' =>
    rw [hc] at h
    simp only [Option.some_or, Option.some.injEq] at h
    subst h
    right
    have hm := List.mem_reverse.1 (PyDict.mem_of_get? hc)
    have hm2 := PyDict.get?_of_mem (by unfold PyDict.ofItems; exact PyDict.nodup_update (by simp [PyDict.keys]) _) hm
    rw [PyDict.get?_ofItems] at hm2
    have hm3 := List.mem_reverse.1 (PyDict.mem_of_get? hm2)
    rw [List.mem_flatMap] at hm3
    obtain ⟨k, hk, hm3⟩ := hm3
    unfold alignItems at hm3
    rw [List.mem_flatMap] at hm3
    obtain ⟨i, hi, hm3⟩ := hm3
    unfold wigItems at hm3
    split at hm3
    · simp at hm3
    · simp only [List.mem_singleton, Prod.mk.injEq] at hm3
      obtain ⟨rfl, rfl⟩ := hm3
      exact ⟨i, k, r, zeta_eq hi (Standard.subsystem hd hk) hr⟩
  | none =>
    rw [hc] at h
    simp only [Option.none_or] at h
    left
    rw [PyDict.get?_ofItems] at h
    have hm := List.mem_reverse.1 (PyDict.mem_of_get? h)
    obtain ⟨x, hx, he⟩ := List.mem_map.1 hm
    injection he with h1 h2
    exact ⟨x.2, Standard.subsystems hd ((mem_pairs x).1 hx).2, h1.symm, h2.symm⟩

open Classical in
/-- Values of all angle symbols at a kinematic point. -/
noncomputable def angleValues (ρ : Sym → ℝ) (s : Sym) : ℂ :=
  if h : ∃ k e, s = thetaSym (prodIds k).1 (prodIds k).2 ∧ k ∈ ([1, 2, 3] : List ℤ) ∧ e = thetaExpr k then
    (((Classical.choose (Classical.choose_spec h)).eval ρ).getD 0 : ℝ)
  else if h : ∃ e, ∃ i k r, Angles.formulateZetaAngle i k r = .ok (s, e) then
    (((Classical.choose h).eval ρ).getD 0 : ℝ)
  else 0

theorem thetaSym_inj {k k' : ℤ} (hk : k ∈ ([1, 2, 3] : List ℤ)) (hk' : k' ∈ ([1, 2, 3] : List ℤ))
    (h : thetaSym (prodIds k).1 (prodIds k).2 = thetaSym (prodIds k').1 (prodIds k').2) : k = k' := by
  simp only [List.mem_cons, List.not_mem_nil, or_false] at hk hk'
  rcases hk with rfl | rfl | rfl <;> rcases hk' with rfl | rfl | rfl <;>
    first | rfl | exact absurd h (by decide)

/-- There are values of all symbols that agree with the angle definitions of all models. -/
theorem anglesAt_exists (ρ : Sym → ℝ) (ι : Interp) (hι : ι.sym = angleValues ρ) (hd : Standard b.decay)
    {r : ℤ} (hr : r ∈ ([1, 2, 3] : List ℤ)) {cl : Bool} {P : PyDict Key Val} :
    AnglesAt ι ρ (result b dyn r cl uc P) := by
  intro s e v h hv
  rw [hι]
  unfold angleValues
  rcases angleDefs_cases hd hr h with ⟨k, hk, h1, h2⟩ | ⟨i, k, r', hz⟩
  · have hex : ∃ k e, s = thetaSym (prodIds k).1 (prodIds k).2 ∧ k ∈ ([1, 2, 3] : List ℤ) ∧
      e = thetaExpr k := ⟨k, e, h1, hk, h2⟩
    rw [dif_pos hex]
    have hs := Classical.choose_spec (Classical.choose_spec hex)
    have := thetaSym_inj hs.2.1 hk (hs.1.symm.trans h1)
    rw [hs.2.2, this, ← h2, hv]; rfl
  · have hno : ¬ ∃ k e, s = thetaSym (prodIds k).1 (prodIds k).2 ∧ k ∈ ([1, 2, 3] : List ℤ) ∧
        e = thetaExpr k := by
      rintro ⟨k', e', h1, -, -⟩
      have hs : s = Angles.zetaSym i k r' := Angles.zeta_sym hz
      rw [hs] at h1
      have := congrArg (fun s => s.name.toList.head?) h1
      simp [Angles.zetaSym, thetaSym, String.toList_append] at this
    rw [dif_neg hno]
    have hex : ∃ e, ∃ i k r, Angles.formulateZetaAngle i k r = .ok (s, e) := ⟨e, i, k, r', hz⟩
    rw [dif_pos hex]
    obtain ⟨i2, k2, r2, hz2⟩ := Classical.choose_spec hex
    have := Angles.C13_zeta_symbols_injective hz hz2
    injection this with a1 a2
    injection a2 with a2 a3
    subst a1; subst a2; subst a3
    rw [hz] at hz2
    injection hz2 with hz2
    injection hz2 with _ hz2
    rw [← hz2, hv]; rfl

/-- Values of all symbols at a point of the Dalitz plot and the Wigner d-functions. -/
noncomputable def exInterp (ρ : Sym → ℝ) : Interp :=
  ⟨angleValues ρ, fun _ _ _ => 0, fun j m m' z => (Wigner.wignerD j m m' z.re : ℂ),
    fun _ _ _ _ _ _ => 0, fun _ _ _ _ _ => 0, fun _ _ _ _ _ _ _ _ => 0, fun _ _ _ => 0⟩

theorem exBuilder_refs (r : ℤ) (hr : r ∈ ([1, 2, 3] : List ℤ)) :
    ∃ m, (exBuilder true true false).formulate (some r) true false = .ok m ∧
      ∀ ρ, AnglesAt (exInterp ρ) ρ m := by
  have hM : ¬ Missing (exBuilder true true false) := by
    rw [missing_iff (b := exBuilder true true false) exDecay_standard]
    rintro ⟨-, c, hc, h⟩
    exact h (exBuilder_ls _ _ _ hc)
  obtain ⟨P, hP, -⟩ := formulate_ok (b := exBuilder true true false) (reference := some r)
    exDecay_standard (exBuilder_lineshapes _ _ _) (ref := r) rfl hr true false hM
  exact ⟨_, hP, fun ρ => anglesAt_exists (b := exBuilder true true false) ρ _ rfl exDecay_standard hr⟩

theorem exInterp_wigner (ρ : Sym → ℝ) : UsesWignerD (exInterp ρ) Wigner.wignerD := by
  intro j m m' x
  simp [exInterp]

/-- All hypotheses of `C31_half_integer_depends` hold for `Λc → p π K` with a chain in subsystem 1 and
one in subsystem 2, with references 1 and 3, at the centre of the Dalitz plot of `5 → 1 1 1`. -/
example : ∃ (m₁ m₂ : AmplitudeModel) (ρ : Sym → ℝ) (ι : Interp) (D : ℚ → ℚ → ℚ → ℝ → ℝ),
    (exBuilder true true false).formulate (some 1) true false = .ok m₁ ∧
    (exBuilder true true false).formulate (some 3) true false = .ok m₂ ∧
    DalitzInterior ρ ∧ AnglesAt ι ρ m₁ ∧ AnglesAt ι ρ m₂ ∧ IsWignerD D ∧ UsesWignerD ι D ∧
    ¬ IsInteger (exDecay.spin 0) ∧ (∃ c ∈ exDecay.chains, c.spectator.index = 1) ∧
    (∃ c ∈ exDecay.chains, c.spectator.index = 2) := by
  obtain ⟨m₁, h₁, a₁⟩ := exBuilder_refs 1 (by simp)
  obtain ⟨m₂, h₂, a₂⟩ := exBuilder_refs 3 (by simp)
  refine ⟨m₁, m₂, fun s => if s.name = "m0" then 5 else if s.name = "m1" then 1
      else if s.name = "m2" then 1 else if s.name = "m3" then 1 else 28 / 3, _, _, h₁, h₂, ?_, a₁ _, a₂ _,
    Wigner.isWignerD, exInterp_wigner _, ?_,
    ⟨exChainK, by simp [exDecay], rfl⟩, ⟨exChainL, by simp [exDecay], rfl⟩⟩
  · constructor <;> simp [SumRule, BetweenThresholds, lam] <;> norm_num
  · rintro ⟨z, hz⟩
    have h0 : exDecay.spin 0 = 1 / 2 := rfl
    rw [h0] at hz
    have : ((1 : ℤ) : ℚ) = ((2 * z : ℤ) : ℚ) := by push_cast; linarith
    have : (1 : ℤ) = 2 * z := by exact_mod_cast this
    omega

/-- Hypotheses of `C31_reference_irrelevant`: references 1 and 2 are the populated subsystems. -/
example : ∀ c ∈ exDecay.chains, c.spectator.index = 1 ∨ c.spectator.index = 2 := by
  intro c hc
  simp only [exDecay, List.mem_cons, List.not_mem_nil, or_false] at hc
  rcases hc with rfl | rfl
  · exact .inl rfl
  · exact .inr rfl

/-- The construction of the d-functions agrees with the usual formulas for spin 1/2. -/
example (x : ℝ) : Wigner.wignerD (1/2) (1/2) (1/2) x = Real.cos (x / 2) ∧
    Wigner.wignerD (1/2) (1/2) (-1/2) x = -Real.sin (x / 2) ∧
    Wigner.wignerD (1/2) (-1/2) (1/2) x = Real.sin (x / 2) := by
  have h1 : (⌊(2 : ℚ) * (1/2)⌋).toNat = 1 := by norm_num
  have h2 : Wigner.pos (1/2) (1/2) = 1 := by norm_num [Wigner.pos]
  have h3 : Wigner.pos (1/2) (-1/2) = 0 := by norm_num [Wigner.pos]
  unfold Wigner.wignerD
  rw [h1, h2, h3]
  refine ⟨?_, ?_, ?_⟩ <;> simp [Wigner.dmat, Wigner.mat, Wigner.poly]

end Verif.ThreeBody
