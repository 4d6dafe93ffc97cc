import Verif.Proofs.Angles4
import Mathlib.Analysis.Complex.Basic
import Mathlib.Tactic.NormNum.RealSqrt

/-! Properties C08-C15: `angles.py`. -/
namespace Verif.Angles
open Verif Verif.Spec RExpr InnerProductGeometry
open scoped RealInnerProductSpace

variable {V : Type*} [NormedAddCommGroup V] [InnerProductSpace ℝ V]
variable {ρ : Sym → ℝ} {ev : Event V}

/-! ### Non-vacuity of the hypotheses: events and symbol values exist -/

omit [InnerProductSpace ℝ V] in
/-- Every choice of momenta and masses of the final state is an event. -/
theorem event_exists (p : ℤ → V) (μ : ℤ → ℝ) (hμ : ∀ i, 0 ≤ μ i) :
    ∃ ev : Event V, ∀ i ∈ ([1, 2, 3] : List ℤ), (ev.P i).p = p i ∧ ev.m i = μ i := by
  let Q : ℤ → FourVec V := fun i => ⟨√(μ i ^ 2 + ‖p i‖ ^ 2), p i⟩
  have hQ : ∀ i, (Q i).sq = μ i ^ 2 := fun i => by
    simp only [Q, FourVec.sq]; rw [Real.sq_sqrt (by positivity)]; ring
  have hn : ∀ i, ‖p i‖ ≤ (Q i).E := fun i => by
    simp only [Q]; exact Real.le_sqrt_of_sq_le (by nlinarith [sq_nonneg (μ i)])
  have htot : 0 ≤ (Q 1 + Q 2 + Q 3).sq := by
    have h1 : ‖(Q 1 + Q 2 + Q 3).p‖ ≤ (Q 1 + Q 2 + Q 3).E :=
      (norm_add₃_le).trans (by
        have := hn 1; have := hn 2; have := hn 3
        simp only [FourVec.add_E]; linarith)
    unfold FourVec.sq
    have := norm_nonneg (Q 1 + Q 2 + Q 3).p
    nlinarith
  refine ⟨⟨fun i => if i = 0 then Q 1 + Q 2 + Q 3 else Q i,
    fun i => if i = 0 then √(Q 1 + Q 2 + Q 3).sq else μ i, by simp, ?_, ?_, ?_⟩, ?_⟩
  · intro i; split
    · positivity
    · exact hμ i
  · intro i _; split
    · rw [Real.sq_sqrt htot]
    · exact hQ i
  · intro i hi
    have : i ≠ 0 := by rintro rfl; simp at hi
    simp only [this, if_false, Q]; positivity
  · intro i hi
    have : i ≠ 0 := by rintro rfl; simp at hi
    simp [this, Q]

omit [InnerProductSpace ℝ V] in
/-- For every event there are symbol values that describe it. -/
theorem env_exists (ev : Event V) : ∃ ρ, AtEvent ρ ev :=
  ⟨fun s => if s.name = "m0" then ev.m 0 else if s.name = "m1" then ev.m 1
    else if s.name = "m2" then ev.m 2 else if s.name = "m3" then ev.m 3
    else if s.name = "sigma1" then (ev.P 2 + ev.P 3).sq
    else if s.name = "sigma2" then (ev.P 3 + ev.P 1).sq else (ev.P 1 + ev.P 2).sq,
    by constructor <;> simp⟩

/-! ### C08 -/

/-- **C08** In the rest frame of the isobar `(ij)`, the scattering angle is the angle between the
momentum of `i` and the direction opposite to the spectator `k`. The value is a real number
(`some`), so the argument of `acos` is in `[-1, 1]`. -/
theorem C08_scattering_angle (h : AtEvent ρ ev) {i j k : ℤ} (hp : IsPerm123 i j k)
    (rest : (ev.P i).p + (ev.P j).p = 0) (hi : (ev.P i).p ≠ 0) (hk : (ev.P k).p ≠ 0) :
    ∃ e, formulateScatteringAngle i j =
        .ok (⟨"theta_" ++ toString i ++ toString j, .real⟩, e) ∧
      e.eval ρ = some (angle (ev.P i).p (-(ev.P k).p)) :=
  ⟨_, scat_forms hp, scattering_value h hp rest hi hk⟩

example : ∃ (ev : Event ℂ) (ρ : Sym → ℝ), AtEvent ρ ev ∧ (ev.P 1).p + (ev.P 2).p = 0 ∧
    (ev.P 1).p ≠ 0 ∧ (ev.P 3).p ≠ 0 := by
  obtain ⟨ev, h⟩ := event_exists (V := ℂ)
    (fun i => if i = 1 then 3 else if i = 2 then -3 else 4 * Complex.I) (fun _ => 4) (by simp)
  obtain ⟨ρ, hρ⟩ := env_exists ev
  refine ⟨ev, ρ, hρ, ?_, ?_, ?_⟩
  · rw [(h 1 (by simp)).1, (h 2 (by simp)).1]; norm_num
  · rw [(h 1 (by simp)).1]; norm_num
  · rw [(h 3 (by simp)).1]; norm_num

/-! ### C09 -/

/-- **C09** Error behaviour: `ValueError` exactly for IDs outside `{1,2,3}` or equal IDs; no other
exception. -/
theorem C09_scattering_errors (i j : ℤ) :
    ((∃ r, formulateScatteringAngle i j = .ok r) ↔
      i ∈ ([1, 2, 3] : List ℤ) ∧ j ∈ ([1, 2, 3] : List ℤ) ∧ i ≠ j) ∧
    (¬ (i ∈ ([1, 2, 3] : List ℤ) ∧ j ∈ ([1, 2, 3] : List ℤ) ∧ i ≠ j) →
      formulateScatteringAngle i j = .error .valueError) := by
  have key : formulateScatteringAngle i j ≠ .error .valueError ↔
      i ∈ ([1, 2, 3] : List ℤ) ∧ j ∈ ([1, 2, 3] : List ℤ) ∧ i ≠ j := by
    unfold formulateScatteringAngle
    rw [guard_false, ← and_assoc, ← idsOk_iff]
    by_cases h1 : idsOk i j = true <;> by_cases h2 : i = j <;> simp [h1, h2]
  have hor : formulateScatteringAngle i j = .error .valueError ∨
      ∃ r, formulateScatteringAngle i j = .ok r := by
    unfold formulateScatteringAngle
    rw [guard_false]
    by_cases h1 : idsOk i j = true <;> by_cases h2 : i = j <;> simp [h1, h2]
  constructor
  · rw [← key]
    constructor
    · rintro ⟨r, hr⟩; rw [hr]; simp
    · intro h; exact hor.resolve_left h
  · intro h
    rw [← key] at h
    exact not_not.1 h

/-- **C09** Swapping the decay products gives `π - θ` (or an equally undefined value), whenever the
Mandelstam variables satisfy the sum rule. -/
theorem C09_scattering_swapped (hs : SumRule ρ) {i j k : ℤ} (hp : IsPerm123 i j k) :
    ∃ s s' e e', formulateScatteringAngle i j = .ok (s, e) ∧
      formulateScatteringAngle j i = .ok (s', e') ∧
      e'.eval ρ = (e.eval ρ).map (fun θ => Real.pi - θ) := by
  refine ⟨_, _, _, _, scat_forms hp, scat_forms (perm_swap hp), ?_⟩
  have hsum : vs ρ i + vs ρ j + vs ρ k = vm ρ 0 ^ 2 + vm ρ i ^ 2 + vm ρ j ^ 2 + vm ρ k ^ 2 := by
    have g : vs ρ 1 + vs ρ 2 + vs ρ 3 = vm ρ 0 ^ 2 + vm ρ 1 ^ 2 + vm ρ 2 ^ 2 + vm ρ 3 ^ 2 := hs
    rcases perm_cases hp with ⟨rfl, rfl, rfl⟩ | ⟨rfl, rfl, rfl⟩ | ⟨rfl, rfl, rfl⟩ |
      ⟨rfl, rfl, rfl⟩ | ⟨rfl, rfl, rfl⟩ | ⟨rfl, rfl, rfl⟩ <;> linarith
  have hN : vs ρ i = vm ρ 0 ^ 2 + vm ρ i ^ 2 + vm ρ j ^ 2 + vm ρ k ^ 2 - vs ρ j - vs ρ k := by
    linarith
  have hev : ∀ i j, eval ρ (scatE i j k) =
      (let n := 2 * vs ρ k * (vs ρ j - vm ρ k ^ 2 - vm ρ i ^ 2)
        - (vs ρ k + vm ρ i ^ 2 - vm ρ j ^ 2) * (vm ρ 0 ^ 2 - vs ρ k - vm ρ k ^ 2)
       let x := kallenR (vm ρ 0 ^ 2) (vm ρ k ^ 2) (vs ρ k)
       let y := kallenR (vs ρ k) (vm ρ i ^ 2) (vm ρ j ^ 2)
       if x < 0 then none else if y < 0 then none else if √x * √y = 0 then none
       else if -1 ≤ n / (√x * √y) ∧ n / (√x * √y) ≤ 1 then some (Real.arccos (n / (√x * √y)))
       else none) := by
    intro i j
    have e0 := eval_pow (n := 2) ρ (eval_m' (ρ := ρ) 0)
    have ei := eval_pow (n := 2) ρ (eval_m' (ρ := ρ) i)
    have ej := eval_pow (n := 2) ρ (eval_m' (ρ := ρ) j)
    have ek := eval_pow (n := 2) ρ (eval_m' (ρ := ρ) k)
    have sk := eval_σ' (ρ := ρ) k
    have sj := eval_σ' (ρ := ρ) j
    have hNN := eval_sub ρ
      (eval_mul ρ (eval_mul ρ (eval_num (n := 2) ρ) sk) (eval_sub ρ (eval_sub ρ sj ek) ei))
      (eval_mul ρ (eval_sub ρ (eval_add ρ sk ei) ej) (eval_sub ρ (eval_sub ρ e0 sk) ek))
    have := eval_acosRatio_gen hNN (eval_kallen ρ e0 ek sk) (eval_kallen ρ sk ei ej)
    push_cast at this
    exact this
  rw [hev, hev]
  have hy : kallenR (vs ρ k) (vm ρ j ^ 2) (vm ρ i ^ 2) =
      kallenR (vs ρ k) (vm ρ i ^ 2) (vm ρ j ^ 2) := by unfold kallenR; ring
  have hn : 2 * vs ρ k * (vs ρ i - vm ρ k ^ 2 - vm ρ j ^ 2)
        - (vs ρ k + vm ρ j ^ 2 - vm ρ i ^ 2) * (vm ρ 0 ^ 2 - vs ρ k - vm ρ k ^ 2) =
      -(2 * vs ρ k * (vs ρ j - vm ρ k ^ 2 - vm ρ i ^ 2)
        - (vs ρ k + vm ρ i ^ 2 - vm ρ j ^ 2) * (vm ρ 0 ^ 2 - vs ρ k - vm ρ k ^ 2)) := by
    rw [hN]; ring
  simp only [hy, hn, neg_div]
  split_ifs with h1 h2 h3 h4 h5 h6
  · rfl
  · rfl
  · rfl
  · simp [Real.arccos_neg]
  · exact absurd ⟨by linarith [h4.2], by linarith [h4.1]⟩ h5
  · exact absurd ⟨by linarith [h6.2], by linarith [h6.1]⟩ h4
  · rfl

/-! ### C10, C11 -/

/-- **C10** Error behaviour and symmetry of theta-hat, for all integers. -/
theorem C10_theta_hat_total (i j : ℤ) :
    ((∃ r, formulateThetaHatAngle i j = .ok r) ↔
      i ∈ ([1, 2, 3] : List ℤ) ∧ j ∈ ([1, 2, 3] : List ℤ)) ∧
    (¬ (i ∈ ([1, 2, 3] : List ℤ) ∧ j ∈ ([1, 2, 3] : List ℤ)) →
      formulateThetaHatAngle i j = .error .valueError) ∧
    (∀ fuel ≥ 2, formulateThetaHatAngleF fuel i j = formulateThetaHatAngle i j) ∧
    (∀ s e s' e' ρ x, formulateThetaHatAngle i j = .ok (s, e) →
      formulateThetaHatAngle j i = .ok (s', e') → e.eval ρ = some x → e'.eval ρ = some (-x)) := by
  have hL : ∀ i j, formulateThetaHatAngle i j = formulateThetaHatAngleF (998 + 2) i j :=
    fun _ _ => rfl
  by_cases hij : i ∈ ([1, 2, 3] : List ℤ) ∧ j ∈ ([1, 2, 3] : List ℤ)
  · rcases pair_cases hij.1 hij.2 with rfl | ⟨k, hk⟩ | ⟨k, hk⟩
    · refine ⟨⟨fun _ => hij, fun _ => ⟨_, hat_self 999 hij.1⟩⟩, fun h => absurd hij h, ?_, ?_⟩
      · rintro fuel hf
        obtain ⟨n, rfl⟩ := Nat.exists_eq_add_of_le' hf
        rw [hL, hat_self (n + 1) hij.1, hat_self (998 + 1) hij.1]
      · intro s e s' e' ρ x h1 h2 h3
        rw [hL, hat_self (998 + 1) hij.1] at h1 h2
        cases h1; cases h2
        rw [h3]
        have h0 : eval ρ (0 : RExpr) = some 0 := by
          have := eval_num (n := 0) ρ; simpa using this
        rw [h0] at h3
        cases h3; simp
    · have hf := fun n => hat_forms n hk
      refine ⟨⟨fun _ => hij, fun _ => ⟨_, (hf 998).1⟩⟩, fun h => absurd hij h, ?_, ?_⟩
      · rintro fuel hfu
        obtain ⟨n, rfl⟩ := Nat.exists_eq_add_of_le' hfu
        rw [hL, (hf n).1, (hf 998).1]
      · intro s e s' e' ρ x h1 h2 h3
        rw [hL, (hf 998).1] at h1
        rw [hL, (hf 998).2] at h2
        cases h1; cases h2
        exact eval_neg ρ h3
    · have hf := fun n => hat_forms n hk
      refine ⟨⟨fun _ => hij, fun _ => ⟨_, (hf 998).2⟩⟩, fun h => absurd hij h, ?_, ?_⟩
      · rintro fuel hfu
        obtain ⟨n, rfl⟩ := Nat.exists_eq_add_of_le' hfu
        rw [hL, (hf n).2, (hf 998).2]
      · intro s e s' e' ρ x h1 h2 h3
        rw [hL, (hf 998).2] at h1
        rw [hL, (hf 998).1] at h2
        cases h1; cases h2
        cases hv : eval ρ (hatE j i k) with
        | none =>
          have : eval ρ (-(hatE j i k)) = none := by
            show eval ρ (.neg _) = _
            simp [eval, hv]
          rw [this] at h3; cases h3
        | some y =>
          rw [eval_neg ρ hv] at h3
          cases h3; simp
  · refine ⟨⟨?_, fun h => absurd h hij⟩, fun _ => hat_error 999 hij, ?_, ?_⟩
    · rintro ⟨r, hr⟩
      rw [hL, hat_error (998 + 1) hij] at hr; cases hr
    · rintro fuel hf
      obtain ⟨n, rfl⟩ := Nat.exists_eq_add_of_le' hf
      rw [hL, hat_error (n + 1) hij, hat_error (998 + 1) hij]
    · intro s e s' e' ρ x h1
      rw [hL, hat_error (998 + 1) hij] at h1; cases h1

/-- **C10** In the rest frame of the decaying particle, `θ̂_i(j)` is plus the angle between the
momenta of `i` and `j` for `(1,2), (2,3), (3,1)`, minus that angle for the reversed pairs, and 0 for
`i = j`. -/
theorem C10_theta_hat_angle (h : AtEvent ρ ev) (rest : (ev.P 0).p = 0) {i j k : ℤ}
    (hc : Cyclic i j k) (hi : (ev.P i).p ≠ 0) (hj : (ev.P j).p ≠ 0) :
    (∃ s e, formulateThetaHatAngle i j = .ok (s, e) ∧
      e.eval ρ = some (angle (ev.P i).p (ev.P j).p)) ∧
    (∃ s e, formulateThetaHatAngle j i = .ok (s, e) ∧
      e.eval ρ = some (-angle (ev.P i).p (ev.P j).p)) ∧
    (∃ s e, formulateThetaHatAngle i i = .ok (s, e) ∧ e.eval ρ = some 0) := by
  have hv := thetaHat_value h (cyclic_perm hc) rest hi hj
  refine ⟨⟨_, _, (hat_forms 998 hc).1, hv⟩, ⟨_, _, (hat_forms 998 hc).2, eval_neg ρ hv⟩,
    ⟨_, _, hat_self 999 (perm_mem (cyclic_perm hc)).1, ?_⟩⟩
  have := eval_num (n := 0) ρ; simpa using this

example : ∃ (ev : Event ℂ) (ρ : Sym → ℝ), AtEvent ρ ev ∧ (ev.P 0).p = 0 ∧
    (ev.P 1).p ≠ 0 ∧ (ev.P 2).p ≠ 0 ∧ (ev.P 3).p ≠ 0 := by
  obtain ⟨ev, h⟩ := event_exists (V := ℂ)
    (fun i => if i = 1 then 3 else if i = 2 then -3 + 4 * Complex.I else -(4 * Complex.I))
    (fun _ => 4) (by simp)
  obtain ⟨ρ, hρ⟩ := env_exists ev
  refine ⟨ev, ρ, hρ, ?_, ?_, ?_, ?_⟩
  · rw [ev.total, FourVec.add_p, FourVec.add_p, (h 1 (by simp)).1, (h 2 (by simp)).1,
      (h 3 (by simp)).1]; norm_num
  · rw [(h 1 (by simp)).1]; norm_num
  · rw [(h 2 (by simp)).1]
    intro h0
    have := congrArg Complex.re h0
    norm_num at this
  · rw [(h 3 (by simp)).1]; norm_num

/-- **C11** For every event with a massive decaying particle, seen in any frame, the three
theta-hat angles add up to `2π` whenever they are defined. -/
theorem C11_theta_hat_full_turn (h : AtEvent ρ ev) (hm : 0 < ev.m 0)
    {s12 s23 s31 : Sym} {e12 e23 e31 : RExpr} {x y z : ℝ}
    (h12 : formulateThetaHatAngle 1 2 = .ok (s12, e12))
    (h23 : formulateThetaHatAngle 2 3 = .ok (s23, e23))
    (h31 : formulateThetaHatAngle 3 1 = .ok (s31, e31))
    (hx : e12.eval ρ = some x) (hy : e23.eval ρ = some y) (hz : e31.eval ρ = some z) :
    x + y + z = 2 * Real.pi := by
  have c12 : Cyclic 1 2 3 := by unfold Cyclic; decide
  have c23 : Cyclic 2 3 1 := by unfold Cyclic; decide
  have c31 : Cyclic 3 1 2 := by unfold Cyclic; decide
  have f12 : formulateThetaHatAngle 1 2 = .ok _ := (hat_forms 998 c12).1
  have f23 : formulateThetaHatAngle 2 3 = .ok _ := (hat_forms 998 c23).1
  have f31 : formulateThetaHatAngle 3 1 = .ok _ := (hat_forms 998 c31).1
  rw [f12] at h12; rw [f23] at h23; rw [f31] at h31
  cases h12; cases h23; cases h31
  obtain ⟨ev', h', -, rest⟩ := exists_rest_frame h (i := 0) (by simp) hm
  obtain ⟨p1, p2⟩ := hat_defined h' (cyclic_perm c12) rest hx
  obtain ⟨-, p3⟩ := hat_defined h' (cyclic_perm c23) rest hy
  have v12 := thetaHat_value h' (cyclic_perm c12) rest p1 p2
  have v23 := thetaHat_value h' (cyclic_perm c23) rest p2 p3
  have v31 := thetaHat_value h' (cyclic_perm c31) rest p3 p1
  unfold hatE at hx hy hz
  rw [hx] at v12; rw [hy] at v23; rw [hz] at v31
  cases v12; cases v23; cases v31
  apply angles_full_turn p2
  rw [← rest, ev'.total]; rfl

/-! ### C12 -/

/-- **C12** In the rest frame of the massive final-state particle `i`, `ζ^i_j(k)` is the oriented
angle between the reference momenta of the subsystems `j` and `k`. -/
theorem C12_zeta_angle (h : AtEvent ρ ev) {i j k : ℤ} (hi : i ∈ ([1, 2, 3] : List ℤ))
    (hj : j ∈ ([1, 2, 3] : List ℤ)) (hk : k ∈ ([1, 2, 3] : List ℤ))
    (rest : (ev.P i).p = 0) (hm : 0 < ev.m i)
    (hrj : refMomentum ev i j ≠ 0) (hrk : refMomentum ev i k ≠ 0) :
    ∃ e, formulateZetaAngle i j k = .ok
        (⟨"\\zeta^" ++ toString i ++ "_{" ++ toString j ++ "(" ++ toString k ++ ")}", .real⟩, e) ∧
      e.eval ρ = some (zetaSign i j k * angle (refMomentum ev i j) (refMomentum ev i k)) := by
  obtain ⟨a, b, hc, hj', hk'⟩ := zeta_triples hi hj hk
  have hp := cyclic_perm hc
  have hp' : IsPerm123 i b a := perm_swap (perm_rot (perm_rot hp))
  have hfacts : i ≠ 0 ∧ a ≠ 0 ∧ b ≠ 0 ∧ refMomentum ev i i = (ev.P 0).p ∧
      refMomentum ev i a = (ev.P b).p ∧ refMomentum ev i b = (ev.P a).p ∧
      zetaSign i i b = 1 ∧ zetaSign i a i = 1 ∧ zetaSign i a b = 1 ∧
      zetaSign i b i = -1 ∧ zetaSign i i a = -1 ∧ zetaSign i b a = -1 := by
    rcases cyclic_cases hc with ⟨rfl, rfl, rfl⟩ | ⟨rfl, rfl, rfl⟩ | ⟨rfl, rfl, rfl⟩ <;>
      simp [refMomentum, zetaSign, refRank]
  obtain ⟨i0, a0, b0, ri, ra, rb, s1, s2, s3, s4, s5, s6⟩ := hfacts
  obtain ⟨f1, f2, f3, f4, f5, f6⟩ := zeta_forms 998 hc
  have z0 : ∀ l, l ≠ 0 → ∃ e, formulateZetaAngle i l l = .ok
        (⟨"\\zeta^" ++ toString i ++ "_{" ++ toString l ++ "(" ++ toString l ++ ")}", .real⟩, e) ∧
      e.eval ρ = some (zetaSign i l l * angle (refMomentum ev i l) (refMomentum ev i l)) := by
    intro l hl
    refine ⟨_, zeta_self 999 i0 hl, ?_⟩
    have := eval_num (n := 0) ρ
    simpa [zetaSign] using this
  rcases hj' with rfl | rfl | rfl <;> rcases hk' with rfl | rfl | rfl
  · exact z0 _ i0
  · refine ⟨_, f5, ?_⟩
    rw [ri] at hrj ⊢; rw [ra] at hrk ⊢
    rw [s5, neg_one_mul]; exact eval_neg ρ (zetaA_value h hp' rest hm hrj hrk)
  · refine ⟨_, f1, ?_⟩
    rw [ri] at hrj ⊢; rw [rb] at hrk ⊢
    rw [s1, one_mul]; exact zetaA_value h hp rest hm hrj hrk
  · refine ⟨_, f2, ?_⟩
    rw [ra] at hrj ⊢; rw [ri] at hrk ⊢
    rw [s2, one_mul, angle_comm]; exact zetaA_value h hp' rest hm hrk hrj
  · exact z0 _ a0
  · refine ⟨_, f3, ?_⟩
    rw [ra] at hrj ⊢; rw [rb] at hrk ⊢
    rw [s3, one_mul]; exact zetaB_value h hp rest hm hrk hrj
  · refine ⟨_, f4, ?_⟩
    rw [rb] at hrj ⊢; rw [ri] at hrk ⊢
    rw [s4, neg_one_mul, angle_comm]; exact eval_neg ρ (zetaA_value h hp rest hm hrk hrj)
  · refine ⟨_, f6, ?_⟩
    rw [rb] at hrj ⊢; rw [ra] at hrk ⊢
    rw [s6, neg_one_mul, angle_comm]; exact eval_neg ρ (zetaB_value h hp rest hm hrj hrk)
  · exact z0 _ b0

example : ∃ (ev : Event ℂ) (ρ : Sym → ℝ), AtEvent ρ ev ∧ (ev.P 1).p = 0 ∧ 0 < ev.m 1 ∧
    refMomentum ev 1 1 ≠ 0 ∧ refMomentum ev 1 2 ≠ 0 ∧ refMomentum ev 1 3 ≠ 0 := by
  obtain ⟨ev, h⟩ := event_exists (V := ℂ)
    (fun i => if i = 1 then 0 else if i = 2 then 3 else 4 * Complex.I) (fun _ => 4) (by simp)
  obtain ⟨ρ, hρ⟩ := env_exists ev
  refine ⟨ev, ρ, hρ, ?_, ?_, ?_, ?_, ?_⟩
  · rw [(h 1 (by simp)).1]; norm_num
  · rw [(h 1 (by simp)).2]; norm_num
  · simp only [refMomentum, if_true]
    rw [ev.total, FourVec.add_p, FourVec.add_p, (h 1 (by simp)).1, (h 2 (by simp)).1,
      (h 3 (by simp)).1]
    intro h0
    have := congrArg Complex.re h0
    norm_num at this
  · simp only [refMomentum]
    norm_num
    rw [(h 3 (by simp)).1]; norm_num
  · simp only [refMomentum]
    norm_num
    rw [(h 2 (by simp)).1]; norm_num

/-! ### C13 -/

/-- Result of `formulate_zeta_angle` for arbitrary integers, with any sufficient recursion depth. -/
theorem zeta_classification (n : ℕ) (i j k : ℤ) :
    let k' := if k = 0 then i else k
    (i = 0 → (j ∈ ([1, 2, 3] : List ℤ) ∧ k ∈ ([1, 2, 3] : List ℤ) →
        ∃ e, formulateZetaAngleF (n + 3) i j k = .ok (zetaSym i j k, e)) ∧
      (¬ (j ∈ ([1, 2, 3] : List ℤ) ∧ k ∈ ([1, 2, 3] : List ℤ)) →
        formulateZetaAngleF (n + 3) i j k = .error .valueError)) ∧
    (i ≠ 0 → (j = k' → formulateZetaAngleF (n + 3) i j k = .ok (zetaSym i j k, 0)) ∧
      (i ∈ ([1, 2, 3] : List ℤ) ∧ j ∈ ([1, 2, 3] : List ℤ) ∧ k' ∈ ([1, 2, 3] : List ℤ) →
        ∃ e, formulateZetaAngleF (n + 3) i j k = .ok (zetaSym i j k, e)) ∧
      (j ≠ k' → ¬ (i ∈ ([1, 2, 3] : List ℤ) ∧ j ∈ ([1, 2, 3] : List ℤ) ∧
          k' ∈ ([1, 2, 3] : List ℤ)) →
        formulateZetaAngleF (n + 3) i j k = .error .notImplementedError)) := by
  intro k'
  refine ⟨?_, ?_⟩
  · rintro rfl
    rw [zeta_rot0]
    refine ⟨?_, ?_⟩
    · rintro ⟨hj, hk⟩
      rcases pair_cases hj hk with rfl | ⟨l, hl⟩ | ⟨l, hl⟩
      · rw [hat_self (n + 1) hj]; exact ⟨_, rfl⟩
      · rw [(hat_forms n hl).1]; exact ⟨_, rfl⟩
      · rw [(hat_forms n hl).2]; exact ⟨_, rfl⟩
    · intro h
      rw [hat_error (n + 1) h]; rfl
  · intro hi
    have hk' : k' ≠ 0 := by
      simp only [k']; split <;> assumption
    have key : ∀ N, formulateZetaAngleF (N + 3) i j k =
        (formulateZetaAngleF (N + 2) i j k').map (fun r => (zetaSym i j k, r.2)) ∨
        (k = k' ∧ k ≠ 0) := by
      intro N
      by_cases h0 : k = 0
      · left
        simp only [k', h0, if_true]
        exact zeta_ref0 (N + 2) hi
      · right; simp [k', h0]
    have hin : i ∈ ([1, 2, 3] : List ℤ) ∧ j ∈ ([1, 2, 3] : List ℤ) ∧ k' ∈ ([1, 2, 3] : List ℤ) →
        ∀ N, ∃ e, formulateZetaAngleF (N + 2) i j k' = .ok (zetaSym i j k', e) := by
      rintro ⟨h1, h2, h3⟩ N
      obtain ⟨a, b, hc, hj', hk''⟩ := zeta_triples h1 h2 h3
      obtain ⟨f1, f2, f3, f4, f5, f6⟩ := zeta_forms N hc
      have hself := fun {l : ℤ} (hl : l ≠ 0) => zeta_self (N + 1) hi hl
      have ha : a ≠ 0 ∧ b ≠ 0 := by
        rcases cyclic_cases hc with ⟨rfl, rfl, rfl⟩ | ⟨rfl, rfl, rfl⟩ | ⟨rfl, rfl, rfl⟩ <;> decide
      clear_value k'
      rcases hj' with rfl | rfl | rfl <;> rcases hk'' with rfl | rfl | rfl
      · exact ⟨_, hself hi⟩
      · exact ⟨_, f5⟩
      · exact ⟨_, f1⟩
      · exact ⟨_, f2⟩
      · exact ⟨_, hself ha.1⟩
      · exact ⟨_, f3⟩
      · exact ⟨_, f4⟩
      · exact ⟨_, f6⟩
      · exact ⟨_, hself ha.2⟩
    refine ⟨?_, ?_, ?_⟩
    · intro hj
      rcases key n with h | ⟨h, h0⟩
      · rw [h, hj, zeta_self (n + 1) hi hk']; rfl
      · rw [h, hj]; exact zeta_self (n + 2) hi hk'
    · intro hall
      rcases key n with h | ⟨h, h0⟩
      · obtain ⟨e, he⟩ := hin hall n
        rw [h, he]; exact ⟨_, rfl⟩
      · obtain ⟨e, he⟩ := hin hall (n + 1)
        rw [h]; exact ⟨e, he⟩
    · intro hj hnot
      rcases key n with h | ⟨h, h0⟩
      · rw [h, zeta_notimpl (n + 1) hi hk' hj hnot]; rfl
      · rw [h]; exact zeta_notimpl (n + 2) hi hk' hj hnot

/-- **C13** Totality: for all integers, `formulate_zeta_angle` terminates within recursion depth 3
(so never with `RecursionError`); it does not raise for rotated state `0..3` and subsystems
`1..3`. -/
theorem C13_zeta_total (i j k : ℤ) :
    formulateZetaAngle i j k ≠ .error .recursionError ∧
    (i ∈ ([0, 1, 2, 3] : List ℤ) → j ∈ ([1, 2, 3] : List ℤ) → k ∈ ([1, 2, 3] : List ℤ) →
      ∃ e, formulateZetaAngle i j k = .ok
        (⟨"\\zeta^" ++ toString i ++ "_{" ++ toString j ++ "(" ++ toString k ++ ")}", .real⟩, e)) ∧
    (i ∈ ([1, 2, 3] : List ℤ) → j ∈ ([1, 2, 3] : List ℤ) →
      ∃ e, formulateZetaAngle i j 0 = .ok
        (⟨"\\zeta^" ++ toString i ++ "_{" ++ toString j ++ "(" ++ toString (0:ℤ) ++ ")}", .real⟩, e)) := by
  have hL : formulateZetaAngle = formulateZetaAngleF (997 + 3) := rfl
  rw [hL]
  obtain ⟨h1, h2⟩ := zeta_classification 997 i j k
  refine ⟨?_, ?_, ?_⟩
  · by_cases hi : i = 0
    · by_cases hjk : j ∈ ([1, 2, 3] : List ℤ) ∧ k ∈ ([1, 2, 3] : List ℤ)
      · obtain ⟨e, he⟩ := (h1 hi).1 hjk; rw [he]; simp
      · rw [(h1 hi).2 hjk]; simp
    · by_cases hj : j = if k = 0 then i else k
      · rw [(h2 hi).1 hj]; simp
      · by_cases hall : i ∈ ([1, 2, 3] : List ℤ) ∧ j ∈ ([1, 2, 3] : List ℤ) ∧
            (if k = 0 then i else k) ∈ ([1, 2, 3] : List ℤ)
        · obtain ⟨e, he⟩ := (h2 hi).2.1 hall; rw [he]; simp
        · rw [(h2 hi).2.2 hj hall]; simp
  · intro hi hj hk
    rcases List.mem_cons.1 hi with rfl | hi
    · exact (h1 rfl).1 ⟨hj, hk⟩
    · have hi0 : i ≠ 0 := by rintro rfl; simp at hi
      have hk0 : k ≠ 0 := by rintro rfl; simp at hk
      exact (h2 hi0).2.1 ⟨hi, hj, by rw [if_neg hk0]; exact hk⟩
  · intro hi hj
    have hi0 : i ≠ 0 := by rintro rfl; simp at hi
    exact ((zeta_classification 997 i j 0).2 hi0).2.1 ⟨hi, hj, by simpa using hi⟩

/-- **C13** Exact error behaviour for arbitrary integer IDs. -/
theorem C13_zeta_errors (i j k : ℤ) :
    (formulateZetaAngle i j k = .error .valueError ↔
      i = 0 ∧ ¬ (j ∈ ([1, 2, 3] : List ℤ) ∧ k ∈ ([1, 2, 3] : List ℤ))) ∧
    (formulateZetaAngle i j k = .error .notImplementedError ↔
      i ≠ 0 ∧ j ≠ (if k = 0 then i else k) ∧
        ¬ (i ∈ ([1, 2, 3] : List ℤ) ∧ j ∈ ([1, 2, 3] : List ℤ) ∧
          (if k = 0 then i else k) ∈ ([1, 2, 3] : List ℤ))) := by
  have hL : formulateZetaAngle = formulateZetaAngleF (997 + 3) := rfl
  rw [hL]
  obtain ⟨h1, h2⟩ := zeta_classification 997 i j k
  by_cases hi : i = 0
  · by_cases hjk : j ∈ ([1, 2, 3] : List ℤ) ∧ k ∈ ([1, 2, 3] : List ℤ)
    · obtain ⟨e, he⟩ := (h1 hi).1 hjk
      rw [he]
      exact ⟨⟨fun h => (by cases h), fun h => absurd hjk h.2⟩, ⟨fun h => (by cases h), fun h => absurd hi h.1⟩⟩
    · rw [(h1 hi).2 hjk]
      exact ⟨⟨fun _ => ⟨hi, hjk⟩, fun _ => rfl⟩, ⟨fun h => (by cases h), fun h => absurd hi h.1⟩⟩
  · by_cases hj : j = if k = 0 then i else k
    · rw [(h2 hi).1 hj]
      exact ⟨⟨fun h => (by cases h), fun h => absurd h.1 hi⟩, ⟨fun h => (by cases h), fun h => absurd hj h.2.1⟩⟩
    · by_cases hall : i ∈ ([1, 2, 3] : List ℤ) ∧ j ∈ ([1, 2, 3] : List ℤ) ∧
          (if k = 0 then i else k) ∈ ([1, 2, 3] : List ℤ)
      · obtain ⟨e, he⟩ := (h2 hi).2.1 hall; rw [he]
        exact ⟨⟨fun h => (by cases h), fun h => absurd h.1 hi⟩, ⟨fun h => (by cases h), fun h => absurd hall h.2.2⟩⟩
      · rw [(h2 hi).2.2 hj hall]
        exact ⟨⟨fun h => (by cases h), fun h => absurd h.1 hi⟩, ⟨fun _ => ⟨hi, hj, hall⟩, fun _ => rfl⟩⟩

/-- **C13** Symmetry rules: `ζ^i_k(k) = 0`, `ζ^i_j(0) = ζ^i_j(i)` as expressions, and
`ζ^i_j(k) = -ζ^i_k(j)` in value, for all symbol values. -/
theorem C13_zeta_symmetry :
    (∀ i ∈ ([0, 1, 2, 3] : List ℤ), ∀ k ∈ ([1, 2, 3] : List ℤ),
      ∃ s, formulateZetaAngle i k k = .ok (s, 0)) ∧
    (∀ i ∈ ([1, 2, 3] : List ℤ), ∀ j ∈ ([1, 2, 3] : List ℤ),
      ∃ s s' e, formulateZetaAngle i j 0 = .ok (s, e) ∧ formulateZetaAngle i j i = .ok (s', e)) ∧
    (∀ i ∈ ([0, 1, 2, 3] : List ℤ), ∀ j ∈ ([1, 2, 3] : List ℤ), ∀ k ∈ ([1, 2, 3] : List ℤ),
      ∀ s s' e e', formulateZetaAngle i j k = .ok (s, e) → formulateZetaAngle i k j = .ok (s', e') →
        ∀ ρ x, e.eval ρ = some x ↔ e'.eval ρ = some (-x)) := by
  refine ⟨?_, ?_, ?_⟩
  · intro i hi k hk
    rcases List.mem_cons.1 hi with rfl | hi
    · refine ⟨zetaSym 0 k k, ?_⟩
      show formulateZetaAngleF (999 + 1) 0 k k = _
      rw [zeta_rot0, hat_self 998 hk]; rfl
    · have hi0 : i ≠ 0 := by rintro rfl; simp at hi
      have hk0 : k ≠ 0 := by rintro rfl; simp at hk
      exact ⟨_, zeta_self 999 hi0 hk0⟩
  · intro i hi j hj
    have hi0 : i ≠ 0 := by rintro rfl; simp at hi
    obtain ⟨e, he⟩ := ((zeta_classification 996 i j i).2 hi0).2.1
      ⟨hi, hj, by rw [if_neg hi0]; exact hi⟩
    refine ⟨zetaSym i j 0, zetaSym i j i, e, ?_, ?_⟩
    · show formulateZetaAngleF (999 + 1) i j 0 = _
      rw [zeta_ref0 _ hi0, he]; rfl
    · by_cases hji : j = i
      · subst hji
        have : formulateZetaAngle j j j = _ := zeta_self 999 hi0 hi0
        have he' : formulateZetaAngleF (998 + 1) j j j = .ok (zetaSym j j j, e) := he
        rw [zeta_self 998 hi0 hi0] at he'
        rw [this]; exact he'
      · obtain ⟨a, b, hc, hj', -⟩ := zeta_triples hi hj hi
        obtain ⟨_, f2, _, f4, _, _⟩ := zeta_forms 997 hc
        obtain ⟨_, g2, _, g4, _, _⟩ := zeta_forms 998 hc
        rcases hj' with rfl | rfl | rfl
        · exact absurd rfl hji
        · exact g2.trans (f2.symm.trans he)
        · exact g4.trans (f4.symm.trans he)
  · intro i hi j hj k hk s s' e e' h1 h2 ρ x
    have hneg : ∀ (e : RExpr) x, e.eval ρ = some x ↔ (-e).eval ρ = some (-x) := by
      intro e x
      show _ ↔ eval ρ (.neg e) = _
      simp only [eval]
      cases eval ρ e with
      | none => simp
      | some y => simp
    have hneg' : ∀ (e : RExpr) x, (-e).eval ρ = some x ↔ e.eval ρ = some (-x) := by
      intro e x
      have := hneg e (-x)
      rw [neg_neg] at this
      exact this.symm
    have h00 : ∀ x, eval ρ (0 : RExpr) = some x ↔ eval ρ (0 : RExpr) = some (-x) := by
      intro x
      have h0 : eval ρ (0 : RExpr) = some 0 := by
        have := eval_num (n := 0) ρ; simpa using this
      rw [h0]; simp
      constructor
      · intro h; linarith
      · intro h; linarith
    rcases List.mem_cons.1 hi with rfl | hi
    · change formulateZetaAngleF (999 + 1) 0 j k = _ at h1
      change formulateZetaAngleF (999 + 1) 0 k j = _ at h2
      rw [zeta_rot0] at h1 h2
      rcases pair_cases hj hk with rfl | ⟨l, hl⟩ | ⟨l, hl⟩
      · rw [hat_self 998 hj] at h1 h2
        cases h1; cases h2; exact h00 x
      · rw [(hat_forms 997 hl).1] at h1
        rw [(hat_forms 997 hl).2] at h2
        cases h1; cases h2; exact hneg _ x
      · rw [(hat_forms 997 hl).2] at h1
        rw [(hat_forms 997 hl).1] at h2
        cases h1; cases h2; exact hneg' _ x
    · have hi0 : i ≠ 0 := by rintro rfl; simp at hi
      have hj0 : j ≠ 0 := by rintro rfl; simp at hj
      obtain ⟨a, b, hc, hj', hk'⟩ := zeta_triples hi hj hk
      obtain ⟨f1, f2, f3, f4, f5, f6⟩ := zeta_forms 998 hc
      change formulateZetaAngleF (998 + 2) i j k = _ at h1
      change formulateZetaAngleF (998 + 2) i k j = _ at h2
      by_cases hjk : j = k
      · subst hjk
        rw [zeta_self (998 + 1) hi0 hj0] at h1 h2
        cases h1; cases h2; exact h00 x
      rcases hj' with rfl | rfl | rfl <;> rcases hk' with rfl | rfl | rfl
      · exact absurd rfl hjk
      · rw [f5] at h1; rw [f2] at h2; cases h1; cases h2; exact hneg' _ x
      · rw [f1] at h1; rw [f4] at h2; cases h1; cases h2; exact hneg _ x
      · rw [f2] at h1; rw [f5] at h2; cases h1; cases h2; exact hneg _ x
      · exact absurd rfl hjk
      · rw [f3] at h1; rw [f6] at h2; cases h1; cases h2; exact hneg _ x
      · rw [f4] at h1; rw [f1] at h2; cases h1; cases h2; exact hneg' _ x
      · rw [f6] at h1; rw [f3] at h2; cases h1; cases h2; exact hneg' _ x
      · exact absurd rfl hjk

theorem zeta_sym {i j k : ℤ} {s : Sym} {e : RExpr} (h : formulateZetaAngle i j k = .ok (s, e)) :
    s = zetaSym i j k := by
  change formulateZetaAngleF (997 + 3) i j k = _ at h
  obtain ⟨h1, h2⟩ := zeta_classification 997 i j k
  by_cases hi : i = 0
  · by_cases hjk : j ∈ ([1, 2, 3] : List ℤ) ∧ k ∈ ([1, 2, 3] : List ℤ)
    · obtain ⟨e, he⟩ := (h1 hi).1 hjk; rw [he] at h; cases h; rfl
    · rw [(h1 hi).2 hjk] at h; cases h
  · by_cases hj : j = if k = 0 then i else k
    · rw [(h2 hi).1 hj] at h; cases h; rfl
    · by_cases hall : i ∈ ([1, 2, 3] : List ℤ) ∧ j ∈ ([1, 2, 3] : List ℤ) ∧
          (if k = 0 then i else k) ∈ ([1, 2, 3] : List ℤ)
      · obtain ⟨e, he⟩ := (h2 hi).2.1 hall; rw [he] at h; cases h; rfl
      · rw [(h2 hi).2.2 hj hall] at h; cases h

/-- **C13** The symbols of different ID triples are different. -/
theorem C13_zeta_symbols_injective {i j k i' j' k' : ℤ} {s : Sym} {e e' : RExpr}
    (h : formulateZetaAngle i j k = .ok (s, e)) (h' : formulateZetaAngle i' j' k' = .ok (s, e')) :
    (i, j, k) = (i', j', k') := by
  have h1 := (zeta_sym h).symm.trans (zeta_sym h')
  have h2 := congrArg (fun s => s.name.toList) h1
  simp only [zetaSym, String.toList_append, List.append_assoc, List.append_cancel_left_eq] at h2
  have c1 : ("_{" : String).toList = '_' :: ['{'] := rfl
  have c2 : ("(" : String).toList = '(' :: [] := rfl
  have c3 : (")}" : String).toList = ')' :: ['}'] := rfl
  rw [c1, c2, c3] at h2
  simp only [List.cons_append, List.nil_append] at h2
  obtain ⟨q1, q2⟩ := split_unique (int_name_no (by decide) (by decide))
    (int_name_no (by decide) (by decide)) h2
  simp only [List.cons.injEq, true_and] at q2
  obtain ⟨q3, q4⟩ := split_unique (int_name_no (by decide) (by decide))
    (int_name_no (by decide) (by decide)) q2
  obtain ⟨q5, -⟩ := split_unique (int_name_no (by decide) (by decide))
    (int_name_no (by decide) (by decide)) q4
  rw [toString_int_inj (String.toList_inj.1 q1), toString_int_inj (String.toList_inj.1 q3),
    toString_int_inj (String.toList_inj.1 q5)]

/-! ### C14 -/

/-- **C14** Exact sum rule for final-state particles: `ζ^i_j(l) + ζ^i_l(k) = ζ^i_j(k)` for every
event, seen in any frame, whenever the angles are defined. -/
theorem C14_zeta_sum_rule (h : AtEvent ρ ev) {i j l k : ℤ} (hi : i ∈ ([1, 2, 3] : List ℤ))
    (hj : j ∈ ([1, 2, 3] : List ℤ)) (hl : l ∈ ([1, 2, 3] : List ℤ)) (hk : k ∈ ([1, 2, 3] : List ℤ))
    {s1 s2 s3 : Sym} {e1 e2 e3 : RExpr} {x y z : ℝ}
    (h1 : formulateZetaAngle i j l = .ok (s1, e1)) (h2 : formulateZetaAngle i l k = .ok (s2, e2))
    (h3 : formulateZetaAngle i j k = .ok (s3, e3))
    (hx : e1.eval ρ = some x) (hy : e2.eval ρ = some y) (hz : e3.eval ρ = some z) :
    x + y = z := by
  obtain ⟨a, b, hc, -, -⟩ := zeta_triples hi hi hi
  obtain ⟨pos, -, p1, p2, p3⟩ := zeta_positions h hc
  have hi0 : i ≠ 0 := by rintro rfl; simp at hi
  have key : ∀ {j k : ℤ} {s : Sym} {e : RExpr} {x : ℝ}, j ∈ ([1, 2, 3] : List ℤ) →
      k ∈ ([1, 2, 3] : List ℤ) → formulateZetaAngle i j k = .ok (s, e) → e.eval ρ = some x →
      x = pos j - pos k := by
    intro j k s e x hj hk he hx
    have hj0 : j ≠ 0 := by rintro rfl; simp at hj
    obtain ⟨a', b', hc', hj', hk'⟩ := zeta_triples hi hj hk
    have hab : a' = a ∧ b' = b := by
      rcases cyclic_cases hc with ⟨rfl, rfl, rfl⟩ | ⟨rfl, rfl, rfl⟩ | ⟨rfl, rfl, rfl⟩ <;>
        rcases cyclic_cases hc' with ⟨q, rfl, rfl⟩ | ⟨q, rfl, rfl⟩ | ⟨q, rfl, rfl⟩ <;> simp_all
    obtain ⟨rfl, rfl⟩ := hab
    obtain ⟨f1, f2, f3, f4, f5, f6⟩ := zeta_forms 998 hc
    change formulateZetaAngleF (998 + 2) i j k = _ at he
    have hn : ∀ {e : RExpr} {x : ℝ}, (-e).eval ρ = some x → e.eval ρ = some (-x) := by
      intro e x hx
      change eval ρ (.neg e) = _ at hx
      simp only [eval] at hx
      cases hv : eval ρ e with
      | none => rw [hv] at hx; simp at hx
      | some y => rw [hv] at hx; simp at hx; simp [← hx]
    by_cases hjk : j = k
    · subst hjk
      rw [zeta_self (998 + 1) hi0 hj0] at he
      cases he
      have h0 : eval ρ (0 : RExpr) = some 0 := by
        have := eval_num (n := 0) ρ; simpa using this
      rw [h0] at hx; cases hx; ring
    rcases hj' with rfl | rfl | rfl <;> rcases hk' with rfl | rfl | rfl
    · exact absurd rfl hjk
    · rw [f5] at he; cases he; linarith [p2 _ (hn hx)]
    · rw [f1] at he; cases he; exact p1 _ hx
    · rw [f2] at he; cases he; exact p2 _ hx
    · exact absurd rfl hjk
    · rw [f3] at he; cases he; exact p3 _ hx
    · rw [f4] at he; cases he; linarith [p1 _ (hn hx)]
    · rw [f6] at he; cases he; linarith [p3 _ (hn hx)]
    · exact absurd rfl hjk
  rw [key hj hl h1 hx, key hl hk h2 hy, key hj hk h3 hz]; ring

/-- **C14** For the initial state (`i = 0`) the sum rule does not hold for any event: going around
the three subsystems gives `2π` instead of `0`. -/
theorem C14_initial_state_turn (h : AtEvent ρ ev) (hm : 0 < ev.m 0)
    {s1 s2 s3 : Sym} {e1 e2 e3 : RExpr} {x y z : ℝ}
    (h1 : formulateZetaAngle 0 1 2 = .ok (s1, e1)) (h2 : formulateZetaAngle 0 2 3 = .ok (s2, e2))
    (h3 : formulateZetaAngle 0 1 3 = .ok (s3, e3))
    (hx : e1.eval ρ = some x) (hy : e2.eval ρ = some y) (hz : e3.eval ρ = some z) :
    x + y = z + 2 * Real.pi := by
  have c12 : Cyclic 1 2 3 := by unfold Cyclic; decide
  have c23 : Cyclic 2 3 1 := by unfold Cyclic; decide
  have c31 : Cyclic 3 1 2 := by unfold Cyclic; decide
  change formulateZetaAngleF (999 + 1) 0 1 2 = _ at h1
  change formulateZetaAngleF (999 + 1) 0 2 3 = _ at h2
  change formulateZetaAngleF (999 + 1) 0 1 3 = _ at h3
  rw [zeta_rot0, (hat_forms 997 c12).1] at h1
  rw [zeta_rot0, (hat_forms 997 c23).1] at h2
  rw [zeta_rot0, (hat_forms 997 c31).2] at h3
  cases h1; cases h2; cases h3
  have hz' : eval ρ (hatE 3 1 2) = some (-z) := by
    change eval ρ (.neg (hatE 3 1 2)) = _ at hz
    simp only [eval] at hz
    cases hv : eval ρ (hatE 3 1 2) with
    | none => rw [hv] at hz; simp at hz
    | some y => rw [hv] at hz; simp at hz; simp [← hz]
  have := C11_theta_hat_full_turn h hm ((hat_forms 998 c12).1) ((hat_forms 998 c23).1)
    ((hat_forms 998 c31).1) hx hy hz'
  linarith

/-! ### C15 -/

/-- **C15** Inside the Dalitz region (no event assumed) every angle is defined, and every angle
that is not identically zero is strictly between `0` and `π` in absolute value, i.e. every `acos`
argument is strictly between `-1` and `1`. -/
theorem C15_defined_on_dalitz (h : DalitzInterior ρ) :
    (∀ i ∈ ([1, 2, 3] : List ℤ), ∀ j ∈ ([1, 2, 3] : List ℤ), i ≠ j →
      ∃ s e v, formulateScatteringAngle i j = .ok (s, e) ∧ e.eval ρ = some v ∧
        0 < v ∧ v < Real.pi) ∧
    (∀ i ∈ ([1, 2, 3] : List ℤ), ∀ j ∈ ([1, 2, 3] : List ℤ), i ≠ j →
      ∃ s e v, formulateThetaHatAngle i j = .ok (s, e) ∧ e.eval ρ = some v ∧
        0 < |v| ∧ |v| < Real.pi) ∧
    (∀ i ∈ ([0, 1, 2, 3] : List ℤ), ∀ j ∈ ([1, 2, 3] : List ℤ), ∀ k ∈ ([1, 2, 3] : List ℤ), j ≠ k →
      ∃ s e v, formulateZetaAngle i j k = .ok (s, e) ∧ e.eval ρ = some v ∧
        0 < |v| ∧ |v| < Real.pi) := by
  have hpos : ∀ {e : RExpr}, (∃ v, e.eval ρ = some v ∧ 0 < v ∧ v < Real.pi) →
      (∃ v, e.eval ρ = some v ∧ 0 < |v| ∧ |v| < Real.pi) ∧
      (∃ v, (-e).eval ρ = some v ∧ 0 < |v| ∧ |v| < Real.pi) := by
    rintro e ⟨v, h1, h2, h3⟩
    refine ⟨⟨v, h1, ?_⟩, ⟨-v, eval_neg ρ h1, ?_⟩⟩
    · rw [abs_of_pos h2]; exact ⟨h2, h3⟩
    · rw [abs_neg, abs_of_pos h2]; exact ⟨h2, h3⟩
  have hhat : ∀ n, ∀ i ∈ ([1, 2, 3] : List ℤ), ∀ j ∈ ([1, 2, 3] : List ℤ), i ≠ j →
      ∃ e v, formulateThetaHatAngleF (n + 2) i j = .ok (hatSym i j, e) ∧ e.eval ρ = some v ∧
        0 < |v| ∧ |v| < Real.pi := by
    intro n i hi j hj hij
    rcases pair_cases hi hj with rfl | ⟨k, hk⟩ | ⟨k, hk⟩
    · exact absurd rfl hij
    · obtain ⟨v, hv⟩ := (hpos (thetaHat_strict h (cyclic_perm hk))).1
      exact ⟨_, v, (hat_forms n hk).1, hv⟩
    · obtain ⟨v, hv⟩ := (hpos (thetaHat_strict h (cyclic_perm hk))).2
      exact ⟨_, v, (hat_forms n hk).2, hv⟩
  refine ⟨?_, ?_, ?_⟩
  · intro i hi j hj hij
    have : ∃ k, IsPerm123 i j k := by
      rcases pair_cases hi hj with rfl | ⟨k, hk⟩ | ⟨k, hk⟩
      · exact absurd rfl hij
      · exact ⟨k, cyclic_perm hk⟩
      · exact ⟨k, perm_swap (cyclic_perm hk)⟩
    obtain ⟨k, hp⟩ := this
    obtain ⟨v, hv⟩ := scattering_strict h hp
    exact ⟨_, _, v, scat_forms hp, hv⟩
  · intro i hi j hj hij
    obtain ⟨e, v, he⟩ := hhat 998 i hi j hj hij
    exact ⟨_, e, v, he⟩
  · intro i hi j hj k hk hjk
    rcases List.mem_cons.1 hi with rfl | hi
    · obtain ⟨e, v, he, hv⟩ := hhat 997 j hj k hk hjk
      refine ⟨zetaSym 0 j k, e, v, ?_, hv⟩
      show formulateZetaAngleF (999 + 1) 0 j k = _
      rw [zeta_rot0, he]; rfl
    · obtain ⟨a, b, hc, hj', hk'⟩ := zeta_triples hi hj hk
      obtain ⟨f1, f2, f3, f4, f5, f6⟩ := zeta_forms 998 hc
      have hp := cyclic_perm hc
      have hp' : IsPerm123 i b a := perm_swap (perm_rot (perm_rot hp))
      obtain ⟨⟨v1, w1⟩, ⟨v4, w4⟩⟩ := hpos (zetaA_strict h hp)
      obtain ⟨⟨v2, w2⟩, ⟨v5, w5⟩⟩ := hpos (zetaA_strict h hp')
      obtain ⟨⟨v3, w3⟩, ⟨v6, w6⟩⟩ := hpos (zetaB_strict h hp)
      rcases hj' with rfl | rfl | rfl <;> rcases hk' with rfl | rfl | rfl
      · exact absurd rfl hjk
      · exact ⟨_, _, v5, f5, w5⟩
      · exact ⟨_, _, v1, f1, w1⟩
      · exact ⟨_, _, v2, f2, w2⟩
      · exact absurd rfl hjk
      · exact ⟨_, _, v3, f3, w3⟩
      · exact ⟨_, _, v4, f4, w4⟩
      · exact ⟨_, _, v6, f6, w6⟩
      · exact absurd rfl hjk

/-- The centre of the Dalitz plot of `5 → 1 1 1`. -/
example : DalitzInterior (fun s => if s.name = "m0" then 5 else if s.name = "m1" then 1
    else if s.name = "m2" then 1 else if s.name = "m3" then 1 else 28 / 3) := by
  constructor <;> simp [SumRule, BetweenThresholds, lam] <;> norm_num

/-! ### An event -/

/-- An event in the rest frame of the decaying particle, with energies 5, 13 and 5. -/
noncomputable def exEvent : Event ℂ where
  P i := if i = 0 then ⟨23, 0⟩ else if i = 1 then ⟨5, 3⟩ else if i = 2 then ⟨13, ⟨-3, 4⟩⟩ else ⟨5, ⟨0, -4⟩⟩
  m i := if i = 0 then 23 else if i = 1 then 4 else if i = 2 then 12 else 3
  total := by
    norm_num [FourVec.ext_iff, FourVec.add_E, FourVec.add_p, Complex.ext_iff]
  m_nonneg i := by split_ifs <;> norm_num
  mass_shell i hi := by
    simp only [List.mem_cons, List.not_mem_nil, or_false] at hi
    rcases hi with rfl | rfl | rfl | rfl <;>
      norm_num [FourVec.sq, ← Complex.normSq_eq_norm_sq, Complex.normSq_mk]
  energy_nonneg i hi := by
    simp only [List.mem_cons, List.not_mem_nil, or_false] at hi
    rcases hi with rfl | rfl | rfl <;> norm_num

theorem exEvent_interior {ρ : Sym → ℝ} (h : AtEvent ρ exEvent) : DalitzInterior ρ := by
  have e : ∀ x : ℂ, ‖x‖ ^ 2 = x.re * x.re + x.im * x.im := fun x => by
    rw [← Complex.normSq_eq_norm_sq, Complex.normSq_apply]
  have h0 : ρ ⟨"m0", .nonneg⟩ = 23 := h.m0
  have h1 : ρ ⟨"m1", .nonneg⟩ = 4 := h.m1
  have h2 : ρ ⟨"m2", .nonneg⟩ = 12 := h.m2
  have h3 : ρ ⟨"m3", .nonneg⟩ = 3 := h.m3
  have g1 : ρ ⟨"sigma1", .nonneg⟩ = 315 := by
    rw [h.s1]; norm_num [exEvent, FourVec.sq, FourVec.add_E, FourVec.add_p, e]
  have g2 : ρ ⟨"sigma2", .nonneg⟩ = 75 := by
    rw [h.s2]; norm_num [exEvent, FourVec.sq, FourVec.add_E, FourVec.add_p, e]
  have g3 : ρ ⟨"sigma3", .nonneg⟩ = 308 := by
    rw [h.s3]; norm_num [exEvent, FourVec.sq, FourVec.add_E, FourVec.add_p, e]
  constructor <;> simp only [SumRule, BetweenThresholds, lam, h0, h1, h2, h3, g1, g2, g3] <;> norm_num

/-- C09: the sum rule holds for the event. -/
example : ∃ ρ, AtEvent ρ exEvent ∧ ∃ s s' e e' θ, formulateScatteringAngle 3 1 = .ok (s, e) ∧
    formulateScatteringAngle 1 3 = .ok (s', e') ∧ e.eval ρ = some θ ∧ e'.eval ρ = some (Real.pi - θ) := by
  obtain ⟨ρ, hρ⟩ := env_exists exEvent
  have hd := exEvent_interior hρ
  obtain ⟨s, s', e, e', h1, h2, h3⟩ := C09_scattering_swapped hd.sum (i := 3) (j := 1) (k := 2)
    (by unfold IsPerm123; decide)
  obtain ⟨s1, e1, v, h4, h5, -⟩ := (C15_defined_on_dalitz hd).1 3 (by simp) 1 (by simp) (by simp)
  rw [h1] at h4
  cases h4
  exact ⟨ρ, hρ, s, s', e, e', v, h1, h2, h5, by rw [h3, h5]; rfl⟩

/-- C11: the three angles of the event are defined and add up to a full turn. -/
example : ∃ ρ, AtEvent ρ exEvent ∧ ∃ s12 s23 s31 e12 e23 e31 x y z,
    formulateThetaHatAngle 1 2 = .ok (s12, e12) ∧ formulateThetaHatAngle 2 3 = .ok (s23, e23) ∧
    formulateThetaHatAngle 3 1 = .ok (s31, e31) ∧ e12.eval ρ = some x ∧ e23.eval ρ = some y ∧
    e31.eval ρ = some z ∧ x ≠ 0 ∧ x + y + z = 2 * Real.pi := by
  obtain ⟨ρ, hρ⟩ := env_exists exEvent
  have hd := (C15_defined_on_dalitz (exEvent_interior hρ)).2.1
  obtain ⟨s1, e1, x, a1, a2, a3, -⟩ := hd 1 (by simp) 2 (by simp) (by simp)
  obtain ⟨s2, e2, y, b1, b2, -⟩ := hd 2 (by simp) 3 (by simp) (by simp)
  obtain ⟨s3, e3, z, c1, c2, -⟩ := hd 3 (by simp) 1 (by simp) (by simp)
  exact ⟨ρ, hρ, s1, s2, s3, e1, e2, e3, x, y, z, a1, b1, c1, a2, b2, c2, abs_pos.1 a3,
    C11_theta_hat_full_turn hρ (by norm_num [exEvent]) a1 b1 c1 a2 b2 c2⟩

/-- C13: two alignment angles have different symbols. -/
example {s s' : Sym} {e e' : RExpr} (h : formulateZetaAngle 1 2 3 = .ok (s, e))
    (h' : formulateZetaAngle 1 3 2 = .ok (s', e')) : s ≠ s' := by
  rintro rfl
  exact absurd (C13_zeta_symbols_injective h h') (by decide)

/-- C14: the sum rules for the event. -/
example : ∃ ρ, AtEvent ρ exEvent ∧ ∃ s1 s2 s3 e1 e2 e3 x y z,
    formulateZetaAngle 1 2 3 = .ok (s1, e1) ∧ formulateZetaAngle 1 3 1 = .ok (s2, e2) ∧
    formulateZetaAngle 1 2 1 = .ok (s3, e3) ∧ e1.eval ρ = some x ∧ e2.eval ρ = some y ∧
    e3.eval ρ = some z ∧ x ≠ 0 ∧ y ≠ 0 ∧ x + y = z := by
  obtain ⟨ρ, hρ⟩ := env_exists exEvent
  have hd := (C15_defined_on_dalitz (exEvent_interior hρ)).2.2
  obtain ⟨s1, e1, x, a1, a2, a3, -⟩ := hd 1 (by simp) 2 (by simp) 3 (by simp) (by simp)
  obtain ⟨s2, e2, y, b1, b2, b3, -⟩ := hd 1 (by simp) 3 (by simp) 1 (by simp) (by simp)
  obtain ⟨s3, e3, z, c1, c2, -⟩ := hd 1 (by simp) 2 (by simp) 1 (by simp) (by simp)
  exact ⟨ρ, hρ, s1, s2, s3, e1, e2, e3, x, y, z, a1, b1, c1, a2, b2, c2, abs_pos.1 a3, abs_pos.1 b3,
    C14_zeta_sum_rule hρ (by simp) (by simp) (by simp) (by simp) a1 b1 c1 a2 b2 c2⟩

example : ∃ ρ, AtEvent ρ exEvent ∧ ∃ s1 s2 s3 e1 e2 e3 x y z,
    formulateZetaAngle 0 1 2 = .ok (s1, e1) ∧ formulateZetaAngle 0 2 3 = .ok (s2, e2) ∧
    formulateZetaAngle 0 1 3 = .ok (s3, e3) ∧ e1.eval ρ = some x ∧ e2.eval ρ = some y ∧
    e3.eval ρ = some z ∧ x + y = z + 2 * Real.pi := by
  obtain ⟨ρ, hρ⟩ := env_exists exEvent
  have hd := (C15_defined_on_dalitz (exEvent_interior hρ)).2.2
  obtain ⟨s1, e1, x, a1, a2, -⟩ := hd 0 (by simp) 1 (by simp) 2 (by simp) (by simp)
  obtain ⟨s2, e2, y, b1, b2, -⟩ := hd 0 (by simp) 2 (by simp) 3 (by simp) (by simp)
  obtain ⟨s3, e3, z, c1, c2, -⟩ := hd 0 (by simp) 1 (by simp) 3 (by simp) (by simp)
  exact ⟨ρ, hρ, s1, s2, s3, e1, e2, e3, x, y, z, a1, b1, c1, a2, b2, c2,
    C14_initial_state_turn hρ (by norm_num [exEvent]) a1 b1 c1 a2 b2 c2⟩

end Verif.Angles
