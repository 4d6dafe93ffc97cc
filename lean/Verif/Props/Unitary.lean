import Verif.Proofs.LsMatrix
import Verif.Proofs.Parity
import Verif.Spec.Recoupling
import Verif.Model.Builder
import Verif.Model.SerialAmplitude

/-! Property C94: the factors of the LS couplings form an orthogonal matrix. -/
namespace Verif.ThreeBody
open Verif Verif.Spec Verif.Spin

variable {ι : Interp}

/-- Value of the factor that the code writes for the LS coupling `x` of a decay to `c1` and `c2` with helicities `h1` and
`h2`. -/
noncomputable def factorValue (ι : Interp) (parent : Obj) (c1 c2 : Node) (x : ℤ × ℚ) (h1 h2 : ℚ) : ℂ :=
  match clebschGordanFactors (.isobar parent c1 c2 (some ⟨x.1, x.2⟩))
      (PyDict.ofItems [(c1.toParticle, .num h1), (c2.toParticle, .num h2)]) with
  | .ok e => e.eval ι fun _ => 0
  | .error _ => 0

theorem factorValue_eq (parent : Obj) {c1 c2 : Node} (h : c1.toParticle ≠ c2.toParticle) (x : ℤ × ℚ) (h1 h2 : ℚ) :
    factorValue ι parent c1 c2 x h1 h2 =
      lsFactor ι parent.toP.spin c1.toParticle.toP.spin c2.toParticle.toP.spin ⟨x.1, x.2⟩ h1 h2 := by
  unfold factorValue clebschGordanFactors
  obtain ⟨g1, g2⟩ := get_two c1.toParticle c2.toParticle (Hel.num h1) (.num h2)
  rw [if_neg h] at g2
  simp only [bind, Except.bind, g1, g2]
  simp [pure, Except.pure, lsFactor, Expr.eval, Hel.eval]

/-- C94: the factors for two pairs of helicities are orthonormal vectors: the sum over all LS couplings of the product of
the factors is 1 if the helicities are the same and 0 otherwise. -/
theorem C94_helicities (hcg : UsesClebschGordan ι) {parent : Obj} {c1 c2 : Node} (hne : c1.toParticle ≠ c2.toParticle)
    {J s1 s2 : ℚ} (hJ : parent.toP.spin = J) (h1 : c1.toParticle.toP.spin = s1) (h2 : c2.toParticle.toP.spin = s2)
    (hs : DecaySpins J s1 s2) {maxL : ℤ} (hmax : J + s1 + s2 ≤ maxL) {h h' : ℚ × ℚ}
    (hh : h ∈ vertexHelicities J s1 s2) (hh' : h' ∈ vertexHelicities J s1 s2) :
    ((generateLsCouplings J s1 s2 maxL).map fun x =>
      factorValue ι parent c1 c2 x h.1 h.2 * factorValue ι parent c1 c2 x h'.1 h'.2).sum = if h = h' then 1 else 0 := by
  simp only [factorValue_eq parent hne, hJ, h1, h2]
  exact Cg.ls_complete_spins hcg hs hmax hh hh'

/-- C94: the factors of two LS couplings are orthonormal vectors: the sum over all helicities of the product of the
factors is 1 if the couplings are the same and 0 otherwise. -/
theorem C94_couplings (hcg : UsesClebschGordan ι) {parent : Obj} {c1 c2 : Node} (hne : c1.toParticle ≠ c2.toParticle)
    {J s1 s2 : ℚ} (hJ : parent.toP.spin = J) (h1 : c1.toParticle.toP.spin = s1) (h2 : c2.toParticle.toP.spin = s2)
    (hs : DecaySpins J s1 s2) {maxL : ℤ} (hmax : J + s1 + s2 ≤ maxL) {x y : ℤ × ℚ}
    (hx : x ∈ generateLsCouplings J s1 s2 maxL) (hy : y ∈ generateLsCouplings J s1 s2 maxL) :
    ∑ h ∈ vertexHelicities J s1 s2,
      factorValue ι parent c1 c2 x h.1 h.2 * factorValue ι parent c1 c2 y h.1 h.2 = if x = y then 1 else 0 := by
  simp only [factorValue_eq parent hne, hJ, h1, h2]
  exact Cg.ls_orthogonal_spins hcg hs hmax hx hy

/-- C94: helicity couplings `H` are the sums of LS couplings `g` times factors if and only if the LS couplings are the
sums of helicity couplings times the same factors. -/
theorem C94_inverse (hcg : UsesClebschGordan ι) {parent : Obj} {c1 c2 : Node} (hne : c1.toParticle ≠ c2.toParticle)
    {J s1 s2 : ℚ} (hJ : parent.toP.spin = J) (h1 : c1.toParticle.toP.spin = s1) (h2 : c2.toParticle.toP.spin = s2)
    (hs : DecaySpins J s1 s2) {maxL : ℤ} (hmax : J + s1 + s2 ≤ maxL) (g : ℤ × ℚ → ℂ) (H : ℚ × ℚ → ℂ) :
    (∀ h ∈ vertexHelicities J s1 s2,
      H h = ((generateLsCouplings J s1 s2 maxL).map fun x => g x * factorValue ι parent c1 c2 x h.1 h.2).sum) ↔
    ∀ x ∈ generateLsCouplings J s1 s2 maxL,
      g x = ∑ h ∈ vertexHelicities J s1 s2, H h * factorValue ι parent c1 c2 x h.1 h.2 := by
  simp only [factorValue_eq parent hne, hJ, h1, h2, ← List.sum_toFinset _ (Cg.ls_nodup _ _ _ _)]
  constructor
  · intro hH x hx
    rw [Finset.sum_congr rfl fun h hh => by rw [hH h hh, Finset.sum_mul], Finset.sum_comm]
    simp only [mul_assoc, ← Finset.mul_sum]
    rw [Finset.sum_congr rfl fun y hy => by
      rw [Cg.ls_orthogonal_spins hcg hs hmax (List.mem_toFinset.1 hy) hx]]
    simp [hx]
  · intro hg h hh
    rw [Finset.sum_congr rfl fun x hx => by rw [hg x (List.mem_toFinset.1 hx), Finset.sum_mul], Finset.sum_comm]
    simp only [mul_assoc, ← Finset.mul_sum]
    rw [Finset.sum_congr rfl fun h' hh' => by
      rw [List.sum_toFinset _ (Cg.ls_nodup _ _ _ _), Cg.ls_complete_spins hcg hs hmax hh' hh]]
    simp [hh]

/-- C94: the sum of the squares of the helicity couplings is the sum of the squares of the LS couplings. -/
theorem C94_strength (hcg : UsesClebschGordan ι) {parent : Obj} {c1 c2 : Node} (hne : c1.toParticle ≠ c2.toParticle)
    {J s1 s2 : ℚ} (hJ : parent.toP.spin = J) (h1 : c1.toParticle.toP.spin = s1) (h2 : c2.toParticle.toP.spin = s2)
    (hs : DecaySpins J s1 s2) {maxL : ℤ} (hmax : J + s1 + s2 ≤ maxL) (g : ℤ × ℚ → ℂ) :
    ∑ h ∈ vertexHelicities J s1 s2,
      ‖((generateLsCouplings J s1 s2 maxL).map fun x => g x * factorValue ι parent c1 c2 x h.1 h.2).sum‖ ^ 2 =
    ((generateLsCouplings J s1 s2 maxL).map fun x => ‖g x‖ ^ 2).sum := by
  simp only [factorValue_eq parent hne, hJ, h1, h2, ← List.sum_toFinset _ (Cg.ls_nodup _ _ _ _)]
  have hc : ∀ x ∈ (generateLsCouplings J s1 s2 maxL).toFinset, ∀ h : ℚ × ℚ,
      (starRingEnd ℂ) (lsFactor ι J s1 s2 ⟨x.1, x.2⟩ h.1 h.2) = lsFactor ι J s1 s2 ⟨x.1, x.2⟩ h.1 h.2 := by
    intro x hx h
    rw [Cg.lsFactor_real hcg hs.1.1 (((C04_ls_contents _ _ _ _).1 _ _).1 (List.mem_toFinset.1 hx)).1, Complex.conj_ofReal]
  have key : ∑ h ∈ vertexHelicities J s1 s2,
      ((‖∑ x ∈ (generateLsCouplings J s1 s2 maxL).toFinset, g x * lsFactor ι J s1 s2 ⟨x.1, x.2⟩ h.1 h.2‖ ^ 2 : ℝ) : ℂ) =
      ∑ x ∈ (generateLsCouplings J s1 s2 maxL).toFinset, ((‖g x‖ ^ 2 : ℝ) : ℂ) := by
    have e1 : ∀ h : ℚ × ℚ,
        ((‖∑ x ∈ (generateLsCouplings J s1 s2 maxL).toFinset, g x * lsFactor ι J s1 s2 ⟨x.1, x.2⟩ h.1 h.2‖ ^ 2 : ℝ) : ℂ) =
        ∑ x ∈ (generateLsCouplings J s1 s2 maxL).toFinset, ∑ y ∈ (generateLsCouplings J s1 s2 maxL).toFinset,
          (starRingEnd ℂ) (g x) * g y *
            (lsFactor ι J s1 s2 ⟨x.1, x.2⟩ h.1 h.2 * lsFactor ι J s1 s2 ⟨y.1, y.2⟩ h.1 h.2) := by
      intro h
      push_cast
      rw [← Complex.conj_mul', map_sum, Finset.sum_mul_sum]
      refine Finset.sum_congr rfl fun x hx => Finset.sum_congr rfl fun y _ => ?_
      rw [map_mul, hc x hx]
      ring
    simp only [e1]
    rw [Finset.sum_comm]
    refine Finset.sum_congr rfl fun x hx => ?_
    rw [Finset.sum_comm]
    simp only [← Finset.mul_sum]
    rw [Finset.sum_congr rfl fun y hy => by
      rw [Cg.ls_orthogonal_spins hcg hs hmax (List.mem_toFinset.1 hx) (List.mem_toFinset.1 hy)]]
    push_cast
    rw [← Complex.conj_mul']
    simp [hx]
  exact_mod_cast key

/-- Parent, resonance and spectator of the decay `Λc → K* p`. -/
theorem exProduction : (Node.leaf exChainK.resonance).toParticle ≠ (Node.leaf (.state exChainK.spectator)).toParticle ∧
    DecaySpins (1 / 2) 1 (1 / 2) := by
  refine ⟨by simp [Node.toParticle, exChainK, exState], ⟨by norm_num, 1, by norm_num⟩, ⟨by norm_num, 2, by norm_num⟩,
    ⟨by norm_num, 1, by norm_num⟩, 2, by norm_num⟩

/-- For `Λc → K* p`, the factors of the helicities `(1, 1/2)` over all LS couplings have norm 1, and are orthogonal to those
of `(0, -1/2)`. -/
example : ∃ ι : Interp, UsesClebschGordan ι ∧
    ((generateLsCouplings (1 / 2) 1 (1 / 2) 2).map fun x =>
      factorValue ι (.state exChainK.parent) (.leaf exChainK.resonance) (.leaf (.state exChainK.spectator)) x 1 (1 / 2) *
      factorValue ι (.state exChainK.parent) (.leaf exChainK.resonance) (.leaf (.state exChainK.spectator)) x 1 (1 / 2)).sum
        = 1 ∧
    ((generateLsCouplings (1 / 2) 1 (1 / 2) 2).map fun x =>
      factorValue ι (.state exChainK.parent) (.leaf exChainK.resonance) (.leaf (.state exChainK.spectator)) x 1 (1 / 2) *
      factorValue ι (.state exChainK.parent) (.leaf exChainK.resonance) (.leaf (.state exChainK.spectator)) x 0 (-1 / 2)).sum
        = 0 := by
  have mem {h : ℚ × ℚ} (p1 : Projection 1 h.1) (p2 : Projection (1 / 2) h.2) (p : Projection (1 / 2) (h.1 - h.2)) :
      h ∈ vertexHelicities (1 / 2) 1 (1 / 2) := by
    classical
    unfold vertexHelicities
    rw [Finset.mem_filter, Finset.mem_product, mem_projections ⟨2, by norm_num⟩, mem_projections ⟨1, by norm_num⟩]
    exact ⟨⟨p1, p2⟩, p⟩
  have g1 : ((1 : ℚ), (1 / 2 : ℚ)) ∈ vertexHelicities (1 / 2) 1 (1 / 2) :=
    mem ⟨by norm_num, by norm_num, 0, by norm_num⟩ ⟨by norm_num, by norm_num, 0, by norm_num⟩
      ⟨by norm_num, by norm_num, 0, by norm_num⟩
  have g2 : ((0 : ℚ), (-1 / 2 : ℚ)) ∈ vertexHelicities (1 / 2) 1 (1 / 2) :=
    mem ⟨by norm_num, by norm_num, 1, by norm_num⟩ ⟨by norm_num, by norm_num, 1, by norm_num⟩
      ⟨by norm_num, by norm_num, 0, by norm_num⟩
  obtain ⟨ι, hι⟩ : ∃ ι : Interp, UsesClebschGordan ι :=
    ⟨{ sym := fun _ => 0
       idx := fun _ _ _ => 0
       wig := fun _ _ _ _ => 0
       cg := fun a b c d e f => (clebschGordan a b c d e f : ℂ)
       ff := fun _ _ _ _ _ => 0
       edw := fun _ _ _ _ _ _ _ _ => 0
       bmom := fun _ _ _ => 0 }, fun _ _ _ _ _ _ => rfl⟩
  refine ⟨ι, hι, ?_, ?_⟩
  · have := C94_helicities (parent := .state exChainK.parent) (J := 1 / 2) (s1 := 1) (s2 := 1 / 2) (maxL := 2) hι
      exProduction.1 rfl rfl rfl exProduction.2 (by norm_num) g1 g1
    simpa using this
  · have := C94_helicities (parent := .state exChainK.parent) (J := 1 / 2) (s1 := 1) (s2 := 1 / 2) (maxL := 2) hι
      exProduction.1 rfl rfl rfl exProduction.2 (by norm_num) g1 g2
    simpa using this

/-- C94: a `max_L` below the highest orbital angular momentum `J + s₁ + s₂` loses generality: there are helicity couplings
that are not sums of LS couplings times factors for any values of the LS couplings. -/
theorem C94_truncated (hcg : UsesClebschGordan ι) {parent : Obj} {c1 c2 : Node} (hne : c1.toParticle ≠ c2.toParticle)
    {J s1 s2 : ℚ} (hJ : parent.toP.spin = J) (h1 : c1.toParticle.toP.spin = s1) (h2 : c2.toParticle.toP.spin = s2)
    (hs : DecaySpins J s1 s2) {maxL : ℤ} (hmax : maxL < J + s1 + s2) :
    ∃ H : ℚ × ℚ → ℂ, ∀ g : ℤ × ℚ → ℂ, ¬ ∀ h ∈ vertexHelicities J s1 s2,
      H h = ((generateLsCouplings J s1 s2 maxL).map fun x => g x * factorValue ι parent c1 c2 x h.1 h.2).sum := by
  obtain ⟨z, hz⟩ := hs.2.2.2
  obtain ⟨⟨J0, -⟩, ⟨a0, na, ha⟩, ⟨b0, nb, hb⟩, -⟩ := id hs
  have hzm : maxL < z := by rw [hz] at hmax; exact_mod_cast hmax
  have hx0 : (z, s1 + s2) ∈ generateLsCouplings J s1 s2 z := by
    rw [(C04_ls_contents _ _ _ _).1]
    have : (0 : ℚ) ≤ z := by linarith
    refine ⟨by exact_mod_cast this, le_rfl, ?_, by linarith, ?_, by linarith⟩
    · rcases le_total s1 s2 with h | h
      · refine ⟨na.toNat, ?_⟩
        have : (0 : ℚ) ≤ na := by linarith
        have : 0 ≤ na := by exact_mod_cast this
        have : ((na.toNat : ℤ) : ℚ) = na := by rw [Int.toNat_of_nonneg this]
        rw [abs_of_nonpos (by linarith)]
        push_cast at this
        linarith
      · refine ⟨nb.toNat, ?_⟩
        have : (0 : ℚ) ≤ nb := by linarith
        have : 0 ≤ nb := by exact_mod_cast this
        have : ((nb.toNat : ℤ) : ℚ) = nb := by rw [Int.toNat_of_nonneg this]
        rw [abs_of_nonneg (by linarith)]
        push_cast at this
        linarith
    · rw [← hz, show J + s1 + s2 - (s1 + s2) = J by ring, abs_of_nonneg J0]
  refine ⟨fun h => factorValue ι parent c1 c2 (z, s1 + s2) h.1 h.2, fun g hg => ?_⟩
  have hsub : ∀ x ∈ generateLsCouplings J s1 s2 maxL, x ∈ generateLsCouplings J s1 s2 z ∧ x ≠ (z, s1 + s2) := by
    rintro ⟨L, S⟩ hx
    have h := ((C04_ls_contents _ _ _ _).1 _ _).1 hx
    refine ⟨((C04_ls_contents _ _ _ _).1 _ _).2 ⟨h.1, by omega, h.2.2⟩, ?_⟩
    rintro ⟨⟩
    omega
  have one := C94_couplings hcg hne hJ h1 h2 hs (maxL := z) hz.le hx0 hx0
  rw [if_pos rfl] at one
  apply one_ne_zero (α := ℂ)
  have key : ∀ h ∈ vertexHelicities J s1 s2,
      factorValue ι parent c1 c2 (z, s1 + s2) h.1 h.2 * factorValue ι parent c1 c2 (z, s1 + s2) h.1 h.2 =
      ∑ x ∈ (generateLsCouplings J s1 s2 maxL).toFinset,
        g x * factorValue ι parent c1 c2 x h.1 h.2 * factorValue ι parent c1 c2 (z, s1 + s2) h.1 h.2 := by
    intro h hh
    rw [← Finset.sum_mul, List.sum_toFinset _ (Cg.ls_nodup _ _ _ _)]
    exact congrArg (· * factorValue ι parent c1 c2 (z, s1 + s2) h.1 h.2) (hg h hh)
  rw [← one, Finset.sum_congr rfl key, Finset.sum_comm]
  refine Finset.sum_eq_zero fun x hx => ?_
  obtain ⟨hx, hne'⟩ := hsub x (List.mem_toFinset.1 hx)
  simp only [mul_assoc, ← Finset.mul_sum]
  rw [C94_couplings hcg hne hJ h1 h2 hs (maxL := z) hz.le hx hx0, if_neg hne', mul_zero]

/-- For `3/2 → 2 3/2`, the default `max_L = 3` is too small. -/
example : DecaySpins (3 / 2) 2 (3 / 2) ∧ ((3 : ℤ) : ℚ) < 3 / 2 + 2 + 3 / 2 :=
  ⟨⟨⟨by norm_num, 3, by norm_num⟩, ⟨by norm_num, 4, by norm_num⟩, ⟨by norm_num, 3, by norm_num⟩, 5, by norm_num⟩,
    by norm_num⟩

/-- Value of `LSRecoupling` for given spins and helicities. -/
noncomputable def recouplingValue (ι : Interp) (J s1 s2 : ℚ) (x : ℤ × ℚ) (h1 h2 : ℚ) : ℂ :=
  (Serialization.lsRecoupling (.num h1) (.num h2) x.1 x.2 s1 s2 J).eval ι fun _ => 0

theorem recouplingValue_eq (J s1 s2 : ℚ) (x : ℤ × ℚ) (h1 h2 : ℚ) :
    recouplingValue ι J s1 s2 x h1 h2 = lsFactor ι J s1 s2 ⟨x.1, x.2⟩ h1 h2 := by
  unfold recouplingValue Serialization.lsRecoupling lsFactor
  simp [Expr.eval, Hel.eval]
  ring

/-- C94: the factors of `LSRecoupling`, for serialized models, are those of the model builder. -/
theorem C94_serialization (hcg : UsesClebschGordan ι) {J s1 s2 : ℚ} (hs : DecaySpins J s1 s2) {maxL : ℤ}
    (hmax : J + s1 + s2 ≤ maxL) :
    (∀ h ∈ vertexHelicities J s1 s2, ∀ h' ∈ vertexHelicities J s1 s2,
      ((generateLsCouplings J s1 s2 maxL).map fun x =>
        recouplingValue ι J s1 s2 x h.1 h.2 * recouplingValue ι J s1 s2 x h'.1 h'.2).sum = if h = h' then 1 else 0) ∧
    ∀ x ∈ generateLsCouplings J s1 s2 maxL, ∀ y ∈ generateLsCouplings J s1 s2 maxL,
      ∑ h ∈ vertexHelicities J s1 s2, recouplingValue ι J s1 s2 x h.1 h.2 * recouplingValue ι J s1 s2 y h.1 h.2 =
        if x = y then 1 else 0 := by
  simp only [recouplingValue_eq]
  exact ⟨fun _ hh _ hh' => Cg.ls_complete_spins hcg hs hmax hh hh',
    fun _ hx _ hy => Cg.ls_orthogonal_spins hcg hs hmax hx hy⟩

end Verif.ThreeBody
