import Verif.Proofs.LsUnitary
import Verif.Proofs.Amplitude
import Verif.Spec.Recoupling
import Mathlib.Analysis.SpecialFunctions.Pow.Real

/-! The recoupling between LS couplings and helicity couplings, with the lists of couplings of the code. -/
namespace Verif.Cg
open Verif.Spec Verif.Spin Verif.ThreeBody

theorem ls_nodup (J s1 s2 : ℚ) (maxL : ℤ) : (generateLsCouplings J s1 s2 maxL).Nodup :=
  (C04_ls_contents _ _ _ _).2.imp (by
    rintro x y h rfl
    rcases h with h | ⟨_, h⟩ <;> exact lt_irrefl _ h)

theorem ls_sum {R : Type} [AddCommMonoid R] {A B C e : ℕ} (he : 2 * e = A + B + C) {maxL : ℤ}
    (hmax : (A / 2 + B / 2 + C / 2 : ℚ) ≤ maxL) (f : ℚ → ℚ → R) :
    ((generateLsCouplings (A / 2) (B / 2) (C / 2) maxL).map fun x => f x.1 x.2).sum =
      ∑ n ∈ Finset.range (min B C + 1), ∑ k ∈ Finset.range (min A (B + C - 2 * n) + 1),
        f (e - n - k) ((B + C) / 2 - n) := by
  classical
  have he' : (2 * e : ℚ) = A + B + C := by exact_mod_cast he
  rw [← List.sum_toFinset _ (ls_nodup _ _ _ _), Finset.sum_sigma']
  symm
  refine Finset.sum_bij (fun x _ => ((e : ℤ) - x.1 - x.2, ((B + C) / 2 - x.1 : ℚ))) ?_ ?_ ?_ ?_
  · rintro ⟨n, k⟩ h
    simp only [Finset.mem_sigma, Finset.mem_range] at h
    rw [List.mem_toFinset, C04_ls_complete A B C (by omega) maxL hmax]
    have q1 : (n : ℚ) ≤ B := by exact_mod_cast (by omega : n ≤ B)
    have q2 : (n : ℚ) ≤ C := by exact_mod_cast (by omega : n ≤ C)
    have q3 : (k : ℚ) ≤ A := by exact_mod_cast (by omega : k ≤ A)
    have q4 : (k + 2 * n : ℚ) ≤ B + C := by exact_mod_cast (by omega : k + 2 * n ≤ B + C)
    have q5 : (0 : ℚ) ≤ n := Nat.cast_nonneg n
    have q6 : (0 : ℚ) ≤ k := Nat.cast_nonneg k
    have q7 : (n + k : ℚ) ≤ e := by exact_mod_cast (by omega : n + k ≤ e)
    refine ⟨by dsimp only; omega, ⟨?_, ?_, n, by push_cast; ring⟩, ⟨?_, ?_, (B + C - 2 * n - k : ℤ), ?_⟩⟩
    · dsimp only; rw [abs_le]; constructor <;> linarith
    · dsimp only; linarith
    · dsimp only; push_cast; rw [abs_le]; constructor <;> linarith
    · dsimp only; push_cast; linarith
    · push_cast; linarith
  · rintro ⟨n, k⟩ h ⟨n', k'⟩ h' heq
    simp only [Prod.mk.injEq] at heq
    have : (n : ℚ) = n' := by linarith [heq.2]
    have : n = n' := by exact_mod_cast this
    subst this
    have : k = k' := by omega
    subst this
    rfl
  · rintro ⟨L, S⟩ h
    rw [List.mem_toFinset, C04_ls_complete A B C (by omega) maxL hmax] at h
    obtain ⟨h0, ⟨h1, h2, z, hz⟩, ⟨h3, h4, y, hy⟩⟩ := h
    rw [abs_le] at h1 h3
    have z0 : 0 ≤ z := by
      have : (0 : ℚ) ≤ z := by linarith
      exact_mod_cast this
    obtain ⟨n, rfl⟩ := Int.eq_ofNat_of_zero_le z0
    push_cast at hz
    have hL : (L : ℚ) ≤ e - n := by linarith
    have hL : L ≤ e - n := by exact_mod_cast hL
    obtain ⟨k, hk⟩ := Int.eq_ofNat_of_zero_le (show 0 ≤ e - n - L by omega)
    have hk' : (e - n - L : ℚ) = k := by exact_mod_cast hk
    have b1 : n ≤ B := by
      have : (n : ℚ) ≤ B := by linarith
      exact_mod_cast this
    have b2 : n ≤ C := by
      have : (n : ℚ) ≤ C := by linarith
      exact_mod_cast this
    have b3 : k ≤ A := by
      have : (k : ℚ) ≤ A := by linarith
      exact_mod_cast this
    have b4 : k + 2 * n ≤ B + C := by
      have : (k + 2 * n : ℚ) ≤ B + C := by linarith
      exact_mod_cast this
    refine ⟨⟨n, k⟩, ?_, ?_⟩
    · simp only [Finset.mem_sigma, Finset.mem_range]
      omega
    · simp only [Prod.mk.injEq]
      exact ⟨by omega, by linarith⟩
  · rintro ⟨n, k⟩ _
    push_cast
    rfl

theorem lsFactor_real {ι : Interp} (hcg : UsesClebschGordan ι) {J s1 s2 : ℚ} (hJ : 0 ≤ J) {L : ℤ} (hL : 0 ≤ L)
    (S h1 h2 : ℚ) : lsFactor ι J s1 s2 ⟨L, S⟩ h1 h2 = (lsReal J s1 s2 L S h1 h2 : ℂ) := by
  unfold lsFactor lsReal
  rw [hcg, hcg]
  have hq : (0 : ℚ) ≤ (2 * L + 1) / (2 * J + 1) := by
    have : (0 : ℚ) ≤ L := by exact_mod_cast hL
    positivity
  have hr : (0 : ℝ) ≤ (((2 * L + 1) / (2 * J + 1) : ℚ) : ℝ) := by exact_mod_cast hq
  have hc := Complex.ofReal_cpow hr (1 / 2)
  rw [Real.sqrt_eq_rpow, Complex.ofReal_mul, Complex.ofReal_mul, hc, Complex.ofReal_ratCast]
  norm_num

/-- Different helicities are orthogonal. -/
theorem ls_complete_list {ι : Interp} (hcg : UsesClebschGordan ι) {A B C : ℕ} (hpar : (A + B + C) % 2 = 0) {maxL : ℤ}
    (hmax : (A / 2 + B / 2 + C / 2 : ℚ) ≤ maxL) {h1 h2 h1' h2' : ℚ}
    (p1 : Projection (B / 2) h1) (p2 : Projection (C / 2) h2) (p : Projection (A / 2) (h1 - h2))
    (p1' : Projection (B / 2) h1') (p2' : Projection (C / 2) h2') (p' : Projection (A / 2) (h1' - h2')) :
    ((generateLsCouplings (A / 2) (B / 2) (C / 2) maxL).map fun x =>
      lsFactor ι (A / 2) (B / 2) (C / 2) ⟨x.1, x.2⟩ h1 h2 *
      lsFactor ι (A / 2) (B / 2) (C / 2) ⟨x.1, x.2⟩ h1' h2').sum = if h1 = h1' ∧ h2 = h2' then 1 else 0 := by
  obtain ⟨e, he⟩ : ∃ e, 2 * e = A + B + C := ⟨(A + B + C) / 2, by omega⟩
  have key := lsReal_complete he p1 p2 p p1' p2' p'
  rw [← ls_sum he hmax (fun L S => lsReal (A / 2) (B / 2) (C / 2) L S h1 h2 *
    lsReal (A / 2) (B / 2) (C / 2) L S h1' h2')] at key
  have this := congrArg Complex.ofRealHom key
  rw [map_list_sum, List.map_map] at this
  have e : (if h1 = h1' ∧ h2 = h2' then (1 : ℂ) else 0) = ((if h1 = h1' ∧ h2 = h2' then (1 : ℝ) else 0 : ℝ) : ℂ) := by
    split_ifs <;> simp
  rw [e, ← Complex.ofRealHom_eq_coe, ← this]
  congr 1
  apply List.map_congr_left
  intro x hx
  have h0 : 0 ≤ x.1 := ((C04_ls_complete A B C hpar maxL hmax x.1 x.2).1 hx).1
  rw [lsFactor_real hcg (by positivity) h0, lsFactor_real hcg (by positivity) h0]
  simp

/-- The pairs of helicities that a particle of spin `J` can decay to. -/
def allowedHelicities (J s1 s2 : ℚ) : Finset (ℚ × ℚ) :=
  (((createSpinRange s1).product (createSpinRange s2)).filter fun p => |p.1 - p.2| ≤ J).toFinset

theorem mem_allowedHelicities {A B C : ℕ} (hpar : (A + B + C) % 2 = 0) (h : ℚ × ℚ) :
    h ∈ allowedHelicities (A / 2) (B / 2) (C / 2) ↔
      Projection (B / 2) h.1 ∧ Projection (C / 2) h.2 ∧ Projection (A / 2) (h.1 - h.2) := by
  obtain ⟨u, v⟩ := h
  unfold allowedHelicities
  rw [List.mem_toFinset, List.mem_filter, List.pair_mem_product, (C01_spin_range B _ rfl).2.2.1,
    (C01_spin_range C _ rfl).2.2.1, decide_eq_true_eq, abs_le]
  constructor
  · rintro ⟨⟨⟨a1, a2, y, hy⟩, ⟨b1, b2, z, hz⟩⟩, c1, c2⟩
    refine ⟨⟨a1, a2, y, hy⟩, ⟨b1, b2, z, hz⟩, by linarith, c2, ?_⟩
    obtain ⟨e, he⟩ : ∃ e, A + B + C = 2 * e := ⟨(A + B + C) / 2, by omega⟩
    have he : (A + B + C : ℚ) = 2 * e := by exact_mod_cast he
    exact ⟨e - B + y - z, by push_cast; linarith⟩
  · rintro ⟨⟨a1, a2, y, hy⟩, ⟨b1, b2, z, hz⟩, c1, c2, -⟩
    exact ⟨⟨⟨a1, a2, y, hy⟩, ⟨b1, b2, z, hz⟩⟩, by linarith, c2⟩

theorem ls_card {A B C : ℕ} (hpar : (A + B + C) % 2 = 0) {maxL : ℤ} (hmax : (A / 2 + B / 2 + C / 2 : ℚ) ≤ maxL) :
    (generateLsCouplings (A / 2) (B / 2) (C / 2) maxL).toFinset.card =
      (allowedHelicities (A / 2) (B / 2) (C / 2)).card := by
  have hnb := createRationalRange_nodup (-((B:ℚ)/2)) ((B:ℚ)/2)
  have hnc := createRationalRange_nodup (-((C:ℚ)/2)) ((C:ℚ)/2)
  have hnd : (((createSpinRange (B / 2)).product (createSpinRange (C / 2))).filter
      fun p => |p.1 - p.2| ≤ (A / 2 : ℚ)).Nodup := (List.Nodup.product hnb hnc).filter _
  unfold allowedHelicities
  rw [List.toFinset_card_of_nodup (ls_nodup _ _ _ _), List.toFinset_card_of_nodup hnd, C05_ls_helicity_count A B C hpar maxL hmax]

/-- Different LS couplings are orthogonal. -/
theorem ls_orthogonal {ι : Interp} (hcg : UsesClebschGordan ι) {A B C : ℕ} (hpar : (A + B + C) % 2 = 0) {maxL : ℤ}
    (hmax : (A / 2 + B / 2 + C / 2 : ℚ) ≤ maxL) {x y : ℤ × ℚ}
    (hx : x ∈ generateLsCouplings (A / 2) (B / 2) (C / 2) maxL)
    (hy : y ∈ generateLsCouplings (A / 2) (B / 2) (C / 2) maxL) :
    ∑ h ∈ allowedHelicities (A / 2) (B / 2) (C / 2),
      lsFactor ι (A / 2) (B / 2) (C / 2) ⟨x.1, x.2⟩ h.1 h.2 *
      lsFactor ι (A / 2) (B / 2) (C / 2) ⟨y.1, y.2⟩ h.1 h.2 = if x = y then 1 else 0 := by
  classical
  set Ls := (generateLsCouplings (A / 2) (B / 2) (C / 2) maxL).toFinset with hLs
  set Hs := allowedHelicities (A / 2) (B / 2) (C / 2) with hHs
  let F : Matrix Hs Ls ℂ := fun h x => lsFactor ι (A / 2) (B / 2) (C / 2) ⟨x.1.1, x.1.2⟩ h.1.1 h.1.2
  have hF : F * F.transpose = 1 := by
    ext h h'
    rw [Matrix.mul_apply, Matrix.one_apply]
    obtain ⟨p1, p2, p⟩ := (mem_allowedHelicities hpar h.1).1 h.2
    obtain ⟨p1', p2', p'⟩ := (mem_allowedHelicities hpar h'.1).1 h'.2
    have key := ls_complete_list hcg hpar hmax p1 p2 p p1' p2' p'
    rw [← List.sum_toFinset _ (ls_nodup _ _ _ _), ← hLs] at key
    show ∑ x : Ls, lsFactor ι (A / 2) (B / 2) (C / 2) ⟨x.1.1, x.1.2⟩ h.1.1 h.1.2 *
      lsFactor ι (A / 2) (B / 2) (C / 2) ⟨x.1.1, x.1.2⟩ h'.1.1 h'.1.2 = _
    rw [Finset.sum_coe_sort Ls fun x => lsFactor ι (A / 2) (B / 2) (C / 2) ⟨x.1, x.2⟩ h.1.1 h.1.2 *
      lsFactor ι (A / 2) (B / 2) (C / 2) ⟨x.1, x.2⟩ h'.1.1 h'.1.2, key]
    refine if_congr ?_ rfl rfl
    rw [← Prod.ext_iff, Subtype.ext_iff]
  have hcard : Fintype.card Hs = Fintype.card Ls := by
    rw [Fintype.card_coe, Fintype.card_coe, hHs, hLs, ls_card hpar hmax]
  have hF' := (Matrix.mul_eq_one_comm_of_equiv (Fintype.equivOfCardEq hcard)).1 hF
  have key := congrFun (congrFun hF' ⟨x, List.mem_toFinset.2 hx⟩) ⟨y, List.mem_toFinset.2 hy⟩
  rw [Matrix.mul_apply, Matrix.one_apply] at key
  have key : ∑ h : Hs, lsFactor ι (A / 2) (B / 2) (C / 2) ⟨x.1, x.2⟩ h.1.1 h.1.2 *
      lsFactor ι (A / 2) (B / 2) (C / 2) ⟨y.1, y.2⟩ h.1.1 h.1.2 = _ := key
  rw [Finset.sum_coe_sort Hs fun h => lsFactor ι (A / 2) (B / 2) (C / 2) ⟨x.1, x.2⟩ h.1 h.2 *
      lsFactor ι (A / 2) (B / 2) (C / 2) ⟨y.1, y.2⟩ h.1 h.2] at key
  rw [key]
  refine if_congr ?_ rfl rfl
  rw [Subtype.mk.injEq]

theorem decaySpins_nat {J s1 s2 : ℚ} (h : DecaySpins J s1 s2) :
    ∃ A B C : ℕ, (A + B + C) % 2 = 0 ∧ J = A / 2 ∧ s1 = B / 2 ∧ s2 = C / 2 := by
  have key : ∀ j : ℚ, 0 ≤ j → IsHalfInteger j → ∃ A : ℕ, j = A / 2 := by
    rintro j h0 ⟨n, rfl⟩
    have : (0 : ℚ) ≤ n := by linarith
    obtain ⟨A, rfl⟩ := Int.eq_ofNat_of_zero_le (show 0 ≤ n by exact_mod_cast this)
    exact ⟨A, by push_cast; rfl⟩
  obtain ⟨⟨j0, jh⟩, ⟨a0, ah⟩, ⟨b0, bh⟩, z, hz⟩ := h
  obtain ⟨A, rfl⟩ := key _ j0 jh
  obtain ⟨B, rfl⟩ := key _ a0 ah
  obtain ⟨C, rfl⟩ := key _ b0 bh
  refine ⟨A, B, C, ?_, rfl, rfl, rfl⟩
  have : (A + B + C : ℚ) = 2 * z := by linarith
  have : (A + B + C : ℤ) = 2 * z := by exact_mod_cast this
  omega

theorem mem_vertexHelicities {B C : ℕ} {J : ℚ} {h : ℚ × ℚ} : h ∈ vertexHelicities J (B / 2) (C / 2) ↔
    Projection (B / 2) h.1 ∧ Projection (C / 2) h.2 ∧ Projection J (h.1 - h.2) := by
  classical
  unfold vertexHelicities
  rw [Finset.mem_filter, Finset.mem_product, mem_projections ⟨B, by push_cast; rfl⟩, mem_projections ⟨C, by push_cast; rfl⟩,
    and_assoc]

theorem ls_complete_spins {ι : Interp} (hcg : UsesClebschGordan ι) {J s1 s2 : ℚ} (hs : DecaySpins J s1 s2) {maxL : ℤ}
    (hmax : J + s1 + s2 ≤ maxL) {h h' : ℚ × ℚ} (hh : h ∈ vertexHelicities J s1 s2)
    (hh' : h' ∈ vertexHelicities J s1 s2) :
    ((generateLsCouplings J s1 s2 maxL).map fun x =>
      lsFactor ι J s1 s2 ⟨x.1, x.2⟩ h.1 h.2 * lsFactor ι J s1 s2 ⟨x.1, x.2⟩ h'.1 h'.2).sum =
      if h = h' then 1 else 0 := by
  obtain ⟨A, B, C, hpar, rfl, rfl, rfl⟩ := decaySpins_nat hs
  obtain ⟨p1, p2, p⟩ := mem_vertexHelicities.1 hh
  obtain ⟨p1', p2', p'⟩ := mem_vertexHelicities.1 hh'
  rw [ls_complete_list hcg hpar hmax p1 p2 p p1' p2' p']
  exact if_congr Prod.ext_iff.symm rfl rfl

theorem ls_orthogonal_spins {ι : Interp} (hcg : UsesClebschGordan ι) {J s1 s2 : ℚ} (hs : DecaySpins J s1 s2) {maxL : ℤ}
    (hmax : J + s1 + s2 ≤ maxL) {x y : ℤ × ℚ} (hx : x ∈ generateLsCouplings J s1 s2 maxL)
    (hy : y ∈ generateLsCouplings J s1 s2 maxL) :
    ∑ h ∈ vertexHelicities J s1 s2,
      lsFactor ι J s1 s2 ⟨x.1, x.2⟩ h.1 h.2 * lsFactor ι J s1 s2 ⟨y.1, y.2⟩ h.1 h.2 = if x = y then 1 else 0 := by
  obtain ⟨A, B, C, hpar, rfl, rfl, rfl⟩ := decaySpins_nat hs
  rw [← ls_orthogonal hcg hpar hmax hx hy]
  apply Finset.sum_congr _ fun _ _ => rfl
  ext h
  rw [mem_vertexHelicities, mem_allowedHelicities hpar]

end Verif.Cg
