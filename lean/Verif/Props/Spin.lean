import Verif.Proofs.SpinCount
import Verif.Spec.Spin
import Mathlib.Algebra.Order.Archimedean.Basic

/-! Properties C01-C07: `spin.py` and `_attrs.py`. -/
namespace Verif.Spin
open Verif.Spec

/-- **C01** `create_spin_range(j)` for `j = n/2`: the explicit list, its length, membership,
order and symmetry. -/
theorem C01_spin_range (n : ℕ) (j : ℚ) (hj : j = n / 2) :
    createSpinRange j = (List.range (n + 1)).map (fun k : ℕ => -j + k) ∧
    (createSpinRange j).length = n + 1 ∧
    (∀ m, m ∈ createSpinRange j ↔ -j ≤ m ∧ m ≤ j ∧ IsInteger (j - m)) ∧
    (createSpinRange j).Pairwise (· < ·) ∧
    (createSpinRange j).map (fun m => -m) = (createSpinRange j).reverse := by
  subst hj
  have hmem : ∀ m, m ∈ createSpinRange ((n:ℚ)/2) ↔
      -((n:ℚ)/2) ≤ m ∧ m ≤ (n:ℚ)/2 ∧ IsInteger ((n:ℚ)/2 - m) := by
    intro m
    rw [createSpinRange_mem]
    constructor
    · rintro ⟨k, hk, rfl⟩
      have h1 : (k:ℚ) ≤ n := by exact_mod_cast hk
      have h2 : (0:ℚ) ≤ k := by positivity
      refine ⟨by linarith, by linarith, ⟨(n:ℤ) - k, ?_⟩⟩
      push_cast; ring
    · rintro ⟨h1, h2, z, hz⟩
      have h3 : (0:ℚ) ≤ z := by linarith
      have h4 : (z:ℚ) ≤ n := by linarith
      have h3' : (0:ℤ) ≤ z := by exact_mod_cast h3
      have h4' : z ≤ (n:ℤ) := by exact_mod_cast h4
      refine ⟨(n - z).toNat, by omega, ?_⟩
      have h5 : (((n - z).toNat : ℤ) : ℚ) = ((n - z : ℤ) : ℚ) := by
        rw [Int.toNat_of_nonneg (by omega)]
      have h6 : (((n - z).toNat : ℕ) : ℚ) = (n:ℚ) - z := by
        rw [← Int.cast_natCast, h5]; push_cast; ring
      rw [h6]; linarith
  refine ⟨createSpinRange_eq n, by simp [createSpinRange_eq], hmem,
    createRationalRange_pairwise _ _, ?_⟩
  have hlt : (createSpinRange ((n:ℚ)/2)).Pairwise (· < ·) :=
    createRationalRange_pairwise (-((n:ℚ)/2)) ((n:ℚ)/2)
  have e : (createSpinRange ((n:ℚ)/2)).reverse.map (fun m => -m) = createSpinRange ((n:ℚ)/2) := by
    apply eq_of_strict_mem _ hlt
    · intro x
      simp only [List.mem_map, List.mem_reverse]
      constructor
      · rintro ⟨m, hm, rfl⟩
        rw [hmem] at hm ⊢
        obtain ⟨a, b, z, hz⟩ := hm
        refine ⟨by linarith, by linarith, ⟨n - z, ?_⟩⟩
        push_cast; linarith
      · intro hx
        refine ⟨-x, ?_, by ring⟩
        rw [hmem] at hx ⊢
        obtain ⟨a, b, z, hz⟩ := hx
        refine ⟨by linarith, by linarith, ⟨n - z, ?_⟩⟩
        push_cast; linarith
    · rw [List.pairwise_map, List.pairwise_reverse]
      exact hlt.imp (fun h => by linarith)
  have e2 := congrArg List.reverse e
  rw [← List.map_reverse, List.reverse_reverse] at e2
  exact e2

example : createSpinRange (3/2) = [-3/2, -1/2, 1/2, 3/2] := by
  have := (C01_spin_range 3 (3/2) (by norm_num)).1
  rw [this]; simp [List.range_succ]; norm_num

/-- **C02** contents of `create_rational_range`. -/
theorem C02_rational_range (a b : ℚ) :
    (∀ x, x ∈ createRationalRange a b ↔ ∃ n : ℕ, x = a + n ∧ x < b + 1 / 2) ∧
    (createRationalRange a b).Pairwise (· < ·) ∧
    ((∃ m : ℕ, b - a = m / 2) → ∀ x ∈ createRationalRange a b, a ≤ x ∧ x ≤ b) := by
  refine ⟨createRationalRange_mem a b, createRationalRange_pairwise a b, ?_⟩
  rintro ⟨m, hm⟩ x hx
  rw [createRationalRange_mem] at hx
  obtain ⟨n, rfl, h⟩ := hx
  have h0 : (0:ℚ) ≤ n := by positivity
  refine ⟨by linarith, ?_⟩
  have h1 : (2 * n : ℚ) < m + 1 := by linarith
  have h2 : 2 * n < m + 1 := by exact_mod_cast h1
  have h3 : ((2 * n : ℕ) : ℚ) ≤ m := by exact_mod_cast (by omega : 2 * n ≤ m)
  push_cast at h3
  linarith

/-- Without the half-integer hypothesis the upper bound can be exceeded. -/
example : ∃ x ∈ createRationalRange 0 (3/5), ¬ x ≤ 3/5 := by
  refine ⟨1, ?_, by norm_num⟩
  rw [createRationalRange_mem]
  exact ⟨1, by norm_num, by norm_num⟩

/-- **C03** `arange` stops, with all its values, iff the step is positive or the interval is
empty; `fuel` is the number of loop iterations allowed. -/
theorem C03_arange_termination (x1 x2 delta : ℚ) :
    ((0 < delta ∨ x2 ≤ x1) ↔ ∃ fuel, (arangeFuel x2 delta fuel x1).2 = true) ∧
    (0 < delta → ∃ fuel, (arangeFuel x2 delta fuel x1).2 = true ∧
      ∀ x, x ∈ (arangeFuel x2 delta fuel x1).1 ↔ ∃ n : ℕ, x = x1 + n * delta ∧ x < x2) ∧
    (arangeFuel x2 1 (⌈x2 - x1⌉.toNat) x1).2 = true := by
  have key : 0 < delta → ∃ fuel, (arangeFuel x2 delta fuel x1).2 = true ∧
      ∀ x, x ∈ (arangeFuel x2 delta fuel x1).1 ↔ ∃ n : ℕ, x = x1 + n * delta ∧ x < x2 := by
    intro hd
    obtain ⟨N, hN⟩ := exists_nat_ge ((x2 - x1) / delta)
    have hN' : x2 ≤ x1 + N * delta := by
      rw [div_le_iff₀ hd] at hN; linarith
    refine ⟨N, arangeFuel_done hd _ _ hN', ?_⟩
    intro x
    rw [arangeFuel_mem hd]
    constructor
    · rintro ⟨n, _, h⟩; exact ⟨n, h⟩
    · rintro ⟨n, rfl, h⟩
      refine ⟨n, ?_, rfl, h⟩
      by_contra hc
      have : (N:ℚ) ≤ n := by exact_mod_cast not_lt.1 hc
      nlinarith
  refine ⟨⟨?_, ?_⟩, key, ?_⟩
  · rintro (hd | h)
    · obtain ⟨f, hf, _⟩ := key hd; exact ⟨f, hf⟩
    · exact ⟨0, by simp [arangeFuel, h]⟩
  · rintro ⟨f, hf⟩
    by_contra hc
    push Not at hc
    rw [arangeFuel_diverges hc.1 f x1 hc.2] at hf
    exact absurd hf (by simp)
  · apply arangeFuel_done one_pos
    have h1 := Int.le_ceil (x2 - x1)
    have h2 : (⌈x2 - x1⌉ : ℚ) ≤ ((⌈x2 - x1⌉.toNat : ℤ) : ℚ) := by
      exact_mod_cast Int.self_le_toNat _
    rw [Int.cast_natCast] at h2
    linarith

example : ∀ fuel, (arangeFuel 1 0 fuel 0).2 = false :=
  fun fuel => arangeFuel_diverges (by norm_num) fuel 0 (by norm_num)

/-- **C04** (general form) exact contents and order of `generate_ls_couplings`. -/
theorem C04_ls_contents (J s1 s2 : ℚ) (maxL : ℤ) :
    (∀ L S, (L, S) ∈ generateLsCouplings J s1 s2 maxL ↔
      0 ≤ L ∧ L ≤ maxL ∧ (∃ n : ℕ, S = |s1 - s2| + n) ∧ S < s1 + s2 + 1 / 2 ∧
        |(L:ℚ) - S| ≤ J ∧ J ≤ L + S) ∧
    (generateLsCouplings J s1 s2 maxL).Pairwise
      (fun x y => x.1 < y.1 ∨ (x.1 = y.1 ∧ x.2 < y.2)) := by
  constructor
  · intro L S
    unfold generateLsCouplings
    simp only [List.mem_mergeSort, List.mem_dedup, List.mem_flatMap, List.mem_map,
      List.mem_filter, createRationalRange_mem, Prod.mk.injEq, decide_eq_true_eq]
    constructor
    · rintro ⟨l, ⟨n, rfl, hn⟩, S', ⟨⟨m, hm, hlt⟩, h1, h2⟩, hL, rfl⟩
      have hfl : ⌊(0:ℚ) + n⌋ = (n:ℤ) := by simp
      rw [hfl] at hL
      subst hL
      have hn' : n ≤ maxL := by
        have : (n:ℚ) < maxL + 1 := by linarith
        have : (n:ℤ) < maxL + 1 := by exact_mod_cast this
        omega
      refine ⟨by omega, hn', ⟨m, hm⟩, hlt, ?_, ?_⟩
      · simpa using h1
      · simpa using h2
    · rintro ⟨h0, hmax, ⟨m, hm⟩, hlt, h1, h2⟩
      obtain ⟨n, rfl⟩ := Int.eq_ofNat_of_zero_le h0
      refine ⟨(n:ℚ), ⟨n, by simp, ?_⟩, S, ⟨⟨m, hm, hlt⟩, ?_, ?_⟩, by simp, rfl⟩
      · have : ((n:ℤ):ℚ) ≤ maxL := by exact_mod_cast hmax
        simp at this ⊢; linarith
      · simpa using h1
      · simpa using h2
  · exact lsSorted_dedup _

/-- **C04** for physical spins the result is exactly the set of allowed couplings with
`L ≤ max_L`. -/
theorem C04_ls_allowed (a b c : ℕ) (hpar : (a + b + c) % 2 = 0) (maxL L : ℤ) (S : ℚ) :
    (L, S) ∈ generateLsCouplings (a / 2) (b / 2) (c / 2) maxL ↔
      L ≤ maxL ∧ AllowedLS (a / 2) (b / 2) (c / 2) L S := by
  rw [(C04_ls_contents _ _ _ _).1]
  obtain ⟨e, he⟩ : ∃ e, a + b + c = 2 * e := ⟨(a + b + c) / 2, by omega⟩
  have he' : (a:ℚ) + b + c = 2 * e := by exact_mod_cast he
  constructor
  · rintro ⟨h0, hmax, ⟨n, hn⟩, hlt, h1, h2⟩
    rw [abs_le] at h1
    have key : IsInteger ((b:ℚ)/2 + c/2 - S) ∧ S ≤ (b:ℚ)/2 + c/2 := by
      rcases abs_cases ((b:ℚ)/2 - c/2) with ⟨hab, hs⟩ | ⟨hab, hs⟩
      · rw [hab] at hn
        refine ⟨⟨(c:ℤ) - n, by push_cast; linarith⟩, ?_⟩
        have : (n:ℚ) < c + 1 := by linarith
        have : n < c + 1 := by exact_mod_cast this
        have : (n:ℚ) ≤ c := by exact_mod_cast (by omega : n ≤ c)
        linarith
      · rw [hab] at hn
        refine ⟨⟨(b:ℤ) - n, by push_cast; linarith⟩, ?_⟩
        have : (n:ℚ) < b + 1 := by linarith
        have : n < b + 1 := by exact_mod_cast this
        have : (n:ℚ) ≤ b := by exact_mod_cast (by omega : n ≤ b)
        linarith
    have hn0 : (0:ℚ) ≤ n := by positivity
    refine ⟨hmax, h0, ⟨by linarith, key.2, key.1⟩, ?_, ?_, ?_⟩
    · rw [abs_le]; exact ⟨by linarith, by linarith⟩
    · linarith
    · obtain ⟨z, hz⟩ := key.1
      refine ⟨L + (b + c) - z - e, ?_⟩
      push_cast; linarith
  · rintro ⟨hmax, h0, ⟨h1, h2, z, hz⟩, ⟨h3, h4, y, hy⟩⟩
    rw [abs_le] at h3
    refine ⟨h0, hmax, ?_, by linarith, ?_, by linarith⟩
    · rcases abs_cases ((b:ℚ)/2 - c/2) with ⟨hab, hs⟩ | ⟨hab, hs⟩ <;> rw [hab] at h1 ⊢
      · have : (0:ℚ) ≤ ((c - z : ℤ) : ℚ) := by push_cast; linarith
        have h5 : (0:ℤ) ≤ c - z := by exact_mod_cast this
        obtain ⟨n, hn⟩ := Int.eq_ofNat_of_zero_le h5
        refine ⟨n, ?_⟩
        have : ((c - z : ℤ) : ℚ) = (n:ℚ) := by rw [hn]; simp
        push_cast at this; linarith
      · have : (0:ℚ) ≤ ((b - z : ℤ) : ℚ) := by push_cast; linarith
        have h5 : (0:ℤ) ≤ b - z := by exact_mod_cast this
        obtain ⟨n, hn⟩ := Int.eq_ofNat_of_zero_le h5
        refine ⟨n, ?_⟩
        have : ((b - z : ℤ) : ℚ) = (n:ℚ) := by rw [hn]; simp
        push_cast at this; linarith
    · rw [abs_le]; exact ⟨by linarith, by linarith⟩

/-- **C04** with `max_L ≥ J + s1 + s2` nothing is missing. -/
theorem C04_ls_complete (a b c : ℕ) (hpar : (a + b + c) % 2 = 0) (maxL : ℤ)
    (hmax : (a / 2 + b / 2 + c / 2 : ℚ) ≤ maxL) (L : ℤ) (S : ℚ) :
    (L, S) ∈ generateLsCouplings (a / 2) (b / 2) (c / 2) maxL ↔
      AllowedLS (a / 2) (b / 2) (c / 2) L S := by
  rw [C04_ls_allowed a b c hpar]
  refine ⟨fun h => h.2, fun h => ⟨?_, h⟩⟩
  obtain ⟨_, ⟨_, h2, _⟩, ⟨h3, _, _⟩⟩ := h
  rw [abs_le] at h3
  have : (L:ℚ) ≤ maxL := by linarith
  exact_mod_cast this

/-- **C04** (negative part) for spins that violate fermion-number parity, `1 → 1/2 ⊗ 0`, the
function returns the coupling `(1, 1/2)`, which is not allowed. -/
theorem C04_ls_unphysical :
    (1, 1/2) ∈ generateLsCouplings 1 (1/2) 0 3 ∧ ¬ AllowedLS 1 (1/2) 0 1 (1/2) := by
  constructor
  · rw [(C04_ls_contents _ _ _ _).1]
    refine ⟨by norm_num, by norm_num, ⟨0, by norm_num⟩, by norm_num, ?_, by norm_num⟩
    norm_num [abs_le]
  · rintro ⟨_, _, _, _, z, hz⟩
    have h : (2 * z : ℚ) = 1 := by push_cast at hz; linarith
    have : 2 * z = 1 := by exact_mod_cast h
    omega

example : ((2:ℤ), (3/2:ℚ)) ∈ generateLsCouplings (1/2) (3/2) 0 3 := by
  have := (C04_ls_allowed 1 3 0 (by norm_num) 3 2 (3/2)).2
  norm_num at this
  refine this ⟨by norm_num, ⟨?_, ?_, 0, ?_⟩, ⟨?_, ?_, 3, ?_⟩⟩ <;> norm_num

/-- **C05** for physical spins and a large enough `max_L`, there are as many LS couplings as
helicity pairs `(λ1, λ2)` with `|λ1 - λ2| ≤ J`. -/
theorem C05_ls_helicity_count (a b c : ℕ) (hpar : (a + b + c) % 2 = 0) (maxL : ℤ)
    (hmax : (a / 2 + b / 2 + c / 2 : ℚ) ≤ maxL) :
    (generateLsCouplings (a / 2) (b / 2) (c / 2) maxL).length =
      (((createSpinRange (b / 2)).product (createSpinRange (c / 2))).filter
        (fun p => |p.1 - p.2| ≤ (a / 2 : ℚ))).length := by
  have h1 : (generateLsCouplings (a / 2) (b / 2) (c / 2) maxL).length = (grid a b c).card := by
    have hnd : (generateLsCouplings (a / 2) (b / 2) (c / 2) maxL).Nodup :=
      (C04_ls_contents _ _ _ _).2.imp (by
        rintro x y h rfl
        rcases h with h | ⟨_, h⟩ <;> exact lt_irrefl _ h)
    rw [← List.toFinset_card_of_nodup hnd,
      ← Finset.card_image_of_injOn (gridLS_injOn a b c hpar)]
    congr 1
    ext ⟨L, S⟩
    rw [List.mem_toFinset, C04_ls_complete a b c hpar maxL hmax, Finset.mem_image]
    by_cases hS : ∃ S2 : ℤ, S = S2 / 2
    · obtain ⟨S2, rfl⟩ := hS
      rw [mem_gridLS_image a b c hpar]
      unfold AllowedLS Triangle IsInteger
      obtain ⟨e, he⟩ : ∃ e : ℤ, (a:ℤ) + b + c = 2 * e := ⟨(a + b + c) / 2, by omega⟩
      simp only [abs_le]
      constructor
      · rintro ⟨_, ⟨⟨q1, q2⟩, q3, z, hz⟩, ⟨⟨q4, q5⟩, q6, _⟩⟩
        have r1 : (-S2:ℚ) ≤ b - c := by linarith
        have r2 : (b - c:ℚ) ≤ S2 := by linarith
        have r3 : (S2:ℚ) ≤ b + c := by linarith
        have r4 : (b + c - S2:ℚ) = 2 * z := by linarith
        have r5 : (-a:ℚ) ≤ 2 * L - S2 := by linarith
        have r6 : (2 * L - S2:ℚ) ≤ a := by linarith
        have r7 : (a:ℚ) ≤ 2 * L + S2 := by linarith
        have r1' : -S2 ≤ (b:ℤ) - c := by exact_mod_cast r1
        have r2' : (b - c:ℤ) ≤ S2 := by exact_mod_cast r2
        have r3' : (S2:ℤ) ≤ b + c := by exact_mod_cast r3
        have r4' : (b + c - S2:ℤ) = 2 * z := by exact_mod_cast r4
        have r5' : (-a:ℤ) ≤ 2 * L - S2 := by exact_mod_cast r5
        have r6' : (2 * L - S2:ℤ) ≤ a := by exact_mod_cast r6
        have r7' : (a:ℤ) ≤ 2 * L + S2 := by exact_mod_cast r7
        omega
      · rintro ⟨q1, ⟨q2, q3⟩, q4, ⟨q5, q6⟩, q7⟩
        have r1 : (S2:ℚ) ≤ b + c := by exact_mod_cast q1
        have r2 : (-S2:ℚ) ≤ b - c := by exact_mod_cast q2
        have r3 : (b - c:ℚ) ≤ S2 := by exact_mod_cast q3
        have r5 : (-(2 * L):ℚ) ≤ a - S2 := by exact_mod_cast q5
        have r6 : (a - S2:ℚ) ≤ 2 * L := by exact_mod_cast q6
        have r7 : (2 * L:ℚ) ≤ a + S2 := by exact_mod_cast q7
        obtain ⟨z, hz⟩ : ∃ z, (b + c - S2:ℤ) = 2 * z := ⟨(b + c - S2) / 2, by omega⟩
        obtain ⟨y, hy⟩ : ∃ y, (2 * L + S2 - a:ℤ) = 2 * y := ⟨(2 * L + S2 - a) / 2, by omega⟩
        have hz' : (b + c - S2:ℚ) = 2 * z := by exact_mod_cast hz
        have hy' : (2 * L + S2 - a:ℚ) = 2 * y := by exact_mod_cast hy
        refine ⟨by omega, ⟨⟨by linarith, by linarith⟩, by linarith, z, by linarith⟩,
          ⟨⟨by linarith, by linarith⟩, by linarith, y, by linarith⟩⟩
    · constructor
      · rintro ⟨_, ⟨_, _, z, hz⟩, _⟩
        exact absurd ⟨b + c - 2 * z, by push_cast; linarith⟩ hS
      · rintro ⟨p, _, hp⟩
        exact absurd ⟨gridS b c p, (congrArg Prod.snd hp).symm⟩ hS
  have hnb := createRationalRange_nodup (-((b:ℚ)/2)) ((b:ℚ)/2)
  have hnc := createRationalRange_nodup (-((c:ℚ)/2)) ((c:ℚ)/2)
  have h2 : (((createSpinRange (b / 2)).product (createSpinRange (c / 2))).filter
        (fun p => |p.1 - p.2| ≤ (a / 2 : ℚ))).length = (grid a b c).card := by
    have hnd : (((createSpinRange (b / 2)).product (createSpinRange (c / 2))).filter
        (fun p => |p.1 - p.2| ≤ (a / 2 : ℚ))).Nodup := (List.Nodup.product hnb hnc).filter _
    have hinj : Function.Injective
        (fun p : ℕ × ℕ => ((-((b:ℚ)/2) + p.1, (c:ℚ)/2 - p.2) : ℚ × ℚ)) := by
      rintro ⟨i, k⟩ ⟨i', k'⟩ h
      simp only [Prod.mk.injEq, add_right_inj, sub_right_inj, Nat.cast_inj] at h
      exact Prod.ext h.1 h.2
    rw [← List.toFinset_card_of_nodup hnd, ← Finset.card_image_of_injective _ hinj]
    congr 1
    ext ⟨x, y⟩
    simp only [List.mem_toFinset, List.mem_filter, List.pair_mem_product, createSpinRange_mem,
      Finset.mem_image, grid, Finset.mem_filter, Finset.mem_product, Finset.mem_range,
      decide_eq_true_eq, Prod.mk.injEq, Prod.exists, abs_le]
    constructor
    · rintro ⟨⟨⟨i, hi, rfl⟩, ⟨k, hk, rfl⟩⟩, q1, q2⟩
      refine ⟨i, c - k, ⟨⟨by omega, by omega⟩, ?_⟩, rfl, ?_⟩
      · have r1 : (-a:ℚ) ≤ 2 * (i - k) - b + c := by linarith
        have r2 : (2 * (i - k) - b + c:ℚ) ≤ a := by linarith
        have r1' : (-a:ℤ) ≤ 2 * (i - k) - b + c := by exact_mod_cast r1
        have r2' : (2 * (i - k) - b + c:ℤ) ≤ a := by exact_mod_cast r2
        omega
      · rw [Nat.cast_sub hk]; ring
    · rintro ⟨i, k, ⟨⟨hi, hk⟩, q1, q2⟩, rfl, rfl⟩
      refine ⟨⟨⟨i, by omega, rfl⟩, ⟨c - k, by omega, ?_⟩⟩, ?_, ?_⟩
      · rw [Nat.cast_sub (by omega)]; ring
      · have : (-a:ℚ) ≤ 2 * (i + k) - b - c := by exact_mod_cast q1
        linarith
      · have : (2 * (i + k) - b - c:ℚ) ≤ a := by exact_mod_cast q2
        linarith
  rw [h1, h2]

/-- **C05** (negative part) with the default `max_L = 3`, the decay `4 → 0 ⊗ 0` has one allowed
helicity pair but no LS coupling. -/
theorem C05_default_truncates :
    generateLsCouplings 4 0 0 = [] ∧
      ((0:ℚ), (0:ℚ)) ∈ (createSpinRange 0).product (createSpinRange 0) ∧ AllowedLS 4 0 0 4 0 := by
  refine ⟨?_, ?_, ?_⟩
  · rw [List.eq_nil_iff_forall_not_mem]
    rintro ⟨L, S⟩ h
    rw [(C04_ls_contents _ _ _ _).1] at h
    obtain ⟨_, h1, ⟨n, hn⟩, h3, h4, h5⟩ := h
    have : (L:ℚ) ≤ 3 := by exact_mod_cast h1
    norm_num at hn h3
    have : n = 0 := by
      have : (n:ℚ) < 1 := by linarith
      have : n < 1 := by exact_mod_cast this
      omega
    subst this
    rw [hn] at h5; push_cast at h5; linarith
  · rw [List.pair_mem_product]
    have := ((C01_spin_range 0 0 (by norm_num)).2.2.1 0).2 ⟨by norm_num, by norm_num, 0, by norm_num⟩
    exact ⟨this, this⟩
  · refine ⟨by norm_num, ⟨?_, ?_, 0, ?_⟩, ⟨?_, ?_, 0, ?_⟩⟩ <;> norm_num

example : (generateLsCouplings (1/2) (3/2) 1 3).length =
      (((createSpinRange (3/2)).product (createSpinRange 1)).filter
        (fun p => |p.1 - p.2| ≤ (1/2 : ℚ))).length := by
  have := C05_ls_helicity_count 1 3 2 (by norm_num) 3 (by norm_num)
  norm_num at this ⊢
  exact this

/-- **C06** the parity filter. -/
theorem C06_parity_filter (ls : List (ℤ × ℚ)) (e0 e1 e2 : ℤ) :
    (∀ x, x ∈ filterParityViolatingLs ls e0 e1 e2 ↔
      x ∈ ls ∧ (e0 : ℚ) = e1 * e2 * (-1 : ℚ) ^ x.1) ∧
    (filterParityViolatingLs ls e0 e1 e2).Sublist ls ∧
    (∀ x, (e0 : ℚ) = e1 * e2 * (-1 : ℚ) ^ x.1 →
      (filterParityViolatingLs ls e0 e1 e2).count x = ls.count x) ∧
    filterParityViolatingLs (filterParityViolatingLs ls e0 e1 e2) e0 e1 e2
      = filterParityViolatingLs ls e0 e1 e2 ∧
    ((e0 = 1 ∨ e0 = -1) → (e1 = 1 ∨ e1 = -1) → (e2 = 1 ∨ e2 = -1) →
      ∀ x, ls.count x = (filterParityViolatingLs ls e0 e1 e2).count x
        + (filterParityViolatingLs ls (-e0) e1 e2).count x) := by
  have hpow : ∀ L : ℤ, ((if L % 2 = 0 then 1 else -1 : ℤ) : ℚ) = (-1 : ℚ) ^ L := by
    intro L
    split
    · rename_i h
      rw [Even.neg_one_zpow (Int.even_iff.2 h)]; simp
    · rename_i h
      rw [Odd.neg_one_zpow (Int.odd_iff.2 (by omega))]; simp
  refine ⟨?_, List.filter_sublist, ?_, by simp [filterParityViolatingLs], ?_⟩
  · intro x
    simp only [filterParityViolatingLs, List.mem_filter, decide_eq_true_eq]
    rw [← hpow]
    refine and_congr_right fun _ => ?_
    rw [← Int.cast_mul, ← Int.cast_mul, Int.cast_inj]
  · intro x hx
    rw [← hpow, ← Int.cast_mul, ← Int.cast_mul, Int.cast_inj] at hx
    exact List.count_filter (by simpa using hx)
  · intro h0 h1 h2 x
    unfold filterParityViolatingLs
    simp only [List.count_eq_countP]
    rw [List.countP_filter, List.countP_filter,
      List.countP_eq_countP_filter_add ls _ (fun x => decide (e0 = e1 * e2 * (if x.1 % 2 = 0 then 1 else -1))),
      List.countP_filter, List.countP_filter]
    congr 1
    apply List.countP_congr
    intro y _
    simp only [Bool.and_eq_true, Bool.not_eq_true', decide_eq_false_iff_not, decide_eq_true_eq,
      beq_iff_eq]
    refine and_congr_right fun _ => ?_
    rcases h0 with rfl | rfl <;> rcases h1 with rfl | rfl <;> rcases h2 with rfl | rfl <;>
      by_cases hy : y.1 % 2 = 0 <;> simp [hy]

example : filterParityViolatingLs [(1, 3/2), (2, 3/2)] 1 (-1) (-1) = [(2, 3/2)] := by
  simp [filterParityViolatingLs]

/-- **C07** a spin value is accepted iff it is an integer or half-integer; otherwise
`ValueError`. -/
theorem C07_spin_validation (s : ℚ) :
    (assertSpinValue s = .ok () ↔ IsHalfInteger s) ∧
    (assertSpinValue s = .error .valueError ↔ ¬ IsHalfInteger s) := by
  have key : s.den ∈ [1, 2] ↔ IsHalfInteger s := by
    simp only [List.mem_cons, List.not_mem_nil, or_false]
    constructor
    · rintro (h | h)
      · refine ⟨2 * s.num, ?_⟩
        have := Rat.num_div_den s
        rw [h] at this
        push_cast
        simp at this
        linarith
      · refine ⟨s.num, ?_⟩
        have := Rat.num_div_den s
        rw [h] at this
        push_cast at this
        linarith
    · rintro ⟨n, rfl⟩
      have h : (((n:ℚ) / (2:ℤ) : ℚ)).den ∣ (2:ℤ).natAbs := by
        have := Rat.den_dvd n 2
        rw [Rat.divInt_eq_div] at this
        exact_mod_cast this
      have h2 : ((n:ℚ) / 2).den ∣ 2 := by simpa using h
      have h3 := Nat.le_of_dvd (by norm_num) h2
      have h4 := ((n:ℚ) / 2).den_pos
      omega
  unfold assertSpinValue
  constructor
  · rw [← key]; split <;> simp_all
  · rw [← key]; split <;> simp_all

/-- **C07** (negative part) negative spins pass validation and have no projections at all. -/
theorem C07_negative_spin (n : ℕ) :
    assertSpinValue (-((n : ℚ) + 1) / 2) = .ok () ∧ createSpinRange (-((n : ℚ) + 1) / 2) = [] := by
  constructor
  · rw [(C07_spin_validation _).1]
    exact ⟨-(n + 1), by push_cast; ring⟩
  · rw [List.eq_nil_iff_forall_not_mem]
    intro x hx
    unfold createSpinRange at hx
    rw [createRationalRange_mem] at hx
    obtain ⟨k, rfl, h⟩ := hx
    have h1 : (0:ℚ) ≤ k := by positivity
    have h2 : (0:ℚ) ≤ n := by positivity
    linarith

example : assertSpinValue (1/3) = .error .valueError := by
  rw [(C07_spin_validation _).2]
  rintro ⟨n, h⟩
  have h' : (3 * n : ℚ) = 2 := by linarith
  have : 3 * n = 2 := by exact_mod_cast h'
  omega

end Verif.Spin
