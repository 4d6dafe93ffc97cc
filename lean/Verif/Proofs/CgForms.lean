import Mathlib.Data.Real.Basic
import Mathlib.Data.Nat.Choose.Vandermonde
import Mathlib.Algebra.BigOperators.Ring.Finset
import Mathlib.Algebra.BigOperators.NatAntidiagonal
import Mathlib.Algebra.BigOperators.Intervals
import Mathlib.Tactic.Ring
import Mathlib.Tactic.Linarith
import Mathlib.Tactic.LinearCombination
import Mathlib.Tactic.FieldSimp
import Mathlib.Tactic.Positivity

/-!
Orthogonality of the coefficients of the forms `(y-x)^n (1+x)^p (1+y)^q`, with Cayley's Ω-process. Forms are represented
by their coefficients `f a β` (of `x^a y^β`). Used for the orthogonality of the Clebsch-Gordan coefficients.
-/
namespace Verif.Cg

/-- Binomial coefficient with an integer below. -/
def bin (n : ℕ) (k : ℤ) : ℝ := if 0 ≤ k then (n.choose k.toNat : ℝ) else 0

theorem bin_nat (n k : ℕ) : bin n k = n.choose k := by simp [bin]

theorem bin_neg (n : ℕ) {k : ℤ} (h : k < 0) : bin n k = 0 := if_neg (by omega)

theorem bin_gt (n : ℕ) {k : ℤ} (h : n < k) : bin n k = 0 := by
  obtain ⟨m, rfl⟩ := Int.eq_ofNat_of_zero_le (show 0 ≤ k by omega)
  rw [bin_nat, Nat.choose_eq_zero_of_lt (by omega), Nat.cast_zero]

theorem bin_succ_mul (n : ℕ) (k : ℤ) : (k + 1) * bin n (k + 1) = (n - k) * bin n k := by
  rcases lt_trichotomy k (-1) with h | rfl | h
  · rw [bin_neg n (by omega), bin_neg n (by omega)]; ring
  · rw [bin_neg n (show (-1 : ℤ) < 0 by omega)]; simp
  · obtain ⟨m, rfl⟩ := Int.eq_ofNat_of_zero_le (show 0 ≤ k by omega)
    rw [show ((m : ℤ) + 1) = ((m + 1 : ℕ) : ℤ) by simp, bin_nat, bin_nat]
    rcases Nat.lt_or_ge n m with h | h
    · rw [Nat.choose_eq_zero_of_lt h, Nat.choose_eq_zero_of_lt (by omega)]; simp
    · have := Nat.choose_succ_right_eq n m
      have e : ((n - m : ℕ) : ℝ) = n - m := Nat.cast_sub h
      have e2 : ((n.choose (m + 1) * (m + 1) : ℕ) : ℝ) = ((n.choose m * (n - m) : ℕ) : ℝ) := by rw [this]
      push_cast [e] at e2
      push_cast
      linarith

theorem bin_symm (n : ℕ) (k : ℤ) : bin n (n - k) = bin n k := by
  rcases lt_or_ge k 0 with h | h
  · rw [bin_neg n h, bin_gt n (by omega)]
  · rcases lt_or_ge (n : ℤ) k with h' | h'
    · rw [bin_gt n h', bin_neg n (by omega)]
    · obtain ⟨m, rfl⟩ := Int.eq_ofNat_of_zero_le h
      rw [show (n : ℤ) - m = ((n - m : ℕ) : ℤ) by omega, bin_nat, bin_nat,
        Nat.choose_symm (by simpa using h')]

theorem bin_pascal (n : ℕ) (k : ℤ) : bin (n + 1) k = bin n k + bin n (k - 1) := by
  rcases lt_trichotomy k 0 with h | rfl | h
  · rw [bin_neg _ h, bin_neg _ h, bin_neg _ (by omega), add_zero]
  · rw [bin_neg n (show (0 : ℤ) - 1 < 0 by omega)]
    simp [bin]
  · obtain ⟨m, rfl⟩ : ∃ m : ℕ, k = ((m + 1 : ℕ) : ℤ) := ⟨(k - 1).toNat, by omega⟩
    rw [show ((m + 1 : ℕ) : ℤ) - 1 = (m : ℕ) by simp, bin_nat, bin_nat, bin_nat, Nat.choose_succ_succ]
    push_cast
    ring

/-- `k! (D-k)!` for `0 ≤ k ≤ D`. -/
def wt (D : ℕ) (k : ℤ) : ℝ := if 0 ≤ k ∧ k ≤ D then (k.toNat.factorial * (D - k).toNat.factorial : ℕ) else 0

theorem wt_nat {D k : ℕ} (h : k ≤ D) : wt D k = (k.factorial * (D - k).factorial : ℕ) := by
  unfold wt
  rw [if_pos (by omega), show ((D : ℤ) - k).toNat = D - k by omega, Int.toNat_natCast]

theorem wt_bin {D : ℕ} (k : ℤ) : wt D k * bin D k * bin D k = D.factorial * bin D k := by
  rcases lt_or_ge k 0 with h | h
  · rw [bin_neg _ h]; ring
  · rcases lt_or_ge (D : ℤ) k with h' | h'
    · rw [bin_gt _ h']; ring
    · obtain ⟨m, rfl⟩ := Int.eq_ofNat_of_zero_le h
      have hm : m ≤ D := by omega
      rw [wt_nat hm, bin_nat, ← Nat.choose_mul_factorial_mul_factorial hm]
      push_cast
      ring

theorem wt_left {D : ℕ} {k : ℕ} (h : k ≤ D) : wt (D + 1) k = (((D + 1 : ℕ) : ℝ) - k) * wt D k := by
  rw [wt_nat h, wt_nat (by omega), show D + 1 - k = (D - k) + 1 by omega, Nat.factorial_succ]
  push_cast [Nat.cast_sub h]
  ring

theorem wt_right {D : ℕ} {k : ℤ} (h : 0 ≤ k) (h' : k ≤ D) : wt (D + 1) (k + 1) = (k + 1) * wt D k := by
  obtain ⟨m, rfl⟩ := Int.eq_ofNat_of_zero_le h
  rw [show (m : ℤ) + 1 = ((m + 1 : ℕ) : ℤ) by simp, wt_nat (by omega), wt_nat (by omega),
    show D + 1 - (m + 1) = D - m by omega, Nat.factorial_succ]
  push_cast
  ring

theorem wt_left' {D : ℕ} {k : ℤ} (h : 0 ≤ k) (h' : k ≤ D) : wt (D + 1) k = (((D + 1 : ℕ) : ℝ) - k) * wt D k := by
  obtain ⟨m, rfl⟩ := Int.eq_ofNat_of_zero_le h
  exact_mod_cast wt_left (by omega)

abbrev Form := ℤ → ℤ → ℝ

/-- Multiplication by `y - x`. -/
def up (f : Form) : Form := fun a β => f a (β - 1) - f (a - 1) β

/-- The Ω-process on forms of degrees `D₁`, `D₂`. -/
def om (D₁ D₂ : ℤ) (f : Form) : Form := fun a β =>
  (D₁ - a) * (β + 1) * f a (β + 1) - (a + 1) * (D₂ - β) * f (a + 1) β

theorem om_up (D₁ D₂ : ℤ) (f : Form) (a β : ℤ) :
    om D₁ D₂ (up f) a β = up (om (D₁ - 1) (D₂ - 1) f) a β + (D₁ + D₂) * f a β := by
  unfold om up
  simp only
  rw [show β + 1 - 1 = β by ring, show a + 1 - 1 = a by ring, show β - 1 + 1 = β by ring,
    show a - 1 + 1 = a by ring]
  push_cast
  ring

theorem up_smul (c : ℝ) (f : Form) (a β : ℤ) : up (fun a β => c * f a β) a β = c * up f a β := by
  unfold up; ring

/-- `f` only has terms of degrees up to `D₁`, `D₂`. -/
def Within (D₁ D₂ : ℕ) (f : Form) : Prop :=
  ∀ a β : ℤ, ¬ (0 ≤ a ∧ a ≤ D₁ ∧ 0 ≤ β ∧ β ≤ D₂) → f a β = 0

theorem Within.up {D₁ D₂ : ℕ} {f : Form} (h : Within D₁ D₂ f) : Within (D₁ + 1) (D₂ + 1) (up f) := by
  intro a β hab
  unfold Cg.up
  rw [h a (β - 1) (by push_cast at hab; omega), h (a - 1) β (by push_cast at hab; omega), sub_zero]

/-- Inner product of the parts of total degree `d`. -/
def ip (D₁ D₂ : ℕ) (d : ℤ) (f g : Form) : ℝ :=
  ∑ a ∈ Finset.range (D₁ + 1), wt D₁ a * wt D₂ (d - a) * f a (d - a) * g a (d - a)

theorem ip_comm (D₁ D₂ : ℕ) (d : ℤ) (f g : Form) : ip D₁ D₂ d f g = ip D₁ D₂ d g f :=
  Finset.sum_congr rfl fun _ _ => by ring

theorem ip_smul (D₁ D₂ : ℕ) (d : ℤ) (f g : Form) (c : ℝ) :
    ip D₁ D₂ d f (fun a β => c * g a β) = c * ip D₁ D₂ d f g := by
  unfold ip
  rw [Finset.mul_sum]
  exact Finset.sum_congr rfl fun _ _ => by ring

theorem ip_up {D₁ D₂ : ℕ} {f : Form} (h : Within D₁ D₂ f) (d : ℤ) (g : Form) :
    ip (D₁ + 1) (D₂ + 1) d (up f) g = ip D₁ D₂ (d - 1) f (om (D₁ + 1) (D₂ + 1) g) := by
  have h1 : ∑ a ∈ Finset.range (D₁ + 1 + 1), wt (D₁ + 1) a * wt (D₂ + 1) (d - a) * f a (d - a - 1) * g a (d - a) =
      ∑ a ∈ Finset.range (D₁ + 1), wt D₁ a * wt D₂ (d - 1 - a) * f a (d - 1 - a) *
        ((D₁ + 1 - a) * (d - a) * g a (d - a)) := by
    rw [Finset.sum_range_succ, h ((D₁ + 1 : ℕ) : ℤ) _ (by push_cast; omega), mul_zero, zero_mul, add_zero]
    refine Finset.sum_congr rfl fun a ha => ?_
    rw [Finset.mem_range] at ha
    rw [show d - (a : ℤ) - 1 = d - 1 - a by ring]
    by_cases hb : 0 ≤ d - 1 - (a : ℤ) ∧ d - 1 - (a : ℤ) ≤ D₂
    · have := wt_right hb.1 hb.2
      rw [show d - 1 - (a : ℤ) + 1 = d - a by ring] at this
      rw [this, wt_left (by omega)]
      push_cast
      ring
    · rw [h a (d - 1 - a) (by omega)]; ring
  have h2 : ∑ a ∈ Finset.range (D₁ + 1 + 1), wt (D₁ + 1) a * wt (D₂ + 1) (d - a) * f (a - 1) (d - a) * g a (d - a) =
      ∑ a ∈ Finset.range (D₁ + 1), wt D₁ a * wt D₂ (d - 1 - a) * f a (d - 1 - a) *
        ((a + 1) * (D₂ + 1 - (d - 1 - a)) * g (a + 1) (d - 1 - a)) := by
    rw [Finset.sum_range_succ', h (((0 : ℕ) : ℤ) - 1) _ (by omega), mul_zero, zero_mul, add_zero]
    refine Finset.sum_congr rfl fun a ha => ?_
    rw [Finset.mem_range] at ha
    rw [show ((a + 1 : ℕ) : ℤ) = (a : ℤ) + 1 by simp, show d - ((a : ℤ) + 1) = d - 1 - a by ring,
      show (a : ℤ) + 1 - 1 = a by ring]
    by_cases hb : 0 ≤ d - 1 - (a : ℤ) ∧ d - 1 - (a : ℤ) ≤ D₂
    · rw [wt_left' hb.1 hb.2, wt_right (by omega) (by omega)]
      push_cast
      ring
    · rw [h a (d - 1 - a) (by omega)]; ring
  unfold ip up
  simp only [mul_sub, sub_mul, Finset.sum_sub_distrib]
  rw [h1, h2, ← Finset.sum_sub_distrib]
  refine Finset.sum_congr rfl fun a _ => ?_
  unfold om
  rw [show d - 1 - (a : ℤ) + 1 = d - a by ring]
  push_cast
  ring

/-- The coefficients of `(y-x)^n (1+x)^p (1+y)^q`. -/
def form : ℕ → ℕ → ℕ → Form
  | 0, p, q => fun a β => bin p a * bin q β
  | n + 1, p, q => up (form n p q)

theorem form_within (n p q : ℕ) : Within (n + p) (n + q) (form n p q) := by
  induction n with
  | zero =>
    intro a β h
    unfold form
    by_cases ha : 0 ≤ a ∧ a ≤ (p : ℤ)
    · have : β < 0 ∨ (q : ℤ) < β := by push_cast at h; omega
      rcases this with h' | h'
      · rw [bin_neg q h', mul_zero]
      · rw [bin_gt q h', mul_zero]
    · have : a < 0 ∨ (p : ℤ) < a := by omega
      rcases this with h' | h'
      · rw [bin_neg p h', zero_mul]
      · rw [bin_gt p h', zero_mul]
  | succ n ih =>
    have := ih.up
    rwa [show n + p + 1 = n + 1 + p by ring, show n + q + 1 = n + 1 + q by ring] at this

theorem om_form_zero (p q : ℕ) (a β : ℤ) : om p q (form 0 p q) a β = 0 := by
  unfold om form
  have h1 := bin_succ_mul p a
  have h2 := bin_succ_mul q β
  linear_combination (p - a) * bin p a * h2 - (q - β) * bin q β * h1

theorem om_form_succ (n p q : ℕ) (a β : ℤ) :
    om (n + 1 + p) (n + 1 + q) (form (n + 1) p q) a β = (n + 1) * (n + p + q + 2) * form n p q a β := by
  induction n generalizing a β with
  | zero =>
    rw [show form (0 + 1) p q = up (form 0 p q) from rfl, om_up]
    have : om (((0 : ℕ) : ℤ) + 1 + p - 1) (((0 : ℕ) : ℤ) + 1 + q - 1) (form 0 p q) = fun _ _ => 0 := by
      funext a β
      rw [show (((0 : ℕ) : ℤ) + 1 + p - 1) = p by simp, show (((0 : ℕ) : ℤ) + 1 + q - 1) = q by simp, om_form_zero]
    rw [this]
    unfold up
    push_cast
    ring
  | succ n ih =>
    rw [form, om_up]
    have : om (((n + 1 : ℕ) : ℤ) + 1 + p - 1) (((n + 1 : ℕ) : ℤ) + 1 + q - 1) (form (n + 1) p q) =
        fun a β => (n + 1) * (n + p + q + 2) * form n p q a β := by
      funext a β
      rw [show (((n + 1 : ℕ) : ℤ) + 1 + p - 1) = n + 1 + p by push_cast; ring,
        show (((n + 1 : ℕ) : ℤ) + 1 + q - 1) = n + 1 + q by push_cast; ring, ih]
    rw [this, up_smul, show up (form n p q) = form (n + 1) p q from rfl]
    push_cast
    ring

theorem ip_form_step (n n' p q p' q' : ℕ) (hp : n + p = n' + p') (hq : n + q = n' + q') (d : ℤ) :
    ip (n + 1 + p) (n + 1 + q) d (form (n + 1) p q) (form (n' + 1) p' q') =
      (n' + 1) * (n' + p' + q' + 2) * ip (n + p) (n + q) (d - 1) (form n p q) (form n' p' q') := by
  rw [show n + 1 + p = n + p + 1 by ring, show n + 1 + q = n + q + 1 by ring, form, ip_up (form_within n p q), ← ip_smul]
  congr 1
  funext a β
  rw [← om_form_succ]
  congr 1
  · push_cast; omega
  · push_cast; omega

theorem ip_form_zero (n p q p' q' : ℕ) (hp : n + 1 + p = p') (hq : n + 1 + q = q') (d : ℤ) :
    ip (n + 1 + p) (n + 1 + q) d (form (n + 1) p q) (form 0 p' q') = 0 := by
  rw [show n + 1 + p = n + p + 1 by ring, show n + 1 + q = n + q + 1 by ring,
    show form (n + 1) p q = up (form n p q) from rfl, ip_up (form_within n p q)]
  have : om (((n + p : ℕ) : ℤ) + 1) (((n + q : ℕ) : ℤ) + 1) (form 0 p' q') = fun _ _ => 0 := by
    funext a β
    rw [show ((n + p : ℕ) : ℤ) + 1 = p' by rw [← hp]; push_cast; ring,
      show ((n + q : ℕ) : ℤ) + 1 = q' by rw [← hq]; push_cast; ring, om_form_zero]
  rw [this]
  unfold ip
  simp

/-- The forms of the same degrees for different `n` are orthogonal. -/
theorem ip_form_ne {n n' : ℕ} (hn : n ≠ n') {p q p' q' : ℕ} (hp : n + p = n' + p') (hq : n + q = n' + q') (d : ℤ) :
    ip (n + p) (n + q) d (form n p q) (form n' p' q') = 0 := by
  induction n generalizing n' d with
  | zero =>
    obtain ⟨m, rfl⟩ := Nat.exists_eq_succ_of_ne_zero hn.symm
    rw [ip_comm, hp, hq]
    exact ip_form_zero m p' q' p q (by omega) (by omega) d
  | succ n ih =>
    cases n' with
    | zero => exact ip_form_zero n p q p' q' (by omega) (by omega) d
    | succ m =>
      rw [ip_form_step n m p q p' q' (by omega) (by omega), ih (by omega) (by omega) (by omega), mul_zero]

theorem vandermonde (p q : ℕ) (d : ℤ) :
    ∑ a ∈ Finset.range (p + 1), bin p a * bin q (d - a) = bin (p + q) d := by
  rcases lt_or_ge d 0 with h | h
  · rw [bin_neg _ h]
    refine Finset.sum_eq_zero fun a _ => ?_
    rw [bin_neg q (by omega), mul_zero]
  · obtain ⟨m, rfl⟩ := Int.eq_ofNat_of_zero_le h
    rw [bin_nat, Nat.add_choose_eq, Finset.Nat.sum_antidiagonal_eq_sum_range_succ
      (fun i j => p.choose i * q.choose j)]
    push_cast
    have e : ∀ a : ℕ, (if a ≤ m then (p.choose a : ℝ) * (q.choose (m - a)) else 0) = bin p a * bin q (m - a) := by
      intro a
      split
      · rename_i ha
        rw [bin_nat, show (m : ℤ) - a = ((m - a : ℕ) : ℤ) by omega, bin_nat]
      · rw [bin_neg q (by omega), mul_zero]
    have h1 : ∑ a ∈ Finset.range (p + 1), bin p a * bin q ((m : ℤ) - a) =
        ∑ a ∈ Finset.range (p + m + 1), bin p a * bin q ((m : ℤ) - a) := by
      refine Finset.sum_subset (Finset.range_subset_range.2 (by omega)) fun a _ ha => ?_
      rw [Finset.mem_range] at ha
      rw [bin_gt p (by omega), zero_mul]
    have h2 : ∑ a ∈ Finset.range (m + 1), (p.choose a : ℝ) * (q.choose (m - a)) =
        ∑ a ∈ Finset.range (p + m + 1), bin p a * bin q ((m : ℤ) - a) := by
      rw [← Finset.sum_subset (Finset.range_subset_range.2 (show m + 1 ≤ p + m + 1 by omega))]
      · refine Finset.sum_congr rfl fun a ha => ?_
        rw [Finset.mem_range] at ha
        rw [← e, if_pos (by omega)]
      · intro a _ ha
        rw [Finset.mem_range] at ha
        rw [bin_neg q (by omega), mul_zero]
    rw [h1, h2]

/-- The norm of the forms. -/
theorem ip_form_self (n p q : ℕ) (d : ℤ) :
    ip (n + p) (n + q) d (form n p q) (form n p q) * (p + q + 1).factorial =
      n.factorial * (n + p + q + 1).factorial * p.factorial * q.factorial * bin (p + q) (d - n) := by
  induction n generalizing d with
  | zero =>
    rw [show ip (0 + p) (0 + q) d (form 0 p q) (form 0 p q) = p.factorial * q.factorial * bin (p + q) d from ?_]
    · simp; ring
    · rw [← vandermonde, Finset.mul_sum]
      unfold ip
      rw [zero_add, zero_add]
      refine Finset.sum_congr rfl fun a _ => ?_
      unfold form
      linear_combination wt_bin (D := p) a * wt q (d - a) * bin q (d - a) * bin q (d - a) +
        p.factorial * bin p a * wt_bin (D := q) (d - a)
  | succ n ih =>
    rw [ip_form_step n n p q p q rfl rfl, mul_assoc, ih, show n + 1 + p + q + 1 = (n + p + q + 1) + 1 by ring,
      Nat.factorial_succ (n + p + q + 1), Nat.factorial_succ n, show d - 1 - (n : ℤ) = d - ((n + 1 : ℕ) : ℤ) by push_cast; ring]
    push_cast
    ring

/-- The coefficients as a sum (Racah's formula). -/
theorem form_eq (n p q : ℕ) (a β : ℤ) :
    form n p q a β = ∑ k ∈ Finset.range (n + 1), (-1) ^ k * n.choose k * bin p (a - k) * bin q (β - (n - k)) := by
  induction n generalizing a β with
  | zero => simp [form]
  | succ n ih =>
    rw [form, up, ih, ih]
    have h1 : ∑ k ∈ Finset.range (n + 1), (-1 : ℝ) ^ k * n.choose k * bin p (a - k) * bin q (β - 1 - (n - k)) =
        ∑ k ∈ Finset.range (n + 1 + 1), (-1 : ℝ) ^ k * n.choose k * bin p (a - k) * bin q (β - ((n + 1 : ℕ) - k)) := by
      rw [Finset.sum_range_succ _ (n + 1), Nat.choose_succ_self, Nat.cast_zero, mul_zero, zero_mul, zero_mul, add_zero]
      refine Finset.sum_congr rfl fun k _ => ?_
      rw [show β - 1 - ((n : ℤ) - k) = β - ((n + 1 : ℕ) - k) by push_cast; ring]
    rw [h1, Finset.sum_range_succ', Finset.sum_range_succ' _ (n + 1)]
    have h2 : ∀ k : ℕ, (-1 : ℝ) ^ (k + 1) * ((n + 1).choose (k + 1) : ℕ) * bin p (a - ((k + 1 : ℕ) : ℤ)) *
        bin q (β - (((n + 1 : ℕ) : ℤ) - ((k + 1 : ℕ) : ℤ))) =
        (-1 : ℝ) ^ (k + 1) * (n.choose (k + 1) : ℕ) * bin p (a - ((k + 1 : ℕ) : ℤ)) *
        bin q (β - (((n + 1 : ℕ) : ℤ) - ((k + 1 : ℕ) : ℤ))) -
        (-1) ^ k * n.choose k * bin p (a - 1 - k) * bin q (β - (n - k)) := by
      intro k
      rw [Nat.choose_succ_succ, show a - ((k + 1 : ℕ) : ℤ) = a - 1 - k by push_cast; ring,
        show β - (((n + 1 : ℕ) : ℤ) - ((k + 1 : ℕ) : ℤ)) = β - (n - k) by push_cast; ring]
      push_cast
      ring
    rw [Finset.sum_congr rfl fun k _ => h2 k, Finset.sum_sub_distrib]
    simp only [Nat.choose_zero_right]
    ring

end Verif.Cg
