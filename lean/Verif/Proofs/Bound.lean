import Verif.Proofs.Projection
import Verif.Proofs.Interference
import Verif.Proofs.LsMatrix
import Verif.Spec.Bound
import Verif.Props.Spin

/-! Helpers for C115: upper bounds on the intensity. -/
namespace Verif.ThreeBody
open Verif Verif.Spec Verif.Spin Verif.Angles

variable {b : Builder} {ι : Interp} {uc : Bool}

/-- Root of the sum of the squared moduli. -/
noncomputable def l2 {L : Type*} (H : Finset L) (f : L → ℂ) : ℝ := √(∑ l ∈ H, ‖f l‖ ^ 2)

theorem l2_eq {L : Type*} (H : Finset L) (f : L → ℂ) : l2 H f = ‖(WithLp.toLp 2 fun l : H => f l : EuclideanSpace ℂ H)‖ := by
  rw [EuclideanSpace.norm_eq]
  unfold l2
  rw [← Finset.sum_coe_sort H]

theorem l2_add {L : Type*} (H : Finset L) (f g : L → ℂ) : l2 H (fun l => f l + g l) ≤ l2 H f + l2 H g := by
  rw [l2_eq, l2_eq, l2_eq]
  refine le_trans (le_of_eq (congrArg norm ?_)) (norm_add_le _ _)
  ext l
  rfl

theorem l2_zero {L : Type*} (H : Finset L) : l2 H (fun _ => 0) = 0 := by simp [l2]

theorem l2_sum {κ L : Type*} (H : Finset L) (V : κ → L → ℂ) (S : Finset κ) :
    l2 H (fun l => ∑ x ∈ S, V x l) ≤ ∑ x ∈ S, l2 H (V x) := by
  classical
  induction S using Finset.induction_on with
  | empty => simp [l2_zero]
  | insert a S ha ih =>
    simp only [Finset.sum_insert ha]
    exact (l2_add H _ _).trans (by gcongr)

theorem l2_list {κ L : Type*} (H : Finset L) (V : κ → L → ℂ) (S : List κ) :
    l2 H (fun l => (S.map fun x => V x l).sum) ≤ (S.map fun x => l2 H (V x)).sum := by
  induction S with
  | nil => simp [l2_zero]
  | cons a S ih =>
    simp only [List.map_cons, List.sum_cons]
    exact (l2_add H _ _).trans (by gcongr)

theorem l2_mono {L : Type*} {H : Finset L} {f : L → ℂ} {g : L → ℝ} {z : ℝ} (hz : 0 ≤ z) (h : ∀ l ∈ H, ‖f l‖ ^ 2 ≤ z ^ 2 * g l) :
    l2 H f ≤ z * √(∑ l ∈ H, g l) := by
  unfold l2
  calc √(∑ l ∈ H, ‖f l‖ ^ 2) ≤ √(z ^ 2 * ∑ l ∈ H, g l) := by
        rw [Finset.mul_sum]
        exact Real.sqrt_le_sqrt (Finset.sum_le_sum h)
    _ = _ := by rw [Real.sqrt_mul (sq_nonneg z), Real.sqrt_sq hz]

/-- The alignment rotates the amplitudes of one subsystem. -/
theorem intensityOver_single {d : Decay} (hd : Standard d) {D : ℚ → ℚ → ℚ → ℝ → ℝ} (hD : IsWignerD D) (hι : UsesWignerD ι D)
    {k r : ℤ} (z : Fin 4 → ℝ) (hz : ∀ i : Fin 4, d.spin i ≠ 0 → ι.sym (zetaSymbol i k r) = z i)
    (A : ℤ → (Fin 4 → ℚ) → ℂ) :
    intensityOver ι d {k} r A = ∑ l ∈ helicities d, ‖A k l‖ ^ 2 := by
  have hhalf := spins_half hd
  have hz0 : ∀ i : Fin 4, d.spin i = 0 → projections (d.spin i) = {0} := by
    intro i hi; rw [hi, projections_zero]
  let W : Fin 4 → ℚ → ℚ → ℝ := fun i a n => if d.spin i = 0 then 1 else
    if i = 0 then D (d.spin i) a n (z i) else D (d.spin i) n a (z i)
  have hW : ∀ i : Fin 4, ∀ n ∈ projections (d.spin i), ∀ n' ∈ projections (d.spin i),
      ∑ a ∈ projections (d.spin i), W i a n * W i a n' = if n = n' then 1 else 0 := by
    intro i n hn n' hn'
    simp only [W]
    by_cases hs : d.spin i = 0
    · rw [hz0 i hs] at hn hn' ⊢
      rw [Finset.mem_singleton] at hn hn'
      subst hn; subst hn'
      simp [hs]
    · simp only [if_neg hs]
      by_cases hi : i = 0
      · simp only [if_pos hi]; exact wigner_orth_left hD (hhalf i) hn hn' _
      · simp only [if_neg hi]; exact wigner_orth_right hD (hhalf i) hn hn' _
  have hV : ∀ n ∈ helicities d, ∀ n' ∈ helicities d,
      ∑ l ∈ helicities d, (∏ i, W i (l i) (n i)) * (∏ i, W i (l i) (n' i)) =
        if n = n' then 1 else 0 := by
    intro n hn n' hn'
    unfold helicities at hn hn' ⊢
    rw [Fintype.mem_piFinset] at hn hn'
    simp only [← Finset.prod_mul_distrib]
    rw [← Finset.prod_univ_sum (fun i : Fin 4 => projections (d.spin i)) (fun i a => W i a (n i) * W i a (n' i))]
    simp only [fun i => hW i (n i) (hn i) (n' i) (hn' i)]
    by_cases h : n = n'
    · subst h; simp
    · rw [if_neg h]
      obtain ⟨i, hi⟩ := Function.ne_iff.1 h
      exact Finset.prod_eq_zero (Finset.mem_univ i) (if_neg hi)
  unfold intensityOver
  rw [← sum_norm_sq_orthogonal (helicities d) (fun l n => ∏ i, W i (l i) (n i)) hV (A k)]
  apply Finset.sum_congr rfl
  intro l hl
  congr 2
  rw [alignedOver_eq]
  apply Finset.sum_congr rfl
  intro l' _
  rw [Finset.sum_singleton, mul_comm]
  push_cast
  congr 1
  apply Finset.prod_congr rfl
  intro i _
  simp only [factor, rotation, W]
  by_cases hs : d.spin i = 0
  · simp [hs]
  · simp only [if_neg hs, hz i hs, hι _ _ _ _]
    split <;> rfl

theorem sqrt_intensityOver_le {d : Decay} (hd : Standard d) (hw : ActualWigner ι) (ha : RealAngles ι) (S : Finset ℤ) (r : ℤ)
    (A : ℤ → (Fin 4 → ℚ) → ℂ) :
    √(intensityOver ι d S r A) ≤ ∑ k ∈ S, √(∑ l ∈ helicities d, ‖A k l‖ ^ 2) := by
  have h1 : ∀ k ∈ S, √(∑ l ∈ helicities d, ‖A k l‖ ^ 2) = l2 (helicities d) (alignedOver ι d {k} r A) := by
    intro k _
    choose z hz using fun i : Fin 4 => ha.alignment i k r
    rw [← intensityOver_single hd actual_isWignerD hw.uses z (fun i _ => hz i) A]
    rfl
  rw [Finset.sum_congr rfl h1]
  refine le_trans (le_of_eq ?_) (l2_sum _ _ _)
  unfold l2 intensityOver
  congr 1
  apply Finset.sum_congr rfl
  intro l _
  congr 2
  unfold alignedOver
  simp only [Finset.sum_singleton]
  exact Finset.sum_comm

theorem wignerD_abs_le {j m m' : ℚ} (hj : IsHalfInteger j) (hm : m ∈ projections j) (hm' : m' ∈ projections j) (x : ℝ) :
    |Wigner.wignerD j m m' x| ≤ 1 := by
  have h := wigner_orth_left Wigner.isWignerD hj hm' hm' x
  rw [if_pos rfl] at h
  have h1 : Wigner.wignerD j m m' x ^ 2 ≤ 1 := by
    rw [← h]
    simp only [← pow_two]
    exact Finset.single_le_sum (f := fun a => Wigner.wignerD j a m' x ^ 2) (fun _ _ => sq_nonneg _) hm
  exact (sq_le_one_iff_abs_le_one _).1 h1

open Classical in
/-- The angular dependence of a chain has modulus at most 1. -/
theorem chainValue_le (hd : Standard b.decay) {c : Chain} (hc : c ∈ b.decay.chains) (hw : ActualWigner ι) (ha : RealAngles ι)
    (L : Chain → ℂ) (i j k : ℤ) (l : Fin 4 → ℚ) :
    ‖chainValue ι b uc L i j k (byId l) c‖ ^ 2 ≤ ‖L c‖ ^ 2 *
      if Projection c.resonance.toP.spin (helicityOf l 0 + helicityOf l k) ∧
        Projection c.resonance.toP.spin (helicityOf l i - helicityOf l j) then
      ‖couplings ι b c uc (helicityOf l 0 + helicityOf l k) (helicityOf l k) (helicityOf l i) (helicityOf l j) *
        decayFactor ι b c (helicityOf l) * productionFactor ι b c (helicityOf l 0 + helicityOf l k) (helicityOf l k)‖ ^ 2
      else 0 := by
  have hJ := hd.resonances c hc
  obtain ⟨x, hx⟩ := ha.decay i j
  unfold chainValue
  rw [show byId l = helicityOf l from rfl, show (⟨"theta_" ++ toString i ++ toString j, .real⟩ : Sym) = decayAngle i j from rfl,
    hx, hw]
  by_cases h1 : Projection c.resonance.toP.spin (helicityOf l 0 + helicityOf l k)
  · by_cases h2 : Projection c.resonance.toP.spin (helicityOf l i - helicityOf l j)
    · rw [if_pos h1, if_pos h2, if_pos ⟨h1, h2⟩]
      have := wignerD_abs_le hJ ((mem_projections hJ _).2 h1) ((mem_projections hJ _).2 h2) x
      simp only [norm_mul, norm_minusOnePow, one_mul, mul_pow, Complex.norm_real, Real.norm_eq_abs, sq_abs]
      have h3 : Wigner.wignerD c.resonance.toP.spin (helicityOf l 0 + helicityOf l k) (helicityOf l i - helicityOf l j) x ^ 2 ≤ 1 :=
        (sq_le_one_iff_abs_le_one _).2 this
      have h4 : 0 ≤ ‖L c‖ ^ 2 * (‖couplings ι b c uc (helicityOf l 0 + helicityOf l k) (helicityOf l k) (helicityOf l i)
        (helicityOf l j)‖ ^ 2 * ‖decayFactor ι b c (helicityOf l)‖ ^ 2 *
        ‖productionFactor ι b c (helicityOf l 0 + helicityOf l k) (helicityOf l k)‖ ^ 2) := by positivity
      nlinarith [mul_le_mul_of_nonneg_left h3 h4]
    · rw [if_pos h1, if_neg h2, if_neg fun h => h2 h.2]; simp
  · rw [if_neg h1, if_neg fun h => h1 h.1]; simp

theorem l2_chain (hd : Standard b.decay) {c : Chain} (hc : c ∈ b.decay.chains) (hw : ActualWigner ι) (ha : RealAngles ι)
    (L : Chain → ℂ) (i j k : ℤ) :
    l2 (helicities b.decay) (fun l => chainValue ι b uc L i j k (byId l) c) ≤ ‖L c‖ * √(chainStrength ι b uc i j k c) :=
  l2_mono (norm_nonneg _) fun l _ => chainValue_le hd hc hw ha L i j k l

theorem sum_filter_index {S : Finset ℤ} (cs : List Chain) (g : ℤ → Chain → ℝ) (h : ∀ c ∈ cs, c.spectator.index ∈ S) :
    ∑ k ∈ S, ((cs.filter fun c => c.spectator.index = k).map (g k)).sum = (cs.map fun c => g c.spectator.index c).sum := by
  induction cs with
  | nil => simp
  | cons c cs ih =>
    have e : ∀ k, (((c :: cs).filter fun c => c.spectator.index = k).map (g k)).sum =
        (if c.spectator.index = k then g k c else 0) + ((cs.filter fun c => c.spectator.index = k).map (g k)).sum := by
      intro k
      by_cases hk : c.spectator.index = k
      · rw [List.filter_cons_of_pos (by simpa using hk), if_pos hk]; simp
      · rw [List.filter_cons_of_neg (by simpa using hk), if_neg hk]; simp
    simp only [e, Finset.sum_add_distrib]
    rw [ih fun x hx => h x (List.mem_cons_of_mem _ hx), Finset.sum_ite_eq, if_pos (h c List.mem_cons_self)]
    simp

/-- Sum of the squared Clebsch-Gordan factors of a vertex. -/
theorem ls_norm_le (hcg : UsesClebschGordan ι) (J s1 s2 : ℚ) (ls : LS) :
    ∑ h ∈ vertexHelicities J s1 s2, ‖lsFactor ι J s1 s2 ls h.1 h.2‖ ^ 2 ≤ 1 := by
  by_cases hall : ∀ h ∈ vertexHelicities J s1 s2, lsFactor ι J s1 s2 ls h.1 h.2 = 0
  · rw [Finset.sum_congr rfl fun h hh => by rw [hall h hh]]
    simp
  push Not at hall
  obtain ⟨h, -, hne⟩ := hall
  have hne0 := hne
  unfold lsFactor at hne
  rw [hcg, hcg] at hne
  obtain ⟨⟨-, c1⟩, c2⟩ : (_ ∧ clebschGordan ls.L 0 ls.S (h.1 - h.2) J (h.1 - h.2) ≠ 0) ∧
      clebschGordan s1 h.1 s2 (-h.2) ls.S (h.1 - h.2) ≠ 0 := by
    simpa only [ne_eq, mul_eq_zero, not_or, Complex.ofReal_eq_zero] using hne
  unfold clebschGordan at c1 c2
  have e1 := by_contra fun g => c1 (if_neg g)
  have e2 := by_contra fun g => c2 (if_neg g)
  obtain ⟨⟨-, -, a3⟩, ⟨a4, -, a6⟩, -, a8⟩ := e1
  obtain ⟨⟨b1, b2, -⟩, ⟨b4, b5, b6⟩, -, b8⟩ := e2
  have pos : ∀ {j m : ℚ}, Projection j m → 0 ≤ j := fun h => by linarith [h.1, h.2.1]
  obtain ⟨z1, hz1⟩ := a8.2.2
  obtain ⟨z2, hz2⟩ := b8.2.2
  obtain ⟨n, hn⟩ := id a3
  obtain ⟨n1, hn1⟩ := id b1
  obtain ⟨n2, hn2⟩ := id b2
  have hL : 0 ≤ ls.L := by exact_mod_cast pos a4
  have hs : DecaySpins J s1 s2 := by
    refine ⟨⟨pos a6, a3⟩, ⟨pos b4, b1⟩, ⟨pos b5, b2⟩, z2 + n + z1 - ls.L, ?_⟩
    push_cast
    linarith
  obtain ⟨w, hw⟩ : ∃ w : ℤ, ls.S - |s1 - s2| = w := by
    rcases abs_cases (s1 - s2) with ⟨h, -⟩ | ⟨h, -⟩
    · refine ⟨n2 - z2, ?_⟩
      push_cast
      linarith
    · refine ⟨n1 - z2, ?_⟩
      push_cast
      linarith
  obtain ⟨M, hM⟩ := exists_int_gt (J + s1 + s2 + ls.L)
  have hL' : (0 : ℚ) ≤ ls.L := by exact_mod_cast hL
  have hmem : (ls.L, ls.S) ∈ generateLsCouplings J s1 s2 M := by
    rw [(C04_ls_contents _ _ _ _).1]
    refine ⟨hL, ?_, ⟨w.toNat, ?_⟩, ?_, a8.1, a8.2.1⟩
    · have : (ls.L : ℚ) ≤ M := by linarith [pos a6, pos b4, pos b5]
      exact_mod_cast this
    · have h0 : (0 : ℚ) ≤ w := by linarith [b8.1]
      have h0' : 0 ≤ w := by exact_mod_cast h0
      rw [show ((w.toNat : ℕ) : ℚ) = w by rw [← Int.cast_natCast, Int.toNat_of_nonneg h0'], ← hw]
      ring
    · linarith [b8.2.1]
  have key := Cg.ls_orthogonal_spins hcg hs (maxL := M) (by linarith) hmem hmem
  rw [if_pos rfl] at key
  apply le_of_eq
  have hr := fun x y => Cg.lsFactor_real hcg (s1 := s1) (s2 := s2) (pos a6) hL ls.S x y
  have : ((∑ h ∈ vertexHelicities J s1 s2, ‖lsFactor ι J s1 s2 ls h.1 h.2‖ ^ 2 : ℝ) : ℂ) = 1 := by
    rw [← key]
    push_cast
    apply Finset.sum_congr rfl
    intro x _
    rw [show lsFactor ι J s1 s2 ls x.1 x.2 = _ from hr x.1 x.2, Complex.norm_real, Real.norm_eq_abs, ← Complex.ofReal_pow,
      sq_abs]
    push_cast
    ring
  exact_mod_cast this

theorem projection_neg {j m : ℚ} (hj : IsHalfInteger j) (h : Projection j m) : Projection j (-m) := by
  obtain ⟨n, hn⟩ := hj
  obtain ⟨h1, h2, z, hz⟩ := h
  exact ⟨by linarith, by linarith, n - z, by push_cast; linarith⟩

theorem helicityOf_mem {d : Decay} (hd : Standard d) {l : Fin 4 → ℚ} (hl : l ∈ helicities d) {n : ℤ}
    (hn : n ∈ ([0, 1, 2, 3] : List ℤ)) : Projection (d.spin n) (helicityOf l n) := by
  rw [mem_helicities hd] at hl
  simp only [List.mem_cons, List.not_mem_nil, or_false] at hn
  rcases hn with rfl | rfl | rfl | rfl
  · exact hl 0
  · exact hl 1
  · exact hl 2
  · exact hl 3

theorem helicityOf_ext {l l' : Fin 4 → ℚ} {p q k : ℤ} (h : [p, q, k].Perm [1, 2, 3]) (h0 : helicityOf l 0 = helicityOf l' 0)
    (hp : helicityOf l p = helicityOf l' p) (hq : helicityOf l q = helicityOf l' q) (hk : helicityOf l k = helicityOf l' k) :
    l = l' := by
  have : ∀ n ∈ ([1, 2, 3] : List ℤ), helicityOf l n = helicityOf l' n := by
    intro n hn
    have := h.symm.subset hn
    simp only [List.mem_cons, List.not_mem_nil, or_false] at this
    rcases this with rfl | rfl | rfl <;> assumption
  funext i
  fin_cases i
  · exact h0
  · exact this 1 (by simp)
  · exact this 2 (by simp)
  · exact this 3 (by simp)

/-- The strength of a chain in the LS basis is at most the squared modulus of its coupling. -/
theorem chainStrength_ls (hd : Standard b.decay) {c : Chain} (hc : c ∈ b.decay.chains) (hcg : UsesClebschGordan ι)
    (hp : b.useProdHel = false) (hq : b.useDecHel = false) {p q : LS} (hin : c.incomingLs = some p) (hout : c.outgoingLs = some q)
    {i j : ℤ} (hij : EvenPerm i j c.spectator.index) :
    chainStrength ι b uc i j c.spectator.index c ≤ ‖lsCoupling ι c uc p q‖ ^ 2 := by
  classical
  obtain ⟨hpar, hst, hnd⟩ := Standard.chain hd hc
  have f1 := hst c.product1 (by simp)
  have f2 := hst c.product2 (by simp)
  have f3 := hst c.spectator (by simp)
  have e0 : c.parent.spin = b.decay.spin 0 := congrArg (fun s : State => s.spin) hpar
  have e1 : c.product1.spin = b.decay.spin c.product1.index := congrArg (fun s : State => s.spin) f1.2
  have e2 : c.product2.spin = b.decay.spin c.product2.index := congrArg (fun s : State => s.spin) f2.2
  have e3 : c.spectator.spin = b.decay.spin c.spectator.index := congrArg (fun s : State => s.spin) f3.2
  have mem0 : ∀ {n : ℤ}, n ∈ ([1, 2, 3] : List ℤ) → n ∈ ([0, 1, 2, 3] : List ℤ) := fun h => List.mem_cons_of_mem _ h
  have hperm : [c.product1.index, c.product2.index, c.spectator.index].Perm [1, 2, 3] := by
    apply List.Subperm.perm_of_length_le
    · exact List.subperm_of_subset hnd (by
        intro x hx
        simp only [List.mem_cons, List.not_mem_nil, or_false] at hx
        rcases hx with rfl | rfl | rfl
        · exact f1.1
        · exact f2.1
        · exact f3.1)
    · simp
  have hij' : c.product1.index = i ∧ c.product2.index = j ∨ c.product1.index = j ∧ c.product2.index = i := by
    have g1 := f1.1
    have g2 := f2.1
    simp only [List.nodup_cons, List.mem_cons, List.not_mem_nil, or_false, not_or, not_false_eq_true, List.nodup_nil,
      and_true] at g1 g2 hnd
    simp only [EvenPerm, Prod.mk.injEq] at hij
    omega
  have hR := hd.resonances c hc
  have hH : ∀ a x y z, couplings ι b c uc a x y z = lsCoupling ι c uc p q := by
    intro a x y z
    unfold couplings lsCoupling couplingName coefficientName
    simp only [hp, hq, hin, hout, couplingIndices]
    rfl
  set k := c.spectator.index
  set S := (helicities b.decay).filter fun l => Projection c.resonance.toP.spin (helicityOf l 0 + helicityOf l k) ∧
    Projection c.resonance.toP.spin (helicityOf l i - helicityOf l j) with hS
  have hdec : ∀ l, decayFactor ι b c (helicityOf l) = lsFactor ι c.resonance.toP.spin c.product1.spin c.product2.spin q
      (helicityOf l c.product1.index) (helicityOf l c.product2.index) := by
    intro l
    unfold decayFactor
    simp only [hq, hout]
  have hy : ∀ l ∈ S, (helicityOf l c.product1.index, helicityOf l c.product2.index) ∈
      vertexHelicities c.resonance.toP.spin c.product1.spin c.product2.spin := by
    intro l hl
    obtain ⟨hl, h1, h2⟩ := Finset.mem_filter.1 hl
    unfold vertexHelicities
    rw [Finset.mem_filter, Finset.mem_product, mem_projections (e1 ▸ Standard.half hd (mem0 f1.1)),
      mem_projections (e2 ▸ Standard.half hd (mem0 f2.1))]
    refine ⟨⟨e1 ▸ helicityOf_mem hd hl (mem0 f1.1), e2 ▸ helicityOf_mem hd hl (mem0 f2.1)⟩, ?_⟩
    rcases hij' with ⟨g1, g2⟩ | ⟨g1, g2⟩
    · simpa only [g1, g2] using h2
    · have := projection_neg hR h2
      simpa only [g1, g2, neg_sub] using this
  have main : ∀ (V : Finset (ℚ × ℚ)) (F : ℚ × ℚ → ℂ) (g : (Fin 4 → ℚ) → ℚ × ℚ),
      (∀ l ∈ S, g l ∈ V) → (∀ l l', g l = g l' → helicityOf l 0 = helicityOf l' 0 ∧ helicityOf l k = helicityOf l' k) →
      (∀ l, productionFactor ι b c (helicityOf l 0 + helicityOf l k) (helicityOf l k) = F (g l)) →
      ∑ x ∈ V, ‖F x‖ ^ 2 ≤ 1 → chainStrength ι b uc i j k c ≤ ‖lsCoupling ι c uc p q‖ ^ 2 := by
    intro V F g hgV hinj hF hsum
    unfold chainStrength
    rw [← Finset.sum_filter, ← hS]
    have hφ : Set.InjOn (fun l => (g l, (helicityOf l c.product1.index, helicityOf l c.product2.index))) (S : Set (Fin 4 → ℚ)) := by
      intro l _ l' _ h
      obtain ⟨h1, h2⟩ := Prod.ext_iff.1 h
      obtain ⟨h3, h4⟩ := Prod.ext_iff.1 h2
      obtain ⟨h5, h6⟩ := hinj _ _ h1
      exact helicityOf_ext hperm h5 h3 h4 h6
    set Y := vertexHelicities c.resonance.toP.spin c.product1.spin c.product2.spin
    let E : ℚ × ℚ → ℂ := fun y => lsFactor ι c.resonance.toP.spin c.product1.spin c.product2.spin q y.1 y.2
    calc _ = ∑ x ∈ S.image fun l => (g l, (helicityOf l c.product1.index, helicityOf l c.product2.index)),
          ‖lsCoupling ι c uc p q‖ ^ 2 * (‖F x.1‖ ^ 2 * ‖E x.2‖ ^ 2) := by
          rw [Finset.sum_image hφ]
          apply Finset.sum_congr rfl
          intro l _
          rw [hH, hdec, hF]
          simp only [norm_mul, E]
          ring
      _ ≤ ∑ x ∈ V ×ˢ Y, ‖lsCoupling ι c uc p q‖ ^ 2 * (‖F x.1‖ ^ 2 * ‖E x.2‖ ^ 2) := by
          apply Finset.sum_le_sum_of_subset_of_nonneg
          · intro x hx
            obtain ⟨l, hl, rfl⟩ := Finset.mem_image.1 hx
            exact Finset.mem_product.2 ⟨hgV l hl, hy l hl⟩
          · intro _ _ _
            positivity
      _ = ‖lsCoupling ι c uc p q‖ ^ 2 * ((∑ x ∈ V, ‖F x‖ ^ 2) * ∑ y ∈ Y, ‖E y‖ ^ 2) := by
          rw [← Finset.mul_sum, Finset.sum_product, Finset.sum_mul_sum]
      _ ≤ ‖lsCoupling ι c uc p q‖ ^ 2 * (1 * 1) := by
          gcongr
          exact ls_norm_le hcg _ _ _ q
      _ = _ := by ring
  have h0 : IsHalfInteger c.parent.spin := e0 ▸ Standard.half hd (by simp)
  have h3 : IsHalfInteger c.spectator.spin := e3 ▸ Standard.half hd (mem0 f3.1)
  by_cases hf : ResonanceFirst c
  · refine main (vertexHelicities c.parent.spin c.resonance.toP.spin c.spectator.spin)
      (fun x => lsFactor ι c.parent.spin c.resonance.toP.spin c.spectator.spin p x.1 x.2)
      (fun l => (helicityOf l 0 + helicityOf l k, helicityOf l k)) ?_ ?_ ?_ (ls_norm_le hcg _ _ _ p)
    · intro l hl
      obtain ⟨hl, h1, -⟩ := Finset.mem_filter.1 hl
      unfold vertexHelicities
      rw [Finset.mem_filter, Finset.mem_product, mem_projections hR, mem_projections h3]
      refine ⟨⟨h1, e3 ▸ helicityOf_mem hd hl (mem0 f3.1)⟩, ?_⟩
      rw [add_sub_cancel_right, e0]
      exact helicityOf_mem hd hl (by simp)
    · intro l l' h
      obtain ⟨g1, g2⟩ := Prod.ext_iff.1 h
      exact ⟨by simp only at g1 g2; linarith, g2⟩
    · intro l
      unfold productionFactor
      simp only [hp, hin, if_pos hf]
  · refine main (vertexHelicities c.parent.spin c.spectator.spin c.resonance.toP.spin)
      (fun x => lsFactor ι c.parent.spin c.spectator.spin c.resonance.toP.spin p x.1 x.2)
      (fun l => (helicityOf l k, helicityOf l 0 + helicityOf l k)) ?_ ?_ ?_ (ls_norm_le hcg _ _ _ p)
    · intro l hl
      obtain ⟨hl, h1, -⟩ := Finset.mem_filter.1 hl
      unfold vertexHelicities
      rw [Finset.mem_filter, Finset.mem_product, mem_projections hR, mem_projections h3]
      refine ⟨⟨e3 ▸ helicityOf_mem hd hl (mem0 f3.1), h1⟩, ?_⟩
      rw [sub_add_cancel_right]
      apply projection_neg h0
      rw [e0]
      exact helicityOf_mem hd hl (by simp)
    · intro l l' h
      obtain ⟨g1, g2⟩ := Prod.ext_iff.1 h
      exact ⟨by simp only at g1 g2; linarith, g1⟩
    · intro l
      unfold productionFactor
      simp only [hp, hin, if_neg hf]

end Verif.ThreeBody
