import Verif.Spec.SerialBound
import Verif.Proofs.Bound
import Verif.Props.SerialAmplitude

/-! Property C115 for serialized models: upper bounds on the intensity. -/
namespace Verif.Serialization
open Verif Verif.ThreeBody Verif.Spec Verif.Spin Verif.Angles

variable {m : ModelDefinition} {tl : String → String} {add : Option (PyDict String PropagatorBuilder)}
  {D : Distribution} {rd : ChainDefinition → Reading} {cl : Bool} {a : AmplitudeModel} {ref : ℤ} {ι : Interp}
  {line : ChainDefinition → ℂ} {form : Vertex → ℂ}

theorem decay_standard (hm : ReadsModel m D rd) (h : formulate m cl tl add = .ok a) : Standard a.decay := by
  obtain ⟨K, E, P, Θ, ref', ids, zetas, terms, hf⟩ := formulate_inv hm.head hm.kinematics h
  exact (toDecay_standard hm.head hm.kinematics hf.decay).1

theorem decay_spin (hm : ReadsModel m D rd) (h : formulate m cl tl add = .ok a) {i : ℤ} (hi : i ∈ ([0, 1, 2, 3] : List ℤ)) :
    ∃ x ∈ D.kinematics.initialState :: D.kinematics.finalState, x.index = i ∧ x.spin = some (a.decay.spin i) := by
  obtain ⟨K, E, P, Θ, ref', ids, zetas, terms, hf⟩ := formulate_inv hm.head hm.kinematics h
  obtain ⟨hd, -, -⟩ := toDecay_standard hm.head hm.kinematics hf.decay
  obtain ⟨D', rest', hD', hs⟩ := C53_states hf.decay
  obtain ⟨rest, hr⟩ := hm.head
  have e : D' = D := by
    rw [hr] at hD'
    exact (List.cons.inj hD').1.symm
  subst e
  obtain ⟨h1, x, hx, h2, -, -, -, -, h3, -⟩ := hs i (a.decay.st i) (get_ok.1 (Standard.get hd hi))
  exact ⟨x, hx, h3 ▸ h1, h2⟩

theorem decay_spin_nonneg (hm : ReadsModel m D rd) (h0 : NonnegativeSpins D) (h : formulate m cl tl add = .ok a) {i : ℤ}
    (hi : i ∈ ([0, 1, 2, 3] : List ℤ)) : 0 ≤ a.decay.spin i := by
  obtain ⟨x, hx, -, h1⟩ := decay_spin hm h hi
  exact h0 x hx _ h1

theorem initial_spin (hm : ReadsModel m D rd) (h : formulate m cl tl add = .ok a) {s0 : ℚ}
    (hs0 : D.kinematics.initialState.spin = some s0) : a.decay.spin 0 = s0 := by
  obtain ⟨x, hx, h1, h2⟩ := decay_spin hm h (i := 0) (by simp)
  rcases List.mem_cons.1 hx with rfl | hx
  · rw [hs0] at h2
    exact (Option.some.inj h2).symm
  · have := List.mem_map_of_mem (f := fun s => s.index) hx
    rw [hm.kinematics.final.mem_iff, h1] at this
    simp at this

theorem projections_card {j : ℚ} (hj : IsHalfInteger j) (h0 : 0 ≤ j) : ((projections j).card : ℝ) = 2 * j + 1 := by
  obtain ⟨n, rfl⟩ := hj
  unfold projections
  rw [Finset.card_image_of_injective _ fun x y h => by simpa using h, Finset.card_range]
  have h2 : ⌊2 * ((n : ℚ) / 2)⌋ = n := by
    rw [show (2 * ((n : ℚ) / 2)) = ((n : ℤ) : ℚ) by ring, Int.floor_intCast]
  have hn : (0 : ℤ) ≤ n := by
    have : (0 : ℚ) ≤ n := by linarith
    exact_mod_cast this
  rw [h2]
  have : (((n + 1).toNat : ℤ) : ℝ) = n + 1 := by
    rw [Int.toNat_of_nonneg (by omega)]
    push_cast
    ring
  rw [← Int.cast_natCast, this]
  push_cast
  ring

/-- A function that is zero but for given helicities of the final states. -/
theorem l2_fixed {d : Decay} (f : (Fin 4 → ℚ) → ℂ) {z : ℝ} (hz : 0 ≤ z) (x : Fin 4 → ℚ)
    (h1 : ∀ l, ‖f l‖ ≤ z) (h2 : ∀ l, f l ≠ 0 → ∀ n : Fin 4, n ≠ 0 → l n = x n) :
    l2 (helicities d) f ≤ z * √((projections (d.spin 0)).card) := by
  classical
  refine (l2_mono (g := fun l => if ∀ n : Fin 4, n ≠ 0 → l n = x n then 1 else 0) hz fun l _ => ?_).trans ?_
  · by_cases hl : ∀ n : Fin 4, n ≠ 0 → l n = x n
    · rw [if_pos hl, mul_one]
      exact pow_le_pow_left₀ (norm_nonneg _) (h1 l) 2
    · rw [if_neg hl, by_contra fun g => hl (h2 l g)]
      simp
  · refine mul_le_mul_of_nonneg_left (Real.sqrt_le_sqrt ?_) hz
    rw [Finset.sum_boole]
    norm_cast
    refine Finset.card_le_card_of_injOn (fun l => l 0) ?_ ?_
    · intro l hl
      have := (Finset.mem_filter.1 hl).1
      unfold helicities at this
      exact Fintype.mem_piFinset.1 this 0
    · intro l hl l' hl' e
      have g := (Finset.mem_filter.1 hl).2
      have g' := (Finset.mem_filter.1 hl').2
      funext n
      by_cases hn : n = 0
      · rw [hn]; exact e
      · rw [g n hn, g' n hn]

theorem parityValue_le (s : Option String) : ‖((parityValue s : ℤ) : ℂ)‖ ≤ 1 := by
  unfold parityValue
  split
  · simp
  · split
    · simp
    · split <;> simp

/-- The two configurations of a vertex. -/
theorem vertex_split {v : Vertex} {x y : Tree} {p q : ℚ} (hn : v.node = [x, y]) (hh : v.helicities = some [some p, some q]) (lR : ℚ) :
    ∃ P Q : (ℤ → ℚ) → ℂ, (∀ l, vertexValue v lR l = P l + Q l) ∧ (∀ l, ‖P l‖ ≤ 1) ∧ (∀ l, ‖Q l‖ ≤ vertexCopies v - 1) ∧
      (∀ l, P l ≠ 0 → childHelicity lR l x = p ∧ childHelicity lR l y = q) ∧
      (∀ l, Q l ≠ 0 → childHelicity lR l x = -p ∧ childHelicity lR l y = -q) := by
  refine ⟨fun l => if childHelicity lR l x = p ∧ childHelicity lR l y = q then 1 else 0,
    fun l => if v.type = "parity" then (parityValue v.parityFactor : ℂ) *
      if childHelicity lR l x = -p ∧ childHelicity lR l y = -q then 1 else 0 else 0, ?_, ?_, ?_, ?_, ?_⟩
  · intro l
    unfold vertexValue
    rw [hn, hh]
    simp only [recouplingValue, vertexParity]
    by_cases hp : v.type = "parity"
    · simp [hp]
    · simp [hp]
  · intro l
    dsimp only
    split <;> simp
  · intro l
    unfold vertexCopies
    by_cases hp : v.type = "parity"
    · simp only [if_pos hp]
      rw [norm_mul]
      have := parityValue_le v.parityFactor
      split
      · rw [norm_one, mul_one]
        linarith
      · norm_num
    · simp [hp]
  · intro l h
    by_contra g
    exact h (if_neg g)
  · intro l h
    by_contra g
    apply h
    dsimp only
    rw [if_neg g]
    simp

theorem copies_ge (v : Vertex) : 0 ≤ vertexCopies v - 1 := by
  unfold vertexCopies
  split <;> norm_num

/-- One vertex after the other: the couplings of a chain. -/
theorem l2_vertices {c : ChainDefinition} {r : Reading} (hr : Reads c r) (hs : r.Standard) (d : Decay) :
    l2 (helicities d) (fun l => (c.vertices.map fun v => vertexValue v r.lR (byId l)).prod) ≤
      (c.vertices.map vertexCopies).prod * √((projections (d.spin 0)).card) := by
  obtain ⟨p, q, hv, hp, hq⟩ := hr
  have key : l2 (helicities d) (fun l => vertexValue p r.lR (byId l) * vertexValue q r.lR (byId l)) ≤
      vertexCopies p * vertexCopies q * √((projections (d.spin 0)).card) := by
    obtain ⟨P1, Q1, e1, n1, m1, z1, w1⟩ : ∃ P Q : (ℤ → ℚ) → ℂ, (∀ l, vertexValue p r.lR l = P l + Q l) ∧ (∀ l, ‖P l‖ ≤ 1) ∧
        (∀ l, ‖Q l‖ ≤ vertexCopies p - 1) ∧ (∀ l, P l ≠ 0 → l r.k = r.lk) ∧ (∀ l, Q l ≠ 0 → l r.k = -r.lk) := by
      obtain ⟨s, t, ⟨hn, hh⟩ | ⟨hn, hh⟩⟩ := hp
      · obtain ⟨P, Q, h1, h2, h3, h4, h5⟩ := vertex_split hn hh r.lR
        exact ⟨P, Q, h1, h2, h3, fun l h => (h4 l h).2, fun l h => (h5 l h).2⟩
      · obtain ⟨P, Q, h1, h2, h3, h4, h5⟩ := vertex_split hn hh r.lR
        exact ⟨P, Q, h1, h2, h3, fun l h => (h4 l h).1, fun l h => (h5 l h).1⟩
    obtain ⟨P2, Q2, e2, n2, m2, z2, w2⟩ := vertex_split hq.1 hq.2 r.lR
    simp only [childHelicity] at z2 w2
    have term : ∀ (F G : (ℤ → ℚ) → ℂ) (xi xj xk : ℚ) (α β : ℝ), 0 ≤ α → 0 ≤ β → (∀ l, ‖F l‖ ≤ α) → (∀ l, ‖G l‖ ≤ β) →
        (∀ l, F l ≠ 0 → l r.k = xk) → (∀ l, G l ≠ 0 → l r.i = xi ∧ l r.j = xj) →
        l2 (helicities d) (fun l => F (byId l) * G (byId l)) ≤ α * β * √((projections (d.spin 0)).card) := by
      intro F G xi xj xk α β hα hβ hF hG zF zG
      refine l2_fixed _ (mul_nonneg hα hβ)
        (fun n => if ((n : ℕ) : ℤ) = r.k then xk else if ((n : ℕ) : ℤ) = r.i then xi else xj) ?_ ?_
      · intro l
        rw [norm_mul]
        exact mul_le_mul (hF _) (hG _) (norm_nonneg _) hα
      · intro l hl n hn
        have hk := zF _ (left_ne_zero_of_mul hl)
        obtain ⟨hi, hj⟩ := zG _ (right_ne_zero_of_mul hl)
        have hb : byId l ((n : ℕ) : ℤ) = l n := by
          unfold byId tup
          fin_cases n <;> simp at hn ⊢
        have hmem : ((n : ℕ) : ℤ) ∈ [r.i, r.j, r.k] := by
          rw [List.Perm.mem_iff hs]
          fin_cases n <;> simp at hn ⊢
        simp only [List.mem_cons, List.not_mem_nil, or_false] at hmem
        rw [← hb]
        by_cases c1 : ((n : ℕ) : ℤ) = r.k
        · rw [if_pos c1, c1, hk]
        · rw [if_neg c1]
          by_cases c2 : ((n : ℕ) : ℤ) = r.i
          · rw [if_pos c2, c2, hi]
          · rw [if_neg c2]
            rcases hmem with g | g | g
            · exact absurd g c2
            · rw [g, hj]
            · exact absurd g c1
    have hp := copies_ge p
    have hq := copies_ge q
    have t1 := term P1 P2 _ _ _ 1 1 zero_le_one zero_le_one n1 n2 z1 z2
    have t2 := term P1 Q2 _ _ _ 1 _ zero_le_one hq n1 m2 z1 w2
    have t3 := term Q1 P2 _ _ _ _ 1 hp zero_le_one m1 n2 w1 z2
    have t4 := term Q1 Q2 _ _ _ _ _ hp hq m1 m2 w1 w2
    have e : (fun l => vertexValue p r.lR (byId l) * vertexValue q r.lR (byId l)) = fun l : Fin 4 → ℚ =>
        (P1 (byId l) * P2 (byId l) + P1 (byId l) * Q2 (byId l)) + (Q1 (byId l) * P2 (byId l) + Q1 (byId l) * Q2 (byId l)) := by
      funext l
      rw [e1, e2]
      ring
    rw [e]
    refine (l2_add _ _ _).trans ?_
    refine (add_le_add (l2_add _ _ _) (l2_add _ _ _)).trans ?_
    linarith
  rcases hv with hv | hv
  · rw [hv]
    simpa using key
  · rw [hv]
    have : (fun l : Fin 4 → ℚ => ([q, p].map fun v => vertexValue v r.lR (byId l)).prod) =
        fun l => vertexValue p r.lR (byId l) * vertexValue q r.lR (byId l) := by
      funext l
      simp [mul_comm]
    rw [this]
    simpa [mul_comm] using key

theorem wig_le {c : ChainDefinition} {r : Reading} (hp : PossibleHelicities c r) (hw : ActualWigner ι) (ha : RealAngles ι) :
    ‖ι.wig (chainSpin c) r.lR (r.li - r.lj) (ι.sym ⟨"theta_" ++ toString r.i ++ toString r.j, .real⟩)‖ ≤ 1 := by
  obtain ⟨x, hx⟩ := ha.decay r.i r.j
  unfold decayAngle at hx
  rw [hx, hw, if_pos hp.products, Complex.norm_real]
  exact wignerD_abs_le hp.spin ((mem_projections hp.spin _).2 hp.resonance) ((mem_projections hp.spin _).2 hp.products) x

theorem l2_smul {L : Type*} (H : Finset L) (f : L → ℂ) (z : ℂ) : l2 H (fun l => z * f l) = ‖z‖ * l2 H f := by
  unfold l2
  simp only [norm_mul, mul_pow]
  rw [← Finset.mul_sum, Real.sqrt_mul (sq_nonneg _), Real.sqrt_sq (norm_nonneg _)]

theorem l2_serialValue {c : ChainDefinition} {r : Reading} (hr : Reads c r) (hs : r.Standard) (hp : PossibleHelicities c r)
    (hw : ActualWigner ι) (ha : RealAngles ι) (d : Decay) :
    l2 (helicities d) (fun l => serialValue ι tl line form (byId l) c r) ≤ √((projections (d.spin 0)).card) *
      (‖ι.sym (weightSymbol tl c r)‖ * ‖line c * (c.vertices.map form).prod‖ * (c.vertices.map vertexCopies).prod) := by
  have e : (fun l : Fin 4 → ℚ => serialValue ι tl line form (byId l) c r) = fun l =>
      (ι.sym (weightSymbol tl c r) * ι.wig (chainSpin c) r.lR (r.li - r.lj)
        (ι.sym ⟨"theta_" ++ toString r.i ++ toString r.j, .real⟩) * (line c * (c.vertices.map form).prod)) *
        (c.vertices.map fun v => vertexValue v r.lR (byId l)).prod := by
    funext l
    unfold serialValue
    ring
  rw [e, l2_smul, norm_mul, norm_mul]
  have h1 := wig_le hp hw ha
  have h2 := l2_vertices hr hs d
  calc _ ≤ ‖ι.sym (weightSymbol tl c r)‖ * 1 * ‖line c * (c.vertices.map form).prod‖ *
        ((c.vertices.map vertexCopies).prod * √((projections (d.spin 0)).card)) := by
        gcongr
        exact Real.sqrt_nonneg _
    _ = _ := by ring

/-- C115: the square root of the intensity of a serialized model is at most the sum over the subsystems of the roots of
`Σ_λ |A^k_λ|²`. -/
theorem C115_serial_subsystems (hm : ReadsModel m D rd) (h0 : NonnegativeSpins D)
    (href : IsSpectator D.referenceTopology ref) (href' : ref ∈ ([1, 2, 3] : List ℤ))
    (h : formulate m cl tl add = .ok a) (hw : ActualWigner ι) (ha : RealAngles ι) (η : Sym → ℚ) :
    √(a.fullExpression.eval ι η).re ≤
      ∑ k ∈ topologySubsystems D.chains, √(∑ l ∈ helicities a.decay, ‖definedValue a ι η k l‖ ^ 2) := by
  rw [(C70_intensity_value hm h0 href href' h ι η).2, Complex.ofReal_re]
  exact sqrt_intensityOver_le (decay_standard hm h) hw ha _ _ _

theorem spectator_sum (S : Finset ℤ) (cs : List ChainDefinition) (g : ChainDefinition → ℝ) (hg : ∀ c ∈ cs, 0 ≤ g c) :
    open Classical in ∑ k ∈ S, (cs.map fun c => if IsSpectator c.topology k then g c else 0).sum ≤ (cs.map g).sum := by
  classical
  induction cs with
  | nil => simp
  | cons c cs ih =>
    simp only [List.map_cons, List.sum_cons, Finset.sum_add_distrib]
    refine add_le_add ?_ (ih fun x hx => hg x (List.mem_cons_of_mem _ hx))
    have h0 := hg c List.mem_cons_self
    by_cases he : ∃ k ∈ S, IsSpectator c.topology k
    · obtain ⟨k, hk, hs⟩ := he
      rw [Finset.sum_eq_single k]
      · rw [if_pos hs]
      · intro k' _ hne
        rw [if_neg fun hs' => hne (hs.2 _ hs'.1)]
      · intro hn
        exact absurd hk hn
    · rw [Finset.sum_eq_zero]
      · exact h0
      · intro k hk
        rw [if_neg fun hs => he ⟨k, hk, hs⟩]

/-- C115: a bound on the intensity of a serialized model in terms of the weights, the lineshapes and the form factors. The
square root of the intensity is at most `√(2 s0 + 1)` times the sum over the chains of `|weight| |lineshape · form factors|`,
with a factor 2 for every parity vertex, where `s0` is the spin of the initial state. -/
theorem C115_serial_bound (hm : ReadsModel m D rd) (h0 : NonnegativeSpins D)
    (href : IsSpectator D.referenceTopology ref) (href' : ref ∈ ([1, 2, 3] : List ℤ))
    (h : formulate m cl tl add = .ok a) (hv : DynamicsValues m D.chains tl add ι line form)
    (hp : ∀ c ∈ D.chains, PossibleHelicities c (rd c)) (hw : ActualWigner ι) (ha : RealAngles ι) (η : Sym → ℚ) {s0 : ℚ}
    (hs0 : D.kinematics.initialState.spin = some s0) :
    √(a.fullExpression.eval ι η).re ≤ √(2 * s0 + 1) * (D.chains.map fun c =>
      ‖ι.sym (weightSymbol tl c (rd c))‖ * ‖line c * (c.vertices.map form).prod‖ * (c.vertices.map vertexCopies).prod).sum := by
  classical
  have hd := decay_standard hm h
  have hs := initial_spin hm h hs0
  have hcard : ((projections (a.decay.spin ((0 : Fin 4) : ℕ))).card : ℝ) = 2 * s0 + 1 := by
    have := projections_card (spins_half hd 0) (decay_spin_nonneg hm h0 h (by simp))
    rw [this]
    simp [hs]
  refine (C115_serial_subsystems hm h0 href href' h hw ha η).trans ?_
  rw [← List.sum_map_mul_left]
  refine le_trans (Finset.sum_le_sum fun k hk => ?_) (spectator_sum (topologySubsystems D.chains) D.chains _ fun c hc => ?_)
  · have e : √(∑ l ∈ helicities a.decay, ‖definedValue a ι η k l‖ ^ 2) = l2 (helicities a.decay) fun l =>
        (D.chains.map fun c => if IsSpectator c.topology k then serialValue ι tl line form (byId l) c (rd c) else 0).sum := by
      unfold l2
      refine congrArg _ (Finset.sum_congr rfl fun l hl => ?_)
      rw [C60_amplitude_value hm h hv η k hl]
    rw [e]
    refine (l2_list _ _ _).trans (List.sum_le_sum fun c hc => ?_)
    by_cases hsp : IsSpectator c.topology k
    · simp only [if_pos hsp]
      have := l2_serialValue (tl := tl) (line := line) (form := form) (hm.reads c hc).1 (hm.reads c hc).2 (hp c hc) hw ha a.decay
      rwa [show ((projections (a.decay.spin 0)).card : ℝ) = 2 * s0 + 1 from hcard] at this
    · simp only [if_neg hsp]
      rw [l2_zero]
  · have : 0 ≤ (c.vertices.map vertexCopies).prod := List.prod_nonneg fun x hx => by
      obtain ⟨v, -, rfl⟩ := List.mem_map.1 hx
      linarith [copies_ge v]
    positivity

theorem fixed_card {d : Decay} {x : Fin 4 → ℚ} (hx : ∀ n : Fin 4, n ≠ 0 → x n ∈ projections (d.spin n)) :
    ((helicities d).filter fun l => ∀ n : Fin 4, n ≠ 0 → l n = x n).card =
      (projections (d.spin ((0 : Fin 4) : ℕ))).card := by
  have e : ((helicities d).filter fun l => ∀ n : Fin 4, n ≠ 0 → l n = x n) =
      Fintype.piFinset fun n : Fin 4 => if n = 0 then projections (d.spin ((0 : Fin 4) : ℕ)) else {x n} := by
    ext l
    unfold helicities
    rw [Finset.mem_filter, Fintype.mem_piFinset, Fintype.mem_piFinset]
    constructor
    · rintro ⟨h1, h2⟩ n
      by_cases hn : n = 0
      · subst hn; rw [if_pos rfl]; exact h1 0
      · rw [if_neg hn, Finset.mem_singleton]; exact h2 n hn
    · intro h1
      constructor
      · intro n
        have := h1 n
        by_cases hn : n = 0
        · subst hn; rwa [if_pos rfl] at this
        · rw [if_neg hn, Finset.mem_singleton] at this
          rw [this]
          exact hx n hn
      · intro n hn
        have := h1 n
        rwa [if_neg hn, Finset.mem_singleton] at this
  rw [e, Fintype.card_piFinset]
  simp [Fin.prod_univ_four]

/-- The couplings of a chain without parity vertices. -/
theorem vertices_product {c : ChainDefinition} {r : Reading} (hr : Reads c r) (hs : r.Standard)
    (ht : ∀ v ∈ c.vertices, v.type ≠ "parity") (l : Fin 4 → ℚ) :
    (c.vertices.map fun v => vertexValue v r.lR (byId l)).prod =
      if ∀ n : Fin 4, n ≠ 0 → l n = r.hel ((n : ℕ) : ℤ) then 1 else 0 := by
  obtain ⟨p, q, hv, hp, hq⟩ := hr
  have hpt : p.type ≠ "parity" := ht p (by rcases hv with hv | hv <;> simp [hv])
  have hqt : q.type ≠ "parity" := ht q (by rcases hv with hv | hv <;> simp [hv])
  have e1 : vertexValue p r.lR (byId l) = if byId l r.k = r.lk then 1 else 0 := by
    obtain ⟨s, t, ⟨hn, hh⟩ | ⟨hn, hh⟩⟩ := hp <;>
    · unfold vertexValue
      rw [hn, hh]
      simp [recouplingValue, vertexParity, hpt, childHelicity]
  have e2 : vertexValue q r.lR (byId l) = if byId l r.i = r.li ∧ byId l r.j = r.lj then 1 else 0 := by
    unfold vertexValue
    rw [hq.1, hq.2]
    simp only [recouplingValue, vertexParity, if_neg hqt, childHelicity, add_zero]
    congr
  have key : (byId l r.k = r.lk ∧ byId l r.i = r.li ∧ byId l r.j = r.lj) ↔
      ∀ n : Fin 4, n ≠ 0 → l n = r.hel ((n : ℕ) : ℤ) := by
    have hn := (List.Perm.nodup_iff hs).2 (by decide)
    have hi : r.i ∈ [(1 : ℤ), 2, 3] := hs.mem_iff.1 (by simp)
    have hj : r.j ∈ [(1 : ℤ), 2, 3] := hs.mem_iff.1 (by simp)
    have hk : r.k ∈ [(1 : ℤ), 2, 3] := hs.mem_iff.1 (by simp)
    obtain ⟨i, j, k, lR, lk, li, lj⟩ := r
    simp only [List.mem_cons, List.not_mem_nil, or_false] at hi hj hk hn
    clear e1 e2 hp hq hs
    rcases hi with rfl | rfl | rfl <;> rcases hj with rfl | rfl | rfl <;> rcases hk with rfl | rfl | rfl <;>
      first
      | exact absurd hn (by decide)
      | (simp [byId, tup, Reading.hel, Fin.forall_fin_succ] <;> tauto)
  have e : (c.vertices.map fun v => vertexValue v r.lR (byId l)).prod =
      vertexValue p r.lR (byId l) * vertexValue q r.lR (byId l) := by
    rcases hv with hv | hv <;> rw [hv] <;> simp [mul_comm]
  rw [e, e1, e2]
  simp only [← key]
  by_cases c1 : byId l r.k = r.lk <;> by_cases c2 : byId l r.i = r.li ∧ byId l r.j = r.lj <;> simp [c1, c2]

/-- C115: the intensity of a serialized model with one chain without parity vertices is
`(2 s0 + 1) |weight|² |lineshape · form factors|² |d(θ)|²`, for all real values of the alignment angles. -/
theorem C115_serial_one_chain (hm : ReadsModel m D rd) (h0 : NonnegativeSpins D)
    (href : IsSpectator D.referenceTopology ref) (href' : ref ∈ ([1, 2, 3] : List ℤ))
    (h : formulate m cl tl add = .ok a) (hv : DynamicsValues m D.chains tl add ι line form)
    {c : ChainDefinition} (hc : D.chains = [c]) {k : ℤ} (hk : k ∈ ([1, 2, 3] : List ℤ)) (hsp : IsSpectator c.topology k)
    (ht : ∀ v ∈ c.vertices, v.type ≠ "parity")
    (hhel : ∀ x ∈ D.kinematics.finalState, ∀ s, x.spin = some s → Projection s ((rd c).hel x.index))
    (hw : ActualWigner ι) (ha : RealAngles ι) (η : Sym → ℚ) {s0 : ℚ}
    (hs0 : D.kinematics.initialState.spin = some s0) :
    a.fullExpression.eval ι η = (((2 * s0 + 1) * (‖ι.sym (weightSymbol tl c (rd c))‖ * ‖line c * (c.vertices.map form).prod‖ *
      ‖ι.wig (chainSpin c) (rd c).lR ((rd c).li - (rd c).lj) (ι.sym (decayAngle (rd c).i (rd c).j))‖) ^ 2 : ℝ) : ℂ) := by
  classical
  have hmem : c ∈ D.chains := by rw [hc]; simp
  have hd := decay_standard hm h
  have hset : topologySubsystems D.chains = {k} := by
    ext x
    unfold topologySubsystems
    rw [Finset.mem_filter, Finset.mem_singleton, hc]
    constructor
    · rintro ⟨-, c', hc', hx⟩
      rw [List.mem_singleton] at hc'
      subst hc'
      exact hsp.2 _ hx.1
    · rintro rfl
      exact ⟨by simpa using hk, c, by simp, hsp⟩
  choose z hz using fun i : Fin 4 => ha.alignment i k ref
  rw [(C70_intensity_value hm h0 href href' h ι η).2, hset, intensityOver_single hd actual_isWignerD hw.uses z (fun i _ => hz i)]
  refine congrArg _ ?_
  have hval : ∀ l ∈ helicities a.decay, ‖definedValue a ι η k l‖ ^ 2 =
      (‖ι.sym (weightSymbol tl c (rd c))‖ * ‖line c * (c.vertices.map form).prod‖ *
      ‖ι.wig (chainSpin c) (rd c).lR ((rd c).li - (rd c).lj) (ι.sym (decayAngle (rd c).i (rd c).j))‖) ^ 2 *
      if ∀ n : Fin 4, n ≠ 0 → l n = (rd c).hel ((n : ℕ) : ℤ) then 1 else 0 := by
    intro l hl
    rw [C60_amplitude_value hm h hv η k hl, hc, List.map_singleton, List.sum_singleton, if_pos hsp]
    unfold serialValue
    rw [vertices_product (hm.reads c hmem).1 (hm.reads c hmem).2 ht, norm_mul, norm_mul, norm_mul]
    unfold decayAngle
    split
    · simp; ring
    · simp
  rw [Finset.sum_congr rfl hval, ← Finset.mul_sum, Finset.sum_boole, fixed_card, projections_card (spins_half hd 0)
    (decay_spin_nonneg hm h0 h (by simp)), mul_comm]
  · rw [show a.decay.spin (((0 : Fin 4) : ℕ) : ℤ) = s0 from initial_spin hm h hs0]
  · intro n hn
    have hmn : ((n : ℕ) : ℤ) ∈ ([0, 1, 2, 3] : List ℤ) := by fin_cases n <;> simp
    obtain ⟨x, hx, h1, h2⟩ := decay_spin hm h hmn
    rcases List.mem_cons.1 hx with rfl | hx
    · rw [hm.kinematics.initial] at h1
      exact absurd (Fin.ext (by simpa using h1.symm)) hn
    · rw [mem_projections (spins_half hd n), ← h1]
      exact h1 ▸ hhel x hx _ h2


open Classical in
/-- 1 for everything but the Wigner functions. -/
noncomputable def exTurn : Interp :=
  Serialization.exInterp fun j m m' z => if Projection j m' then (Wigner.wignerD j m m' z.re : ℂ) else 0

theorem exTurn_actual : ActualWigner exTurn := fun j m m' x => by simp [exTurn, Serialization.exInterp]

theorem exTurn_angles : RealAngles exTurn := ⟨fun _ _ => ⟨1, Complex.ofReal_one.symm⟩, fun _ _ _ => ⟨1, Complex.ofReal_one.symm⟩⟩

theorem exModel_possible : ∀ c ∈ exDistribution.chains, PossibleHelicities c (exReading c) := by
  have hK : PossibleHelicities exKstar (exReading exKstar) :=
    ⟨⟨2, by norm_num [chainSpin, exKstar]⟩, ⟨by norm_num [chainSpin, exKstar, exReading],
      by norm_num [chainSpin, exKstar, exReading], 1, by norm_num [chainSpin, exKstar, exReading]⟩,
      ⟨by norm_num [chainSpin, exKstar, exReading],
      by norm_num [chainSpin, exKstar, exReading], 1, by norm_num [chainSpin, exKstar, exReading]⟩⟩
  have eL : exReading exLambda = ⟨3, 1, 2, -1 / 2, 0, 0, 1 / 2⟩ := rfl
  have eJ : chainSpin exLambda = 3 / 2 := rfl
  have hL : PossibleHelicities exLambda (exReading exLambda) :=
    ⟨⟨3, by norm_num [eJ]⟩, ⟨by norm_num [eJ, eL],
      by norm_num [eJ, eL], 2, by norm_num [eJ, eL]⟩,
      ⟨by norm_num [eJ, eL],
      by norm_num [eJ, eL], 2, by norm_num [eJ, eL]⟩⟩
  intro c hc
  simp only [exDistribution, List.mem_cons, List.not_mem_nil, or_false] at hc
  rcases hc with rfl | rfl | rfl
  · exact hL
  · exact hK
  · exact hK

/-- The example model with three chains, all with one parity vertex. -/
example : ∃ a, formulate exModel true id none = .ok a ∧ √(a.fullExpression.eval exTurn fun _ => 0).re ≤ √2 * 6 := by
  obtain ⟨a, ha⟩ := exModel_ok id true
  refine ⟨a, ha, (C115_serial_bound exModel_reads exDistribution_nonneg exModel_reference (by simp) ha
    (dynamics_values (fun _ h => by cases h) _ _) exModel_possible exTurn_actual exTurn_angles _ (s0 := 1 / 2) rfl).trans ?_⟩
  have hf : ∀ c ∈ exDistribution.chains, (c.vertices.map (formValue exModel exTurn)).prod = 1 := by
    intro c hc
    refine List.prod_eq_one fun x hx => ?_
    obtain ⟨v, hv, rfl⟩ := List.mem_map.1 hx
    exact ex_form exTurn c hc v hv
  have hw : ∀ s, exTurn.sym s = 1 := fun _ => rfl
  have hcs : exDistribution.chains = [exLambda, exKstar, exKstar] := rfl
  have l1 : lineValue exModel id none exTurn exLambda = Complex.I := exLambda_line _
  have l2 : lineValue exModel id none exTurn exKstar = Complex.I := exKstar_line _
  simp only [hcs] at hf ⊢
  simp only [List.map_cons, List.map_nil, List.sum_cons, List.sum_nil, hw, hf exLambda (by simp), hf exKstar (by simp), l1, l2]
  have c1 : (exLambda.vertices.map vertexCopies).prod = 2 := by simp [exLambda, vertexCopies]
  have c2 : (exKstar.vertices.map vertexCopies).prod = 2 := by simp [exKstar, vertexCopies]
  rw [c1, c2]
  refine le_of_eq ?_
  rw [show (2 * ((1 / 2 : ℚ) : ℝ) + 1) = 2 by push_cast; norm_num]
  simp
  ring

/-- `Lc → (L → K p) pi` without parity vertices. -/
def exUnmixed : ChainDefinition :=
  { exLambda with
    vertices := [{ type := "helicity", node := [.id 3, .id 1], helicities := some [some 0, some (1 / 2)] },
      { type := "helicity", node := [.id 2, .seq [.id 3, .id 1]], helicities := some [some 0, some (-1 / 2)] }] }

def exUnmixedDistribution : Distribution := ⟨exKinematics, [.id 1, .seq [.id 2, .id 3]], [exUnmixed]⟩

def exUnmixedModel : ModelDefinition := { distributions := [exUnmixedDistribution], functions := exFunctions }

theorem exUnmixed_reads : ReadsModel exUnmixedModel exUnmixedDistribution exReading := by
  refine ⟨⟨[], rfl⟩, exKinematics_wf, fun c hc => ?_⟩
  rw [List.mem_singleton.1 hc]
  exact ⟨⟨_, _, .inr rfl, ⟨_, _, .inr ⟨rfl, rfl⟩⟩, rfl, rfl⟩, show [(3 : ℤ), 1, 2].Perm [1, 2, 3] by decide⟩

theorem exUnmixed_ok : ∃ a, formulate exUnmixedModel true id none = .ok a := by
  refine C60_returns exUnmixed_reads (ref := 1) ⟨by simp [exUnmixedDistribution], by simp [exUnmixedDistribution]⟩ (by simp)
    (fun c hc => ?_) true
  rw [List.mem_singleton.1 hc]
  refine ⟨fun v hv => ?_, rfl, ⟨3 / 2, ⟨_, _, rfl, rfl⟩, 3, by norm_num⟩,
    ⟨2, by simp, by simp [exUnmixed, exLambda], by simp [exUnmixed, exLambda]⟩, ⟨_, rfl⟩, fun v hv => ?_⟩
  · simp only [exUnmixed, List.mem_cons, List.not_mem_nil, or_false] at hv
    rcases hv with rfl | rfl <;> exact .inl rfl
  · simp only [exUnmixed, List.mem_cons, List.not_mem_nil, or_false] at hv
    rcases hv with rfl | rfl <;> exact ⟨_, rfl⟩

/-- The intensity of the example with one chain is twice the squared Breit-Wigner times `d^{3/2}_{-1/2, -1/2}(θ)²`. -/
example : ∃ a, formulate exUnmixedModel true id none = .ok a ∧ ∃ z : ℂ, a.fullExpression.eval exTurn (fun _ => 0) =
    ((2 * (‖z‖ * |Wigner.wignerD (3 / 2) (-1 / 2) (-1 / 2) 1|) ^ 2 : ℝ) : ℂ) := by
  obtain ⟨a, ha⟩ := exUnmixed_ok
  have eL : exReading exUnmixed = ⟨3, 1, 2, -1 / 2, 0, 0, 1 / 2⟩ := rfl
  refine ⟨a, ha, lineValue exUnmixedModel id none exTurn exUnmixed * (exUnmixed.vertices.map (formValue exUnmixedModel exTurn)).prod, ?_⟩
  rw [C115_serial_one_chain exUnmixed_reads exDistribution_nonneg (ref := 1) ⟨by simp [exUnmixedDistribution], by simp [exUnmixedDistribution]⟩
    (by simp) ha (dynamics_values (fun _ h => by cases h) _ _) (c := exUnmixed) rfl (k := 2) (by simp)
    ⟨by simp [exUnmixed, exLambda], by simp [exUnmixed, exLambda]⟩ (by simp [exUnmixed]) ?_ exTurn_actual exTurn_angles _
    (s0 := 1 / 2) rfl]
  · rw [eL]
    have hp : Projection (3 / 2) (0 - 1 / 2) := ⟨by norm_num, by norm_num, 2, by norm_num⟩
    have hw : ∀ s, exTurn.sym s = ((1 : ℝ) : ℂ) := fun _ => Complex.ofReal_one.symm
    have hJ : chainSpin exUnmixed = 3 / 2 := rfl
    rw [hw, hw, hJ, exTurn_actual, if_pos hp, show (0 - 1 / 2 : ℚ) = -1 / 2 by norm_num]
    refine congrArg _ ?_
    rw [Complex.norm_real, Complex.norm_real, Real.norm_eq_abs, Real.norm_eq_abs]
    push_cast
    norm_num
  · intro x hx s hs
    simp only [exUnmixedDistribution, exKinematics, List.mem_cons, List.not_mem_nil, or_false] at hx
    rcases hx with rfl | rfl | rfl <;> cases hs
    · exact ⟨by norm_num [eL, Reading.hel], by norm_num [eL, Reading.hel],
        0, by norm_num [eL, Reading.hel]⟩
    · exact ⟨by norm_num [eL, Reading.hel], by norm_num [eL, Reading.hel],
        0, by norm_num [eL, Reading.hel]⟩
    · exact ⟨by norm_num [eL, Reading.hel], by norm_num [eL, Reading.hel],
        0, by norm_num [eL, Reading.hel]⟩

end Verif.Serialization
