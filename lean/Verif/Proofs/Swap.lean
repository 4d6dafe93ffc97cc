import Verif.Spec.Swap
import Verif.Proofs.Relabel
import Verif.Proofs.Exchange

/-! Exchange of the IDs 1 and 2: decays, angles. -/
namespace Verif.ThreeBody
open Verif Verif.Spec Verif.Spin Verif.Angles

theorem swp_inj : Function.Injective swp := by
  intro a b h
  unfold swp at h
  split_ifs at h <;> omega

theorem swp_zero {i : ℤ} : swp i = 0 ↔ i = 0 := by
  unfold swp
  split_ifs <;> omega

theorem swp_mem {i : ℤ} : swp i ∈ ([1, 2, 3] : List ℤ) ↔ i ∈ ([1, 2, 3] : List ℤ) := by
  simp only [List.mem_cons, List.not_mem_nil, or_false]
  unfold swp
  split_ifs <;> omega

theorem swapState_inj : Function.Injective swapState := by
  rintro ⟨p, i⟩ ⟨q, j⟩ h
  injection h with h1 h2
  have h1 : p = q := h1
  have h2 : i = j := swp_inj h2
  rw [h1, h2]

theorem swapObj_inj : Function.Injective swapObj := by
  rintro (p | s) (q | t) h
  · exact h
  · cases h
  · cases h
  · injection h with h
    rw [swapState_inj h]

theorem swapObj_toP (o : Obj) : (swapObj o).toP = o.toP := by cases o <;> rfl

theorem toParticle_swap (n : Node) : (swapNode n).toParticle = swapObj n.toParticle := by
  cases n <;> rfl

theorem chainNew_swap {n : Node} {c : Chain} (h : Chain.new n = .ok c) :
    Chain.new (swapNode n) = .ok (swapChain c) := by
  obtain ⟨p0, R, c1, c2, s, inc, out, hn⟩ := chain_shape_of_ok h
  rw [chainNew_shape p0 R c1 c2 s inc out n hn] at h
  have hn' : swapNode n = .isobar (swapObj p0) (.isobar (swapObj R) (swapNode c1) (swapNode c2) out)
        (.leaf (.state (swapState s))) inc ∨
      swapNode n = .isobar (swapObj p0) (.leaf (.state (swapState s)))
        (.isobar (swapObj R) (swapNode c1) (swapNode c2) out) inc := by
    rcases hn with rfl | rfl
    · exact .inl rfl
    · exact .inr rfl
  rw [chainNew_shape _ _ _ _ _ inc out _ hn', toParticle_swap, toParticle_swap]
  cases h1 : c1.toParticle with
  | particle p => rw [h1] at h; cases h
  | state p1 =>
    cases h2 : c2.toParticle with
    | particle p => rw [h1, h2] at h; cases h
    | state p2 =>
      rw [h1, h2] at h
      cases p0 with
      | particle p => cases h
      | state q =>
        dsimp only at h
        split_ifs at h with hnd
        injection h with h
        subst h
        have : [(swapState q).index, (swapState p1).index, (swapState p2).index,
            (swapState s).index].Nodup := by
          have := List.Nodup.map swp_inj hnd
          exact this
        dsimp only [swapObj]
        rw [if_pos this]
        rfl

theorem get?_swap (l : PyDict ℤ State) (i : ℤ) :
    PyDict.get? (l.map fun x => (swp x.1, swapState x.2)) (swp i) = (PyDict.get? l i).map swapState := by
  induction l with
  | nil => rfl
  | cons x l ih =>
    obtain ⟨j, s⟩ := x
    by_cases h : j = i
    · subst h
      simp [PyDict.get?]
    · have h' : swp j ≠ swp i := fun e => h (swp_inj e)
      simp only [PyDict.get?, List.map_cons, List.find?_cons, h, h', decide_false, beq_iff_eq] at ih ⊢
      first | exact ih | simpa [h, h'] using ih

theorem last_swap {s : State} {l : List State} :
    LastWithIndex (swapState s) (l.map swapState) ↔ LastWithIndex s l := by
  constructor
  · rintro ⟨pre, post, h, hp⟩
    obtain ⟨l1, l2, rfl, hl1, hl2⟩ := List.map_eq_append_iff.1 h
    obtain ⟨a, l3, rfl, ha, hl3⟩ := List.map_eq_cons_iff.1 hl2
    have := swapState_inj ha
    subst this
    refine ⟨l1, l3, rfl, fun t ht e => ?_⟩
    refine hp (swapState t) (by rw [← hl3]; exact List.mem_map.2 ⟨t, ht, rfl⟩) ?_
    exact congrArg swp e
  · rintro ⟨pre, post, rfl, hp⟩
    refine ⟨pre.map swapState, post.map swapState, by simp, fun t ht e => ?_⟩
    obtain ⟨t, ht', rfl⟩ := List.mem_map.1 ht
    exact hp t ht' (swp_inj e)

theorem valid_swap {d : Decay} (h : d.Valid) : (swapDecay d).Valid := by
  refine ⟨?_, ?_⟩
  · obtain ⟨-, s0, h0, hc⟩ := (decayNew_ok _ _ _).1 h.1
    refine (decayNew_ok _ _ _).2 ⟨rfl, swapState s0, ?_, ?_⟩
    · have := get?_swap d.states 0
      rw [h0] at this
      exact this
    · intro c' hc'
      obtain ⟨c, hcm, rfl⟩ := List.mem_map.1 hc'
      obtain ⟨h1, h2⟩ := hc c hcm
      refine ⟨congrArg swapState h1, fun s' => ?_⟩
      have e : (swapDecay d).states.map Prod.snd = (d.states.map Prod.snd).map swapState := by
        simp [swapDecay, List.map_map, Function.comp_def]
      rw [e]
      constructor
      · intro hs
        have : ∃ s, s' = swapState s ∧ (s = c.spectator ∨ s = c.product1 ∨ s = c.product2) := by
          rcases hs with rfl | rfl | rfl
          · exact ⟨_, rfl, .inl rfl⟩
          · exact ⟨_, rfl, .inr (.inl rfl)⟩
          · exact ⟨_, rfl, .inr (.inr rfl)⟩
        obtain ⟨s, rfl, hs'⟩ := this
        obtain ⟨g1, g2⟩ := (h2 s).1 hs'
        exact ⟨fun e => g1 (swp_zero.1 e), last_swap.2 g2⟩
      · rintro ⟨g1, g2⟩
        have : ∃ s, s' = swapState s := by
          obtain ⟨pre, post, hl, -⟩ := g2
          have : s' ∈ (d.states.map Prod.snd).map swapState := by rw [hl]; simp
          obtain ⟨s, -, rfl⟩ := List.mem_map.1 this
          exact ⟨s, rfl⟩
        obtain ⟨s, rfl⟩ := this
        rcases (h2 s).2 ⟨fun e => g1 (swp_zero.2 e), last_swap.1 g2⟩ with rfl | rfl | rfl
        · exact .inl rfl
        · exact .inr (.inl rfl)
        · exact .inr (.inr rfl)
  · intro c' hc'
    obtain ⟨c, hcm, rfl⟩ := List.mem_map.1 hc'
    exact chainNew_swap (h.2 c hcm)

theorem standard_swap {d : Decay} (h : Standard d) : Standard (swapDecay d) := by
  refine ⟨valid_swap h.valid, ?_, ?_, ?_, ?_⟩
  · have : PyDict.keys (swapDecay d).states = (PyDict.keys d.states).map swp := by
      simp [swapDecay, PyDict.keys, List.map_map, Function.comp_def]
    rw [this]
    refine (h.keys.map swp).trans ?_
    decide
  · intro x' hx'
    obtain ⟨x, hx, rfl⟩ := List.mem_map.1 hx'
    exact congrArg swp (h.index x hx)
  · intro x' hx'
    obtain ⟨x, hx, rfl⟩ := List.mem_map.1 hx'
    exact h.spins x hx
  · intro c' hc'
    obtain ⟨c, hc, rfl⟩ := List.mem_map.1 hc'
    have := h.resonances c hc
    rw [← swapObj_toP] at this
    exact this

theorem spin_swap (d : Decay) (i : ℤ) : (swapDecay d).spin (swp i) = d.spin i := by
  unfold Decay.spin Decay.st
  rw [show (swapDecay d).states = d.states.map fun x => (swp x.1, swapState x.2) from rfl, get?_swap]
  cases PyDict.get? d.states i <;> rfl

theorem prodIds_swap {k : ℤ} (hk : k ∈ ([1, 2, 3] : List ℤ)) :
    prodIds (swp k) = (swp (prodIds k).2, swp (prodIds k).1) := by
  simp only [List.mem_cons, List.not_mem_nil, or_false] at hk
  rcases hk with rfl | rfl | rfl <;> decide

variable {ρ ρ' : Sym → ℝ}

/-- The two Källén functions of a ratio can be written in either order. -/
theorem eval_acosRatio_comm {N k1 k2 N' k1' k2' : RExpr} {n x y n' x' y' : ℝ}
    (hN : RExpr.eval ρ N = some n) (h1 : RExpr.eval ρ k1 = some x) (h2 : RExpr.eval ρ k2 = some y)
    (hN' : RExpr.eval ρ' N' = some n') (h1' : RExpr.eval ρ' k1' = some y') (h2' : RExpr.eval ρ' k2' = some x')
    (hn : n' = n) (hx : x' = x) (hy : y' = y) :
    RExpr.eval ρ' (acosRatio N' k1' k2') = RExpr.eval ρ (acosRatio N k1 k2) := by
  subst hn hx hy
  rw [eval_acosRatio_gen hN h1 h2, eval_acosRatio_gen hN' h1' h2', mul_comm √y']
  by_cases a : x' < 0 <;> by_cases b : y' < 0 <;> simp [a, b]

theorem eval_acosRatio_same {N k1 k2 N' k1' k2' : RExpr} {n x y n' x' y' : ℝ}
    (hN : RExpr.eval ρ N = some n) (h1 : RExpr.eval ρ k1 = some x) (h2 : RExpr.eval ρ k2 = some y)
    (hN' : RExpr.eval ρ' N' = some n') (h1' : RExpr.eval ρ' k1' = some x') (h2' : RExpr.eval ρ' k2' = some y')
    (hn : n' = n) (hx : x' = x) (hy : y' = y) :
    RExpr.eval ρ' (acosRatio N' k1' k2') = RExpr.eval ρ (acosRatio N k1 k2) := by
  subst hn hx hy
  rw [eval_acosRatio_gen hN h1 h2, eval_acosRatio_gen hN' h1' h2']

/-- Masses and Mandelstam variables of the same point, with the IDs 1 and 2 exchanged. -/
def SwappedValues (ρ ρ' : Sym → ℝ) : Prop :=
  (∀ i ∈ ([0, 1, 2, 3] : List ℤ), vm ρ' (swp i) = vm ρ i) ∧ ∀ i ∈ ([1, 2, 3] : List ℤ), vs ρ' (swp i) = vs ρ i

/-- The value of `θ̂` is symmetric. -/
theorem hat_swap (h : SwappedValues ρ ρ') {a b : ℤ} (ha : a ∈ ([1, 2, 3] : List ℤ)) (hb : b ∈ ([1, 2, 3] : List ℤ))
    (hab : a ≠ b) :
    RExpr.eval ρ' (thetaHatExpr (swp b) (swp a)) = RExpr.eval ρ (thetaHatExpr a b) := by
  have hr : remainingId a b ∈ ([1, 2, 3] : List ℤ) ∧ remainingId (swp b) (swp a) = swp (remainingId a b) := by
    simp only [List.mem_cons, List.not_mem_nil, or_false] at ha hb
    rcases ha with rfl | rfl | rfl <;> rcases hb with rfl | rfl | rfl <;> first | exact absurd rfl hab | decide
  have key : ∀ (ρ : Sym → ℝ) (a b c : ℤ), remainingId a b = c → RExpr.eval ρ (thetaHatExpr a b) =
      RExpr.eval ρ (acosRatio
        ((m 0 ^ 2 + m a ^ 2 - σ a) * (m 0 ^ 2 + m b ^ 2 - σ b) - 2 * m 0 ^ 2 * (σ c - m a ^ 2 - m b ^ 2))
        (.kallen (m 0 ^ 2) (m b ^ 2) (σ b)) (.kallen (m 0 ^ 2) (σ a) (m a ^ 2))) := by
    intro ρ a b c hc
    subst hc
    rfl
  rw [key ρ a b _ rfl, key ρ' _ _ _ hr.2]
  have E : ∀ (ρ : Sym → ℝ) (i : ℤ), RExpr.eval ρ (m i ^ 2) = some (vm ρ i ^ 2) :=
    fun ρ i => eval_pow (n := 2) ρ (eval_m' (ρ := ρ) i)
  have S : ∀ (ρ : Sym → ℝ) (i : ℤ), RExpr.eval ρ (σ i) = some (vs ρ i) := fun ρ i => eval_σ' (ρ := ρ) i
  have N : ∀ (ρ : Sym → ℝ) (a b c : ℤ), _ := fun ρ a b c => eval_sub ρ
    (eval_mul ρ (eval_sub ρ (eval_add ρ (E ρ 0) (E ρ a)) (S ρ a)) (eval_sub ρ (eval_add ρ (E ρ 0) (E ρ b)) (S ρ b)))
    (eval_mul ρ (eval_mul ρ (eval_num (n := 2) ρ) (E ρ 0)) (eval_sub ρ (eval_sub ρ (S ρ c) (E ρ a)) (E ρ b)))
  have m0 : vm ρ' 0 = vm ρ 0 := h.1 0 (by simp)
  have ma := h.1 a (mem0 ha)
  have mb := h.1 b (mem0 hb)
  have sa := h.2 a ha
  have sb := h.2 b hb
  have sc := h.2 _ hr.1
  refine eval_acosRatio_comm (N ρ a b _) (eval_kallen ρ (E ρ 0) (E ρ b) (S ρ b))
    (eval_kallen ρ (E ρ 0) (S ρ a) (E ρ a)) (N ρ' (swp b) (swp a) _)
    (eval_kallen ρ' (E ρ' 0) (E ρ' (swp a)) (S ρ' (swp a))) (eval_kallen ρ' (E ρ' 0) (S ρ' (swp b)) (E ρ' (swp b)))
    ?_ ?_ ?_
  · rw [m0, ma, mb, sa, sb, sc]; push_cast; ring
  · rw [m0, mb, sb]; unfold RExpr.kallenR; ring
  · rw [m0, ma, sa]; unfold RExpr.kallenR; ring

/-- The expression of `ζ^i_{i(c)}` and `ζ^i_{c(i)}`, up to the sign; `b` is the third ID. -/
def oneExpr (i c b : ℤ) : RExpr := acosRatio
  (2 * m i ^ 2 * (σ b - m 0 ^ 2 - m b ^ 2) + (m 0 ^ 2 + m i ^ 2 - σ i) * (σ c - m i ^ 2 - m b ^ 2))
  (.kallen (m 0 ^ 2) (m i ^ 2) (σ i)) (.kallen (σ c) (m i ^ 2) (m b ^ 2))

/-- The expression of `ζ^i_{j(k)}` for three different IDs, up to the sign. -/
def threeExpr (i j k : ℤ) : RExpr := acosRatio
  (2 * m i ^ 2 * (m j ^ 2 + m k ^ 2 - σ i) + (σ j - m i ^ 2 - m k ^ 2) * (σ k - m i ^ 2 - m j ^ 2))
  (.kallen (σ j) (m k ^ 2) (m i ^ 2)) (.kallen (σ k) (m i ^ 2) (m j ^ 2))

theorem eval_msq (ρ : Sym → ℝ) (i : ℤ) : RExpr.eval ρ (m i ^ 2) = some (vm ρ i ^ 2) :=
  eval_pow (n := 2) ρ (eval_m' (ρ := ρ) i)

theorem one_swap (h : SwappedValues ρ ρ') {i c b : ℤ} (hi : i ∈ ([1, 2, 3] : List ℤ)) (hc : c ∈ ([1, 2, 3] : List ℤ))
    (hb : b ∈ ([1, 2, 3] : List ℤ)) :
    RExpr.eval ρ' (oneExpr (swp i) (swp c) (swp b)) = RExpr.eval ρ (oneExpr i c b) := by
  have E := eval_msq
  have S : ∀ (ρ : Sym → ℝ) (i : ℤ), RExpr.eval ρ (σ i) = some (vs ρ i) := fun ρ i => eval_σ' (ρ := ρ) i
  have N : ∀ (ρ : Sym → ℝ) (i c b : ℤ), _ := fun ρ i c b => eval_add ρ
    (eval_mul ρ (eval_mul ρ (eval_num (n := 2) ρ) (E ρ i)) (eval_sub ρ (eval_sub ρ (S ρ b) (E ρ 0)) (E ρ b)))
    (eval_mul ρ (eval_sub ρ (eval_add ρ (E ρ 0) (E ρ i)) (S ρ i)) (eval_sub ρ (eval_sub ρ (S ρ c) (E ρ i)) (E ρ b)))
  have m0 : vm ρ' 0 = vm ρ 0 := h.1 0 (by simp)
  have mi := h.1 i (mem0 hi)
  have mb := h.1 b (mem0 hb)
  have si := h.2 i hi
  have sc := h.2 c hc
  have sb := h.2 b hb
  refine eval_acosRatio_same (N ρ i c b) (eval_kallen ρ (E ρ 0) (E ρ i) (S ρ i))
    (eval_kallen ρ (S ρ c) (E ρ i) (E ρ b)) (N ρ' (swp i) (swp c) (swp b))
    (eval_kallen ρ' (E ρ' 0) (E ρ' (swp i)) (S ρ' (swp i))) (eval_kallen ρ' (S ρ' (swp c)) (E ρ' (swp i)) (E ρ' (swp b)))
    ?_ ?_ ?_
  · rw [m0, mi, mb, si, sb, sc]
  · rw [m0, mi, si]
  · rw [mi, mb, sc]

theorem three_swap (h : SwappedValues ρ ρ') {i j k : ℤ} (hi : i ∈ ([1, 2, 3] : List ℤ)) (hj : j ∈ ([1, 2, 3] : List ℤ))
    (hk : k ∈ ([1, 2, 3] : List ℤ)) :
    RExpr.eval ρ' (threeExpr (swp i) (swp k) (swp j)) = RExpr.eval ρ (threeExpr i j k) := by
  have E := eval_msq
  have S : ∀ (ρ : Sym → ℝ) (i : ℤ), RExpr.eval ρ (σ i) = some (vs ρ i) := fun ρ i => eval_σ' (ρ := ρ) i
  have N : ∀ (ρ : Sym → ℝ) (i j k : ℤ), _ := fun ρ i j k => eval_add ρ
    (eval_mul ρ (eval_mul ρ (eval_num (n := 2) ρ) (E ρ i)) (eval_sub ρ (eval_add ρ (E ρ j) (E ρ k)) (S ρ i)))
    (eval_mul ρ (eval_sub ρ (eval_sub ρ (S ρ j) (E ρ i)) (E ρ k)) (eval_sub ρ (eval_sub ρ (S ρ k) (E ρ i)) (E ρ j)))
  have mi := h.1 i (mem0 hi)
  have mj := h.1 j (mem0 hj)
  have mk := h.1 k (mem0 hk)
  have si := h.2 i hi
  have sj := h.2 j hj
  have sk := h.2 k hk
  refine eval_acosRatio_comm (N ρ i j k) (eval_kallen ρ (S ρ j) (E ρ k) (E ρ i))
    (eval_kallen ρ (S ρ k) (E ρ i) (E ρ j)) (N ρ' (swp i) (swp k) (swp j))
    (eval_kallen ρ' (S ρ' (swp k)) (E ρ' (swp j)) (E ρ' (swp i)))
    (eval_kallen ρ' (S ρ' (swp j)) (E ρ' (swp i)) (E ρ' (swp k))) ?_ ?_ ?_
  · rw [mi, mj, mk, si, sj, sk]; push_cast; ring
  · rw [mi, mk, sj]; unfold RExpr.kallenR; ring
  · rw [mi, mj, sk]; unfold RExpr.kallenR; ring

theorem eval_neg_map (ρ : Sym → ℝ) (e : RExpr) : RExpr.eval ρ (-e) = (RExpr.eval ρ e).map Neg.neg := by
  cases h : RExpr.eval ρ e with
  | none =>
    show RExpr.eval ρ (.neg e) = _
    rw [RExpr.eval, h]
    rfl
  | some v => exact eval_neg ρ h

theorem neg_right {e e' X X' : RExpr} (h : e = X) (h' : e' = -X') (hX : RExpr.eval ρ' X' = RExpr.eval ρ X) :
    RExpr.eval ρ' e' = (RExpr.eval ρ e).map Neg.neg := by
  rw [h, h', eval_neg_map, hX]

theorem neg_left {e e' X X' : RExpr} (h : e = -X) (h' : e' = X') (hX : RExpr.eval ρ' X' = RExpr.eval ρ X) :
    RExpr.eval ρ' e' = (RExpr.eval ρ e).map Neg.neg := by
  rw [h, h', eval_neg_map, hX, Option.map_map]
  cases RExpr.eval ρ X <;> simp

theorem neg_zero_case {e e' : RExpr} (h : e = 0) (h' : e' = 0) :
    RExpr.eval ρ' e' = (RExpr.eval ρ e).map Neg.neg := by
  rw [h, h']
  show RExpr.eval ρ' (.num 0) = (RExpr.eval ρ (.num 0)).map Neg.neg
  simp [RExpr.eval]

/-- The alignment angles change sign if the IDs 1 and 2 are exchanged. -/
theorem zeta_swap (h : SwappedValues ρ ρ') {i k r : ℤ} (hi : i ∈ ([0, 1, 2, 3] : List ℤ))
    (hk : k ∈ ([1, 2, 3] : List ℤ)) (hr : r ∈ ([1, 2, 3] : List ℤ)) :
    RExpr.eval ρ' (zetaExpr (swp i) (swp k) (swp r)) = (RExpr.eval ρ (zetaExpr i k r)).map Neg.neg := by
  simp only [List.mem_cons, List.not_mem_nil, or_false] at hi hk hr
  rcases hi with rfl | rfl | rfl | rfl <;> rcases hk with rfl | rfl | rfl <;> rcases hr with rfl | rfl | rfl
  · exact neg_zero_case (by decide +kernel) (by decide +kernel)
  · exact neg_right (X := thetaHatExpr 1 2) (by decide +kernel) (by decide +kernel) (hat_swap h (by simp) (by simp) (by decide))
  · exact neg_left (X := thetaHatExpr 3 1) (by decide +kernel) (by decide +kernel) (hat_swap h (by simp) (by simp) (by decide))
  · exact neg_left (X := thetaHatExpr 1 2) (by decide +kernel) (by decide +kernel) (hat_swap h (by simp) (by simp) (by decide))
  · exact neg_zero_case (by decide +kernel) (by decide +kernel)
  · exact neg_right (X := thetaHatExpr 2 3) (by decide +kernel) (by decide +kernel) (hat_swap h (by simp) (by simp) (by decide))
  · exact neg_right (X := thetaHatExpr 3 1) (by decide +kernel) (by decide +kernel) (hat_swap h (by simp) (by simp) (by decide))
  · exact neg_left (X := thetaHatExpr 2 3) (by decide +kernel) (by decide +kernel) (hat_swap h (by simp) (by simp) (by decide))
  · exact neg_zero_case (by decide +kernel) (by decide +kernel)
  · exact neg_zero_case (by decide +kernel) (by decide +kernel)
  · exact neg_left (X := oneExpr 1 2 3) (by decide +kernel) (by decide +kernel) (one_swap h (by simp) (by simp) (by simp))
  · exact neg_right (X := oneExpr 1 3 2) (by decide +kernel) (by decide +kernel) (one_swap h (by simp) (by simp) (by simp))
  · exact neg_right (X := oneExpr 1 2 3) (by decide +kernel) (by decide +kernel) (one_swap h (by simp) (by simp) (by simp))
  · exact neg_zero_case (by decide +kernel) (by decide +kernel)
  · exact neg_right (X := threeExpr 1 2 3) (by decide +kernel) (by decide +kernel) (three_swap h (by simp) (by simp) (by simp))
  · exact neg_left (X := oneExpr 1 3 2) (by decide +kernel) (by decide +kernel) (one_swap h (by simp) (by simp) (by simp))
  · exact neg_left (X := threeExpr 1 2 3) (by decide +kernel) (by decide +kernel) (three_swap h (by simp) (by simp) (by simp))
  · exact neg_zero_case (by decide +kernel) (by decide +kernel)
  · exact neg_zero_case (by decide +kernel) (by decide +kernel)
  · exact neg_left (X := oneExpr 2 1 3) (by decide +kernel) (by decide +kernel) (one_swap h (by simp) (by simp) (by simp))
  · exact neg_left (X := threeExpr 2 3 1) (by decide +kernel) (by decide +kernel) (three_swap h (by simp) (by simp) (by simp))
  · exact neg_right (X := oneExpr 2 1 3) (by decide +kernel) (by decide +kernel) (one_swap h (by simp) (by simp) (by simp))
  · exact neg_zero_case (by decide +kernel) (by decide +kernel)
  · exact neg_left (X := oneExpr 2 3 1) (by decide +kernel) (by decide +kernel) (one_swap h (by simp) (by simp) (by simp))
  · exact neg_right (X := threeExpr 2 3 1) (by decide +kernel) (by decide +kernel) (three_swap h (by simp) (by simp) (by simp))
  · exact neg_right (X := oneExpr 2 3 1) (by decide +kernel) (by decide +kernel) (one_swap h (by simp) (by simp) (by simp))
  · exact neg_zero_case (by decide +kernel) (by decide +kernel)
  · exact neg_zero_case (by decide +kernel) (by decide +kernel)
  · exact neg_right (X := threeExpr 3 1 2) (by decide +kernel) (by decide +kernel) (three_swap h (by simp) (by simp) (by simp))
  · exact neg_right (X := oneExpr 3 1 2) (by decide +kernel) (by decide +kernel) (one_swap h (by simp) (by simp) (by simp))
  · exact neg_left (X := threeExpr 3 1 2) (by decide +kernel) (by decide +kernel) (three_swap h (by simp) (by simp) (by simp))
  · exact neg_zero_case (by decide +kernel) (by decide +kernel)
  · exact neg_left (X := oneExpr 3 2 1) (by decide +kernel) (by decide +kernel) (one_swap h (by simp) (by simp) (by simp))
  · exact neg_left (X := oneExpr 3 1 2) (by decide +kernel) (by decide +kernel) (one_swap h (by simp) (by simp) (by simp))
  · exact neg_right (X := oneExpr 3 2 1) (by decide +kernel) (by decide +kernel) (one_swap h (by simp) (by simp) (by simp))
  · exact neg_zero_case (by decide +kernel) (by decide +kernel)

/-- The helicity angle of the decay products becomes its supplement if the IDs 1 and 2 are exchanged. -/
theorem theta_swap (h : SwappedValues ρ ρ') (hs : SumRule ρ) {k : ℤ} (hk : k ∈ ([1, 2, 3] : List ℤ)) :
    RExpr.eval ρ' (thetaExpr (swp k)) = (RExpr.eval ρ (thetaExpr k)).map fun θ => Real.pi - θ := by
  have hp : IsPerm123 (prodIds k).1 (prodIds k).2 k := by
    simp only [List.mem_cons, List.not_mem_nil, or_false] at hk
    rcases hk with rfl | rfl | rfl <;> (unfold IsPerm123; decide)
  have e : thetaExpr k = scatE (prodIds k).1 (prodIds k).2 k := by
    simp only [List.mem_cons, List.not_mem_nil, or_false] at hk
    rcases hk with rfl | rfl | rfl <;> decide +kernel
  have e' : thetaExpr (swp k) = scatE (swp (prodIds k).2) (swp (prodIds k).1) (swp k) := by
    simp only [List.mem_cons, List.not_mem_nil, or_false] at hk
    rcases hk with rfl | rfl | rfl <;> decide +kernel
  rw [e, e', ← scat_swap hs hp, scat_eval, scat_eval]
  have hm : ∀ x ∈ [(prodIds k).1, (prodIds k).2, k], x ∈ ([1, 2, 3] : List ℤ) := fun x hx => hp.subset hx
  have m0 : vm ρ' 0 = vm ρ 0 := h.1 0 (by simp)
  have i1 := hm (prodIds k).1 (by simp)
  have i2 := hm (prodIds k).2 (by simp)
  unfold scatNum
  rw [m0, h.1 _ (mem0 i1), h.1 _ (mem0 i2), h.1 _ (mem0 hk), h.2 _ i1, h.2 _ hk]

end Verif.ThreeBody
