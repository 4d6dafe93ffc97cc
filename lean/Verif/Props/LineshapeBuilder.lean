import Verif.Proofs.Dynamics
import Verif.Props.Dynamics

/-! Properties C41 and C42: the lineshapes that `BreitWignerBuilder` builds. -/
set_option linter.unusedSimpArgs false

namespace Verif.ThreeBody
open Verif Verif.Spec Lineshape

variable {bw : BreitWignerBuilder} {c : Chain} {R : Particle} {first : Bool} {e : DefExpr}

theorem call_ok_inv (hc : PlainChain c R first) (hid : NumberedFinalState c)
    (he : bw.call c = .ok e) :
    ¬ LSMissing bw c ∧ e.expression = builtExpr bw c R first ∧
      (∀ k, PyDict.get? e.parameters k = PyDict.get? (builtItems bw c R first).reverse k) := by
  obtain ⟨h1, h2⟩ := call_eq bw hc hid
  by_cases h : LSMissing bw c
  · rw [h1 h] at he; cases he
  · obtain ⟨P, h3, h4, -⟩ := h2 h
    rw [h3] at he; cases he
    exact ⟨h, rfl, h4⟩

/-! ### Names of symbols -/

theorem name_ne {a b : Sym} {x y : Char} (ha : a.name.toList.head? = some x)
    (hb : b.name.toList.head? = some y) (h : x ≠ y) : a ≠ b := by
  rintro rfl; rw [ha] at hb; exact h (Option.some.inj hb)

theorem head_state (i : ℤ) : (massOfState i).name.toList.head? = some 'm' := by
  simp [massOfState, String.toList_append]
theorem head_res (p : Particle) : (massOfResonance p).name.toList.head? = some 'm' := by
  simp [massOfResonance, String.toList_append]
theorem head_width (p : Particle) : (widthOfResonance p).name.toList.head? = some '\\' := by
  simp [widthOfResonance, String.toList_append]
theorem head_radius : resonanceRadius.name.toList.head? = some 'R' := by
  simp [resonanceRadius]
theorem head_parent (p : State) : (parentRadius p).name.toList.head? = some 'R' := by
  simp [parentRadius, String.toList_append]

theorem massOfState_inj {i j : ℤ} (h : massOfState i = massOfState j) : i = j := by
  have := congrArg (fun s : Sym => s.name.toList) h
  simp only [massOfState, String.toList_append] at this
  exact toString_int_inj (String.toList_inj.1 (List.append_cancel_left this))

theorem massOfState_ne (i : ℤ) (p : Particle) : massOfState i ≠ massOfResonance p := by
  intro h
  have := congrArg (fun s : Sym => s.name.toList) h
  simp only [massOfState, massOfResonance, String.toList_append] at this
  have hu : '_' ∉ "m".toList ++ (toString i).toList := by
    simp only [List.mem_append, not_or]
    exact ⟨by decide, int_name_no (by decide) (by decide)⟩
  apply hu
  rw [this]; simp

theorem radius_ne (p : State) : parentRadius p ≠ resonanceRadius := by
  intro h
  have := congrArg (fun s : Sym => s.name.toList) h
  simp [parentRadius, resonanceRadius, String.toList_append] at this

theorem mandelstam_dim {k d : ℤ} (h : SymbolDim (mandelstam k) d) : d = 2 := by
  have hm := head_mandelstam k
  generalize hs : mandelstam k = s at h
  rw [hs] at hm
  cases h with
  | mandelstam k' => rfl
  | stateMass i => rw [head_state] at hm; simp at hm
  | resonanceMass p => rw [head_res] at hm; simp at hm
  | resonanceWidth p => rw [head_width] at hm; simp at hm
  | resonanceRadius => rw [head_radius] at hm; simp at hm
  | parentRadius p => rw [head_parent] at hm; simp at hm

attribute [local irreducible] massOfState massOfResonance widthOfResonance mandelstam resonanceRadius
  parentRadius

/-! ### C42 -/

/-- **C42** The value of the built lineshape, for every setting of the flags and every chain. -/
theorem C42_value (hc : PlainChain c R first) (hid : NumberedFinalState c)
    (he : bw.call c = .ok e) (ι : Interp) (η : Sym → ℚ) :
    e.expression.eval ι η =
      lineshapeValue ι bw.energyDependentWidth bw.decayFormFactor bw.productionFormFactor bw.phsp
        c.spectator.index R c.parent c.product1 c.product2
        (if first then massOfResonance R else massOfState c.spectator.index)
        (if first then massOfState c.spectator.index else massOfResonance R)
        (angularMomentum c.incomingLs) (angularMomentum c.outgoingLs) := by
  rw [(call_ok_inv hc hid he).2.1]
  have hbare : (bareExpr bw c R).eval ι η =
      if bw.energyDependentWidth then
        ι.sym (massOfResonance R) * ι.sym (widthOfResonance R) *
          breitWignerValue (ι.sym (mandelstam c.spectator.index)) (ι.sym (massOfResonance R))
            (ι.edw bw.phsp (ι.sym (mandelstam c.spectator.index)) (ι.sym (massOfResonance R))
              (ι.sym (widthOfResonance R)) (ι.sym (massOfState c.product1.index))
              (ι.sym (massOfState c.product2.index)) (angularMomentum c.outgoingLs)
              (ι.sym resonanceRadius))
      else breitWignerValue (ι.sym (mandelstam c.spectator.index)) (ι.sym (massOfResonance R))
        (ι.sym (widthOfResonance R)) := by
    unfold bareExpr
    split
    · simp only [relativisticBreitWigner, eval_div, eval_sub, eval_pow, Expr.eval, breitWignerValue]
      rw [mul_one_div]
      congr 2
      exact (mul_assoc _ _ _).trans ((mul_comm _ _).trans
        (congrArg (· * _) (mul_comm _ _)))
    · exact (C37_closed_form ι η _ _ _ 0 0 0 0 "").1
  unfold builtExpr lineshapeValue
  rcases h1 : bw.decayFormFactor with _ | _ <;> rcases h2 : bw.productionFormFactor with _ | _ <;>
    simp only [Bool.false_eq_true, if_true, if_false, eval_mul, hbare, mul_one] <;> rfl

/-- **C42** For every chain and every flag setting, the call raises `ValueError` iff an LS coupling is
needed but missing (the outgoing one for the energy-dependent width and the form factor of the
decay, the incoming one for the form factor of the production); otherwise it succeeds. -/
theorem C42_missing_ls (bw : BreitWignerBuilder) (hc : PlainChain c R first)
    (hid : NumberedFinalState c) :
    (bw.call c = .error .valueError ↔
      ((bw.energyDependentWidth = true ∨ bw.decayFormFactor = true) ∧ c.outgoingLs = none) ∨
        (bw.productionFormFactor = true ∧ c.incomingLs = none)) ∧
    (bw.call c ≠ .error .valueError → ∃ e, bw.call c = .ok e) := by
  obtain ⟨h1, h2⟩ := call_eq bw hc hid
  by_cases h : LSMissing bw c
  · exact ⟨⟨fun _ => h, fun _ => h1 h⟩, fun h' => absurd (h1 h) h'⟩
  · obtain ⟨P, h3, -⟩ := h2 h
    refine ⟨⟨fun h' => ?_, fun h' => absurd h' h⟩, fun _ => ⟨_, h3⟩⟩
    rw [h3] at h'; cases h'

/-- The items are those of the specification. -/
theorem mem_items (bw : BreitWignerBuilder) (c : Chain) (R : Particle) (first : Bool) (k : Key)
    (v : Val) : (k, v) ∈ builtItems bw c R first ↔
      ∃ x ∈ lineshapeDefaults bw.decayFormFactor bw.productionFormFactor R c,
        k = .sym x.1 ∧ v = .real x.2 := by
  have hm : (∃ x ∈ lineshapeDefaults bw.decayFormFactor bw.productionFormFactor R c,
      k = .sym x.1 ∧ v = .real x.2) ↔ (k, v) ∈ (lineshapeDefaults bw.decayFormFactor
        bw.productionFormFactor R c).map fun x => (Key.sym x.1, Val.real x.2) := by
    simp only [List.mem_map, Prod.mk.injEq]
    exact ⟨fun ⟨x, h, h1, h2⟩ => ⟨x, h, h1.symm, h2.symm⟩, fun ⟨x, h, h1, h2⟩ => ⟨x, h, h1.symm, h2.symm⟩⟩
  rw [hm]
  unfold builtItems lineshapeDefaults
  generalize massOfResonance R = a1
  generalize widthOfResonance R = a2
  generalize resonanceRadius = a3
  generalize massOfState c.product1.index = a4
  generalize massOfState c.product2.index = a5
  generalize massOfState c.spectator.index = a6
  generalize massOfState 0 = a7
  generalize parentRadius c.parent = a8
  rcases bw.decayFormFactor with _ | _ <;> rcases bw.productionFormFactor with _ | _ <;>
    cases first <;>
    simp only [Bool.false_eq_true, if_true, if_false, List.map_append, List.map_cons, List.map_nil,
      List.mem_append, List.mem_cons, List.not_mem_nil, or_false] <;>
    generalize ((k, v) = (Key.sym a1, Val.real R.mass)) = P1 <;>
    generalize ((k, v) = (Key.sym a2, Val.real R.width)) = P2 <;>
    generalize ((k, v) = (Key.sym a3, Val.real 1)) = P3 <;>
    generalize ((k, v) = (Key.sym a4, Val.real c.product1.mass)) = P4 <;>
    generalize ((k, v) = (Key.sym a5, Val.real c.product2.mass)) = P5 <;>
    generalize ((k, v) = (Key.sym a6, Val.real c.spectator.mass)) = P6 <;>
    generalize ((k, v) = (Key.sym a7, Val.real c.parent.mass)) = P7 <;>
    generalize ((k, v) = (Key.sym a8, Val.real 1)) = P8 <;>
    clear hm <;> tauto

/-- **C42** Every symbol of the lineshape is the Mandelstam variable of the chain, has a default value,
or is the mass of a decay product. -/
theorem C42_symbols (hc : PlainChain c R first) (hid : NumberedFinalState c)
    (he : bw.call c = .ok e) (s : Sym) (hs : s ∈ e.expression.syms) :
    s = mandelstam c.spectator.index ∨ (∃ v, PyDict.get? e.parameters (.sym s) = some v) ∨
      s = massOfState c.product1.index ∨ s = massOfState c.product2.index := by
  obtain ⟨-, hexp, hpar⟩ := call_ok_inv hc hid he
  have hkey : ∀ q, (s, q) ∈ lineshapeDefaults bw.decayFormFactor bw.productionFormFactor R c →
      ∃ v, PyDict.get? e.parameters (.sym s) = some v := by
    intro q hq
    have hv := (mem_items bw c R first (.sym s) (.real q)).2 ⟨_, hq, rfl, rfl⟩
    rw [hpar, ← PyDict.mem_keys_iff]
    simp only [PyDict.keys, List.map_reverse, List.mem_reverse, List.mem_map]
    exact ⟨_, hv, rfl⟩
  rw [hexp] at hs
  have hb : s ∈ (bareExpr bw c R).syms → s = mandelstam c.spectator.index ∨
      s = massOfResonance R ∨ s = widthOfResonance R ∨ s = resonanceRadius ∨
      s = massOfState c.product1.index ∨ s = massOfState c.product2.index := by
    unfold bareExpr
    split
    · intro h
      have : s ∈ ([massOfResonance R, widthOfResonance R, massOfResonance R,
        mandelstam c.spectator.index, mandelstam c.spectator.index, massOfResonance R,
        widthOfResonance R, massOfState c.product1.index, massOfState c.product2.index,
        resonanceRadius, massOfResonance R] : List Sym) := h
      simp only [List.mem_cons, List.not_mem_nil, or_false] at this
      tauto
    · intro h
      have : s ∈ ([massOfResonance R, mandelstam c.spectator.index, massOfResonance R,
        widthOfResonance R] : List Sym) := h
      simp only [List.mem_cons, List.not_mem_nil, or_false] at this
      tauto
  have hd : s ∈ (decFFExpr c).syms → s = mandelstam c.spectator.index ∨
      s = massOfState c.product1.index ∨ s = massOfState c.product2.index ∨ s = resonanceRadius := by
    intro h
    have : s ∈ ([mandelstam c.spectator.index, massOfState c.product1.index,
      massOfState c.product2.index, resonanceRadius] : List Sym) := h
    simpa using this
  have hp : s ∈ (prodFFExpr c R first).syms → s = massOfState 0 ∨ s = massOfResonance R ∨
      s = massOfState c.spectator.index ∨ s = parentRadius c.parent := by
    intro h
    have : s ∈ ([massOfState 0, prodA c R first, prodB c R first, parentRadius c.parent] : List Sym) := h
    clear hb hd hkey hexp hpar hs
    cases first <;> simp only [prodA, prodB, Bool.false_eq_true, if_true, if_false, List.mem_cons,
      List.not_mem_nil, or_false] at this
    · rcases this with h | h | h | h
      · exact .inl h
      · exact .inr (.inr (.inl h))
      · exact .inr (.inl h)
      · exact .inr (.inr (.inr h))
    · exact this
  have split : s ∈ (bareExpr bw c R).syms ∨ (s ∈ (decFFExpr c).syms) ∨
      (bw.productionFormFactor = true ∧ s ∈ (prodFFExpr c R first).syms) := by
    unfold builtExpr at hs
    have hm : ∀ a b : Expr, (a * b).syms = a.syms ++ b.syms := fun _ _ => rfl
    rcases h1 : bw.decayFormFactor with _ | _ <;> rcases h2 : bw.productionFormFactor with _ | _ <;>
      simp only [h1, h2, Bool.false_eq_true, if_true, if_false, hm, List.mem_append] at hs ⊢ <;>
      clear hb hd hp hkey hexp hpar <;> tauto
  have hbase : s = massOfResonance R ∨ s = widthOfResonance R ∨ s = resonanceRadius →
      ∃ v, PyDict.get? e.parameters (.sym s) = some v := by
    rintro (h | h | h)
    · exact hkey R.mass (by rw [h]; simp [lineshapeDefaults])
    · exact hkey R.width (by rw [h]; simp [lineshapeDefaults])
    · exact hkey 1 (by rw [h]; simp [lineshapeDefaults])
  rcases split with h | h | ⟨hP, h⟩
  · rcases hb h with h | h | h | h | h | h
    · exact .inl h
    · exact .inr (.inl (hbase (.inl h)))
    · exact .inr (.inl (hbase (.inr (.inl h))))
    · exact .inr (.inl (hbase (.inr (.inr h))))
    · exact .inr (.inr (.inl h))
    · exact .inr (.inr (.inr h))
  · rcases hd h with h | h | h | h
    · exact .inl h
    · exact .inr (.inr (.inl h))
    · exact .inr (.inr (.inr h))
    · exact .inr (.inl (hbase (.inr (.inr h))))
  · right; left
    rcases hp h with h | h | h | h
    · exact hkey c.parent.mass (by rw [h]; simp [lineshapeDefaults, hP])
    · exact hbase (.inl h)
    · exact hkey c.spectator.mass (by rw [h]; simp [lineshapeDefaults, hP])
    · exact hkey 1 (by rw [h]; simp [lineshapeDefaults, hP])

/-- **C42** The parameters are exactly: mass and width of the resonance with its own values, the radius
1, and the masses that the form factors use, with the values of the states. -/
theorem C42_defaults (hc : PlainChain c R first) (hid : NumberedFinalState c)
    (he : bw.call c = .ok e) (k : Key) (v : Val) :
    PyDict.get? e.parameters k = some v ↔
      ∃ x ∈ lineshapeDefaults bw.decayFormFactor bw.productionFormFactor R c,
        k = .sym x.1 ∧ v = .real x.2 := by
  obtain ⟨-, -, hpar⟩ := call_ok_inv hc hid he
  have fn : ∀ x ∈ lineshapeDefaults bw.decayFormFactor bw.productionFormFactor R c,
      ∀ y ∈ lineshapeDefaults bw.decayFormFactor bw.productionFormFactor R c, x.1 = y.1 → x.2 = y.2 := by
    have hnd : [c.product1.index, c.product2.index, c.spectator.index].Nodup :=
      hid.symm.nodup (by decide)
    have h0 : (0 : ℤ) ∉ [c.product1.index, c.product2.index, c.spectator.index] := by
      rw [hid.mem_iff]; decide
    simp only [List.nodup_cons, List.mem_cons, List.not_mem_nil, or_false, not_or] at hnd h0
    have key : ∀ x y : Sym × ℚ, (x.1 = y.1 → x.2 = y.2) → (y.1 = x.1 → y.2 = x.2) :=
      fun x y h h' => (h h'.symm).symm
    have d1 : ∀ i p, massOfState i ≠ massOfResonance p := massOfState_ne
    have d2 : ∀ i p, massOfState i ≠ widthOfResonance p := fun i p =>
      name_ne (head_state i) (head_width p) (by decide)
    have d3 : ∀ i, massOfState i ≠ resonanceRadius := fun i =>
      name_ne (head_state i) head_radius (by decide)
    have d4 : ∀ i p, massOfState i ≠ parentRadius p := fun i p =>
      name_ne (head_state i) (head_parent p) (by decide)
    have d5 : ∀ p q, massOfResonance p ≠ widthOfResonance q := fun p q =>
      name_ne (head_res p) (head_width q) (by decide)
    have d6 : ∀ p, massOfResonance p ≠ resonanceRadius := fun p =>
      name_ne (head_res p) head_radius (by decide)
    have d7 : ∀ p q, massOfResonance p ≠ parentRadius q := fun p q =>
      name_ne (head_res p) (head_parent q) (by decide)
    have d8 : ∀ p, widthOfResonance p ≠ resonanceRadius := fun p =>
      name_ne (head_width p) head_radius (by decide)
    have d9 : ∀ p q, widthOfResonance p ≠ parentRadius q := fun p q =>
      name_ne (head_width p) (head_parent q) (by decide)
    have m1 : massOfState c.product1.index ≠ massOfState c.product2.index :=
      fun h => hnd.1.1 (massOfState_inj h)
    have m2 : massOfState c.product1.index ≠ massOfState c.spectator.index :=
      fun h => hnd.1.2 (massOfState_inj h)
    have m3 : massOfState c.product2.index ≠ massOfState c.spectator.index :=
      fun h => hnd.2.1 (massOfState_inj h)
    have m4 : massOfState 0 ≠ massOfState c.product1.index := fun h => h0.1 (massOfState_inj h)
    have m5 : massOfState 0 ≠ massOfState c.product2.index := fun h => h0.2.1 (massOfState_inj h)
    have m6 : massOfState 0 ≠ massOfState c.spectator.index := fun h => h0.2.2 (massOfState_inj h)
    have d10 := radius_ne
    have hnodup : ((lineshapeDefaults bw.decayFormFactor bw.productionFormFactor R c).map
        Prod.fst).Nodup := by
      unfold lineshapeDefaults
      rcases bw.decayFormFactor with _ | _ <;> rcases bw.productionFormFactor with _ | _ <;>
        simp only [Bool.false_eq_true, if_true, if_false, List.append_nil, List.map_append,
          List.map_cons, List.map_nil, List.cons_append, List.nil_append, List.nodup_cons,
          List.mem_cons, List.not_mem_nil, or_false, not_or, d1, d2, d3, d4, d5, d6, d7, d8, d9,
          m1, m2, m3, m6, not_false_eq_true, List.nodup_nil, and_true, true_and, (d1 _ _).symm,
          (d2 _ _).symm, (d3 _).symm, (d4 _ _).symm, (d10 _).symm, m4.symm, m5.symm, m6.symm]
    intro x hx y hy hxy
    have := List.inj_on_of_nodup_map hnodup hx hy hxy
    rw [this]
  rw [hpar, ← mem_items bw c R first]
  constructor
  · intro h; simpa using PyDict.mem_of_get? h
  · intro h
    have : k ∈ PyDict.keys (builtItems bw c R first).reverse := by
      simp only [PyDict.keys, List.map_reverse, List.mem_reverse, List.mem_map]
      exact ⟨_, h, rfl⟩
    obtain ⟨v', hv'⟩ := PyDict.mem_keys_iff.1 this
    have h' : (k, v') ∈ builtItems bw c R first := by simpa using PyDict.mem_of_get? hv'
    obtain ⟨x, hx, rfl, rfl⟩ := (mem_items ..).1 h
    obtain ⟨y, hy, hxy, rfl⟩ := (mem_items ..).1 h'
    rw [hv', fn x hx y hy (by injection hxy)]

/-- **C42** The built lineshapes meet the hypotheses of the theorems about `formulate` (C23, C25-C36):
they contain no amplitudes or couplings, no Wigner functions and no helicities. -/
theorem C42_usable_in_formulate (hc : PlainChain c R first) (hid : NumberedFinalState c)
    (he : bw.call c = .ok e) :
    e.expression.indexeds = [] ∧ wigAngles e.expression = [] ∧ HelicityFree e.expression := by
  refine ⟨?_, ?_, fun ι η η' => by rw [C42_value hc hid he, C42_value hc hid he]⟩
  all_goals
    rw [(call_ok_inv hc hid he).2.1]
    unfold builtExpr bareExpr
    rcases bw.energyDependentWidth with _ | _ <;> rcases bw.decayFormFactor with _ | _ <;>
      rcases bw.productionFormFactor with _ | _ <;> rfl

/-- **C42** A decay product that is itself a node is not supported: `AttributeError`. -/
theorem C42_nested_products (bw : BreitWignerBuilder) {n : Node} (hd : c.decay.decayNode = .ok n)
    (hn : ∃ p a b x, Node.isobar p a b x ∈ n.children) :
    bw.call c = .error .attributeError := by
  have : getMandelstamS n = .error .attributeError := by
    obtain ⟨p, a, b, x, h⟩ := hn
    unfold getMandelstamS
    cases n with
    | leaf o => simp [Node.children] at h
    | isobar q c1 c2 y =>
      simp only [Node.children, List.mem_cons, List.not_mem_nil, or_false] at h
      simp only [Node.children, List.mapM_cons, List.mapM_nil, bind, Except.bind, pure, Except.pure]
      rcases h with rfl | rfl
      · rfl
      · rcases c1 with (s | s) | _ <;> rfl
  unfold BreitWignerBuilder.call
  simp only [hd, this, bind, Except.bind]

/-- The hypotheses are met by the chains of the example decay; `C42_from_constructor` shows that chains
returned by the constructor have this shape. -/
example : PlainChain exChainK ⟨"K*", "K^*", 1, some (-1), 9/10, 1/20⟩ true ∧ NumberedFinalState exChainK ∧
    ∃ e, ({} : BreitWignerBuilder).call exChainK = .ok e := by
  have h1 : PlainChain exChainK ⟨"K*", "K^*", 1, some (-1), 9/10, 1/20⟩ true := rfl
  have h2 : NumberedFinalState exChainK := by
    show [(2 : ℤ), 3, 1].Perm [1, 2, 3]
    decide
  refine ⟨h1, h2, (C42_missing_ls {} h1 h2).2 ?_⟩
  rw [ne_eq, (C42_missing_ls {} h1 h2).1]
  simp [exChainK]

/-- **C42** Every chain that the constructor returns, with a particle as resonance and final states as
its decay products, is a chain as considered here. -/
theorem C42_from_constructor {n : Node} (h : Chain.new n = .ok c) (hR : c.resonance = .particle R)
    (hp : ∀ d, n.decayNode = .ok d → ∃ a b, d.children = [.leaf a, .leaf b]) :
    ∃ first, PlainChain c R first := plain_of_new h hR hp

/-! ### C41 -/

/-- Dimensional analysis is meaningful: a change of the unit of mass by a factor `t` scales the value
of a consistent expression of dimension `d` by `t^d`. -/
theorem C41_dimension_sound {δ : Sym → ℤ → Prop} {e : Expr} {d : ℤ} (h : HasDim δ e d)
    (ι ι' : Interp) (η : Sym → ℚ) (t : ℝ) (ht : 0 < t) (hcov : Covariant ι t)
    (hf : ι'.ff = ι.ff ∧ ι'.edw = ι.edw ∧ ι'.bmom = ι.bmom)
    (hsym : ∀ s d, δ s d → ι'.sym s = (t : ℂ) ^ d * ι.sym s) :
    e.eval ι' η = (t : ℂ) ^ d * e.eval ι η := by
  have t0 : (t : ℂ) ≠ 0 := by exact_mod_cast ht.ne'
  obtain ⟨f1, f2, f3⟩ := hf
  induction h with
  | num q => simp [Expr.eval]
  | I => simp [Expr.eval]
  | sym h => simpa [Expr.eval] using hsym _ _ h
  | add _ _ h1 h2 => simp only [Expr.eval, h1, h2]; ring
  | sub _ _ h1 h2 => simp only [Expr.eval, h1, h2]; ring
  | mul _ _ h1 h2 => simp only [Expr.eval, h1, h2, zpow_add₀ t0]; ring
  | div _ _ h1 h2 =>
    simp only [Expr.eval, h1, h2, zpow_sub₀ t0]
    rw [mul_div_mul_comm]
  | neg _ h1 => simp only [Expr.eval, h1]; ring
  | pow n _ h1 => simp only [Expr.eval, h1, mul_pow]; rw [← zpow_natCast ((t : ℂ) ^ _), ← zpow_mul, mul_comm (n : ℤ)]
  | @sqrt a d _ h1 =>
    simp only [Expr.eval, h1]
    have e1 : ((t : ℂ) ^ (2 * d)) = (((t ^ d) ^ 2 : ℝ) : ℂ) := by
      push_cast; rw [← zpow_natCast, ← zpow_mul, mul_comm]; rfl
    have hp : (0 : ℝ) ≤ t ^ d := (zpow_pos ht d).le
    have e2 := sqrt_sq hp
    by_cases hz : a.eval ι η = 0
    · simp [hz]
    · have hp' : (0 : ℝ) < (t ^ d) ^ 2 := pow_pos (zpow_pos ht d) 2
      have e3 : (((t ^ d) ^ 2 : ℝ) : ℂ) ≠ 0 := by exact_mod_cast hp'.ne'
      rw [e1, Complex.cpow_def_of_ne_zero (mul_ne_zero e3 hz), Complex.log_ofReal_mul hp' hz, add_mul,
        Complex.exp_add, ← Complex.cpow_def_of_ne_zero hz, Complex.ofReal_log hp'.le,
        ← Complex.cpow_def_of_ne_zero e3, Complex.ofReal_pow, e2]
      push_cast; rfl
  | exp _ h1 => simp only [Expr.eval, h1]; simp
  | ff L _ _ _ _ h1 h2 h3 h4 =>
    simp only [Expr.eval, h1, h2, h3, h4, f1, zpow_one, zpow_neg, zpow_zero, one_mul]
    exact_mod_cast hcov.ff ..
  | edw L ph _ _ _ _ _ _ h1 h2 h3 h4 h5 h6 =>
    simp only [Expr.eval, h1, h2, h3, h4, h5, h6, f2, zpow_one, zpow_neg]
    exact_mod_cast hcov.edw ..
  | bmom _ _ _ h1 h2 h3 =>
    simp only [Expr.eval, h1, h2, h3, f3, zpow_one]
    exact_mod_cast hcov.bmom ..

theorem bare_dim (bw : BreitWignerBuilder) (c : Chain) (R : Particle) :
    HasDim SymbolDim (bareExpr bw c R) (if bw.energyDependentWidth then 0 else -2) := by
  have hs : HasDim SymbolDim (.sym (mandelstam c.spectator.index)) 2 := .sym (.mandelstam _)
  have hm : HasDim SymbolDim (.sym (massOfResonance R)) 1 := .sym (.resonanceMass _)
  have hg : HasDim SymbolDim (.sym (widthOfResonance R)) 1 := .sym (.resonanceWidth _)
  have hw : HasDim SymbolDim (Expr.edw (.sym (mandelstam c.spectator.index)) (.sym (massOfResonance R))
      (.sym (widthOfResonance R)) (.sym (massOfState c.product1.index))
      (.sym (massOfState c.product2.index)) (angularMomentum c.outgoingLs) (.sym resonanceRadius)
      bw.phsp) 1 :=
    .edw _ _ hs hm hg (.sym (.stateMass _)) (.sym (.stateMass _)) (.sym .resonanceRadius)
  unfold bareExpr
  split
  · exact .div (.mul hm hg) (.sub (.sub (.pow 2 hm) hs) (.mul (.mul hw hm) .I))
  · exact .div (.num _) (.sub (.sub (.pow 2 hm) hs) (.mul (.mul hm hg) .I))

theorem prod_dim (c : Chain) (R : Particle) (first : Bool) :
    HasDim SymbolDim ((Expr.sym (massOfState 0)) ^ 2) 2 ∧
    HasDim SymbolDim (.sym (prodA c R first)) 1 ∧ HasDim SymbolDim (.sym (prodB c R first)) 1 ∧
    HasDim SymbolDim (prodFFExpr c R first) 0 := by
  have h0 : HasDim SymbolDim ((Expr.sym (massOfState 0)) ^ 2) 2 :=
    HasDim.pow 2 (HasDim.sym (SymbolDim.stateMass 0))
  have ha : HasDim SymbolDim (.sym (prodA c R first)) 1 := by
    cases first
    · exact .sym (.stateMass _)
    · exact .sym (.resonanceMass _)
  have hb : HasDim SymbolDim (.sym (prodB c R first)) 1 := by
    cases first
    · exact .sym (.resonanceMass _)
    · exact .sym (.stateMass _)
  exact ⟨h0, ha, hb, .ff _ h0 ha hb (.sym (.parentRadius _))⟩

theorem args_mul (a b : Expr) : formFactorArgs (a * b) = formFactorArgs a ++ formFactorArgs b := rfl

theorem bare_args (bw : BreitWignerBuilder) (c : Chain) (R : Particle) :
    formFactorArgs (bareExpr bw c R) = [] := by
  unfold bareExpr
  split <;> rfl

/-- **C41** (partial: the property holds only for the form factor of the production vertex.) Without the
form factor of the decay vertex, every form factor receives a squared mass and two masses, and the
lineshape as a whole is dimensionally consistent: dimensionless with energy-dependent width, an
inverse squared mass with constant width. -/
theorem C41_production_partial (hc : PlainChain c R first) (hid : NumberedFinalState c)
    (he : bw.call c = .ok e) (hdec : bw.decayFormFactor = false) :
    (∀ a ∈ formFactorArgs e.expression, HasDim SymbolDim a.1 2 ∧ HasDim SymbolDim a.2.1 1 ∧
      HasDim SymbolDim a.2.2 1) ∧
    HasDim SymbolDim e.expression (if bw.energyDependentWidth then 0 else -2) := by
  rw [(call_ok_inv hc hid he).2.1]
  unfold builtExpr
  simp only [hdec, Bool.false_eq_true, if_false]
  obtain ⟨h1, h2, h3, h4⟩ := prod_dim c R first
  split
  · refine ⟨?_, ?_⟩
    · intro a ha
      rw [args_mul, bare_args, List.nil_append] at ha
      have : a ∈ [((Expr.sym (massOfState 0)) ^ 2, Expr.sym (prodA c R first),
        Expr.sym (prodB c R first))] := ha
      rw [List.mem_singleton] at this
      subst this
      exact ⟨h1, h2, h3⟩
    · have := HasDim.mul (bare_dim bw c R) h4
      rwa [add_zero] at this
  · exact ⟨by rw [bare_args]; simp, bare_dim bw c R⟩

/-- **C41** The form factor of the decay vertex violates the property, for every chain and every setting:
its first argument is the square of a Mandelstam variable, of dimension 4. -/
theorem C41_decay_vertex_fails (hc : PlainChain c R first) (hid : NumberedFinalState c)
    (he : bw.call c = .ok e) (hdec : bw.decayFormFactor = true) :
    (∃ a ∈ formFactorArgs e.expression, HasDim SymbolDim a.1 4 ∧ ¬ HasDim SymbolDim a.1 2) ∧
    ¬ ∃ d, HasDim SymbolDim e.expression d := by
  have hd : ∀ d, HasDim SymbolDim ((Expr.sym (mandelstam c.spectator.index)) ^ 2) d → d = 4 := by
    intro d h
    have h' : HasDim SymbolDim (.pow (.sym (mandelstam c.spectator.index)) 2) d := h
    generalize hp : Expr.pow (.sym (mandelstam c.spectator.index)) 2 = x at h'
    cases h' with
    | pow n hx =>
      injection hp with h1 h2
      subst h1 h2
      cases hx with | sym hx => rw [mandelstam_dim hx]; norm_num
    | _ => cases hp
  have h4 : HasDim SymbolDim ((Expr.sym (mandelstam c.spectator.index)) ^ 2) 4 :=
    HasDim.pow 2 (HasDim.sym (SymbolDim.mandelstam _))
  have hno : ¬ HasDim SymbolDim ((Expr.sym (mandelstam c.spectator.index)) ^ 2) 2 := by
    intro h; exact absurd (hd 2 h) (by norm_num)
  rw [(call_ok_inv hc hid he).2.1]
  unfold builtExpr
  simp only [hdec, if_true]
  have hmem : ((Expr.sym (mandelstam c.spectator.index)) ^ 2, Expr.sym (massOfState c.product1.index),
      Expr.sym (massOfState c.product2.index)) ∈ formFactorArgs (bareExpr bw c R * decFFExpr c) := by
    rw [args_mul]
    exact List.mem_append_right _ List.mem_cons_self
  have hbad : ∀ d, ¬ HasDim SymbolDim (bareExpr bw c R * decFFExpr c) d := by
    intro d h
    cases h with
    | mul _ h => cases h with | ff L h => exact hno h
  split
  · refine ⟨⟨_, (by rw [args_mul]; exact List.mem_append_left _ hmem), h4, hno⟩, ?_⟩
    · rintro ⟨d, h⟩
      cases h with
      | mul h _ => exact hbad _ h
  · exact ⟨⟨_, hmem, h4, hno⟩, fun ⟨d, h⟩ => hbad d h⟩

/-- All symbols are 1, or scaled by the factor 2 in the unit of mass. -/
noncomputable def unitInterp (scaled : Bool) : Interp where
  sym s := if scaled then
      match s.name.toList.head? with
      | some 's' => 4
      | some 'R' => 1 / 2
      | _ => 2
    else 1
  idx _ _ _ := 1
  wig _ _ _ _ := 1
  cg _ _ _ _ _ _ := 1
  ff s _ _ _ R := s * R ^ 2
  edw _ _ _ g _ _ _ _ := g
  bmom _ m1 _ := m1

/-- The constant-width and the energy-dependent lineshape of the example chain, without and with the form factor of
the decay vertex. -/
example (edw ff : Bool) :
    (∃ e, (BreitWignerBuilder.mk edw false ff "PhaseSpaceFactor").call exChainK = .ok e ∧
      HasDim SymbolDim e.expression (if edw then 0 else -2)) ∧
    ∃ e, (BreitWignerBuilder.mk edw true ff "PhaseSpaceFactor").call exChainK = .ok e ∧
      ¬ ∃ d, HasDim SymbolDim e.expression d := by
  have h1 : PlainChain exChainK ⟨"K*", "K^*", 1, some (-1), 9/10, 1/20⟩ true := rfl
  have h2 : NumberedFinalState exChainK := by
    show [(2 : ℤ), 3, 1].Perm [1, 2, 3]
    decide
  have h3 : ∀ bw : BreitWignerBuilder, ∃ e, bw.call exChainK = .ok e := by
    intro bw
    refine (C42_missing_ls bw h1 h2).2 ?_
    rw [ne_eq, (C42_missing_ls bw h1 h2).1]
    simp [exChainK]
  obtain ⟨e, he⟩ := h3 ⟨edw, false, ff, "PhaseSpaceFactor"⟩
  obtain ⟨e', he'⟩ := h3 ⟨edw, true, ff, "PhaseSpaceFactor"⟩
  exact ⟨⟨e, he, (C41_production_partial h1 h2 he rfl).2⟩, e', he', (C41_decay_vertex_fails h1 h2 he' rfl).2⟩

/-- **C41** The violation is observable: with a form factor that only depends on dimensionless
combinations, the lineshape of a chain changes when the unit of mass changes (here by a factor 2). -/
theorem C41_unit_dependence : ∃ (ι ι' : Interp) (e : DefExpr),
    ({ energyDependentWidth := true, decayFormFactor := true, productionFormFactor := true } :
      BreitWignerBuilder).call exChainK = .ok e ∧
    (∀ t : ℝ, 0 < t → Covariant ι t) ∧ (ι'.ff = ι.ff ∧ ι'.edw = ι.edw ∧ ι'.bmom = ι.bmom) ∧
    (∀ s d, SymbolDim s d → ι'.sym s = (2 : ℂ) ^ d * ι.sym s) ∧
    e.expression.eval ι' (fun _ => 0) ≠ e.expression.eval ι (fun _ => 0) := by
  have h1 : PlainChain exChainK ⟨"K*", "K^*", 1, some (-1), 9/10, 1/20⟩ true := rfl
  have h2 : NumberedFinalState exChainK := by
    show [(2 : ℤ), 3, 1].Perm [1, 2, 3]
    decide
  obtain ⟨e, he⟩ := (C42_missing_ls
      { energyDependentWidth := true, decayFormFactor := true, productionFormFactor := true } h1 h2).2 (by
    rw [ne_eq, (C42_missing_ls _ h1 h2).1]
    simp [exChainK])
  have e1 : ∀ k, (unitInterp true).sym (mandelstam k) = 4 := fun k => by
    simp [unitInterp, head_mandelstam]
  have e2 : ∀ i, (unitInterp true).sym (massOfState i) = 2 := fun i => by
    simp [unitInterp, head_state]
  have e3 : ∀ p, (unitInterp true).sym (massOfResonance p) = 2 := fun p => by
    simp [unitInterp, head_res]
  have e4 : ∀ p, (unitInterp true).sym (widthOfResonance p) = 2 := fun p => by
    simp [unitInterp, head_width]
  have e5 : (unitInterp true).sym resonanceRadius = 1 / 2 := by
    simp [unitInterp, head_radius]
  have e6 : ∀ p, (unitInterp true).sym (parentRadius p) = 1 / 2 := fun p => by
    simp [unitInterp, head_parent]
  have e0 : ∀ s, (unitInterp false).sym s = 1 := fun s => by simp [unitInterp]
  refine ⟨unitInterp false, unitInterp true, e, he, ?_, ⟨rfl, rfl, rfl⟩, ?_, ?_⟩
  · intro t ht
    have t0 : (t : ℂ) ≠ 0 := by exact_mod_cast ht.ne'
    refine ⟨fun s m1 m2 L R => ?_, fun _ _ _ _ _ _ _ _ => rfl, fun _ _ _ => rfl⟩
    simp only [unitInterp]
    push_cast
    field_simp
  · intro s d h
    rw [e0, mul_one]
    cases h with
    | mandelstam k => rw [e1]; norm_num
    | stateMass i => rw [e2]; norm_num
    | resonanceMass p => rw [e3]; norm_num
    | resonanceWidth p => rw [e4]; norm_num
    | resonanceRadius => rw [e5]; norm_num
    | parentRadius p => rw [e6]; norm_num
  · rw [C42_value h1 h2 he, C42_value h1 h2 he]
    simp only [lineshapeValue, e1, e2, e3, e4, e5, e6, e0, if_true, breitWignerValue]
    have f1 : ∀ s m1 m2 L R, (unitInterp true).ff s m1 m2 L R = s * R ^ 2 := fun _ _ _ _ _ => rfl
    have f2 : ∀ s m1 m2 L R, (unitInterp false).ff s m1 m2 L R = s * R ^ 2 := fun _ _ _ _ _ => rfl
    have f3 : ∀ ph s m0 g m1 m2 L R, (unitInterp true).edw ph s m0 g m1 m2 L R = g :=
      fun _ _ _ _ _ _ _ _ => rfl
    have f4 : ∀ ph s m0 g m1 m2 L R, (unitInterp false).edw ph s m0 g m1 m2 L R = g :=
      fun _ _ _ _ _ _ _ _ => rfl
    simp only [f1, f2, f3, f4]
    norm_num
    intro h
    have := congrArg Complex.im h
    norm_num at this

/-! ### C67 -/

/-- **C67** The lineshape classes are dimensionally consistent for arguments of the right dimensions:
`RelativisticBreitWigner` is dimensionless, the others are inverse squared masses. -/
theorem C67_dimensions (δ : Sym → ℤ → Prop) (s m0 g0 g1 g2 m1 m2 ma mb mTop mSpec R R' γ : Expr)
    (L L' : ℤ) (ph : String) (hs : HasDim δ s 2) (hm0 : HasDim δ m0 1) (hg0 : HasDim δ g0 1)
    (hg1 : HasDim δ g1 1) (hg2 : HasDim δ g2 1) (hm1 : HasDim δ m1 1) (hm2 : HasDim δ m2 1)
    (hma : HasDim δ ma 1) (hmb : HasDim δ mb 1) (hT : HasDim δ mTop 1) (hS : HasDim δ mSpec 1)
    (hR : HasDim δ R (-1)) (hR' : HasDim δ R' (-1)) (hγ : HasDim δ γ (-2)) :
    HasDim δ (relativisticBreitWigner s m0 g0 m1 m2 L R ph) 0 ∧
    HasDim δ (simpleBreitWigner s m0 g0) (-2) ∧
    HasDim δ (breitWigner s m0 g0 m1 m2 L R ph) (-2) ∧
    HasDim δ (breitWignerMinL s mTop mSpec m0 g0 m1 m2 L L' R R' ph) (-2) ∧
    HasDim δ (buggBreitWigner s m0 g0 m1 m2 γ) (-2) ∧
    HasDim δ (flatteSWave s m0 g1 g2 m1 m2 ma mb) (-2) ∧
    HasDim δ (ChannelArguments.evaluate ⟨s, m0, g0, m1, m2, L, R⟩) 1 := by
  have hm2' : HasDim δ (m0 ^ 2) 2 := HasDim.pow 2 hm0
  have hT2 : HasDim δ (mTop ^ 2) 2 := HasDim.pow 2 hT
  have hw : HasDim δ (.edw s m0 g0 m1 m2 L R ph) 1 := .edw _ _ hs hm0 hg0 hm1 hm2 hR
  have hsq : HasDim δ (.sqrt s) 1 := .sqrt hs
  have simple : ∀ g, HasDim δ g 1 → HasDim δ (simpleBreitWigner s m0 g) (-2) := fun g hg =>
    HasDim.div (HasDim.num _) (HasDim.sub (HasDim.sub hm2' hs) (HasDim.mul (HasDim.mul hm0 hg) HasDim.I))
  refine ⟨?_, simple g0 hg0, ?_, ?_, ?_, ?_, ?_⟩
  · exact HasDim.div (HasDim.mul hm0 hg0)
      (HasDim.sub (HasDim.sub hm2' hs) (HasDim.mul (HasDim.mul hw hm0) HasDim.I))
  · unfold breitWigner breitWignerWidth
    split
    · exact simple _ hg0
    · exact simple _ hw
  · exact HasDim.mul (HasDim.mul (HasDim.div (HasDim.ff _ hT2 hsq hS hR') (HasDim.ff _ hT2 hm0 hS hR'))
      (HasDim.div (HasDim.num _)
        (HasDim.sub (HasDim.sub hm2' hs) (HasDim.mul (HasDim.mul HasDim.I hm0) hw))))
      (HasDim.div (HasDim.ff _ hs hm1 hm2 hR) (HasDim.ff _ hm2' hm1 hm2 hR))
  · have hA : HasDim δ (m1 ^ 2 - m2 ^ 2 / 2) 2 :=
      HasDim.sub (HasDim.pow 2 hm1) (HasDim.div (HasDim.pow 2 hm2) (HasDim.num _))
    have hG : HasDim δ (((s - (m1 ^ 2 - m2 ^ 2 / 2)) / (m0 ^ 2 - (m1 ^ 2 - m2 ^ 2 / 2))) *
        (m0 * g0 * Expr.exp (-γ * s))) 2 :=
      HasDim.mul (HasDim.div (HasDim.sub hs hA) (HasDim.sub hm2' hA))
        (HasDim.mul (HasDim.mul hm0 hg0) (HasDim.exp (HasDim.mul (HasDim.neg hγ) hs)))
    exact HasDim.div (HasDim.num _) (HasDim.sub (HasDim.sub hm2' hs) (HasDim.mul HasDim.I hG))
  · have hp : HasDim δ (.bmom s m1 m2) 1 := .bmom hs hm1 hm2
    have hq : HasDim δ (.bmom s ma mb) 1 := .bmom hs hma hmb
    have hq0 : HasDim δ (.bmom (m0 ^ 2) ma mb) 1 := .bmom hm2' hma hmb
    have f : ∀ x, HasDim δ x 1 →
        HasDim δ (x / Expr.bmom (m0 ^ 2) ma mb * m0 / Expr.sqrt s) 0 := fun x hx =>
      HasDim.div (HasDim.mul (HasDim.div hx hq0) hm0) hsq
    exact HasDim.div (HasDim.num _) (HasDim.sub (HasDim.sub hm2' hs)
      (HasDim.mul (HasDim.mul HasDim.I hm0)
        (HasDim.add (HasDim.mul hg1 (f _ hp)) (HasDim.mul hg2 (f _ hq)))))
  · exact HasDim.mul (HasDim.div (HasDim.mul hg0 hm0) hsq) (HasDim.pow 2 (HasDim.ff _ hs hm1 hm2 hR))

/-- **C67** Dimensions are unique where those of the symbols are, so the result is not vacuous. -/
theorem C67_dimension_unique {δ : Sym → ℤ → Prop} (hδ : ∀ s d d', δ s d → δ s d' → d = d') {e : Expr}
    {d d' : ℤ} (h : HasDim δ e d) (h' : HasDim δ e d') : d = d' := by
  induction h generalizing d' with
  | num q => cases h'; rfl
  | I => cases h'; rfl
  | sym h => cases h' with | sym h' => exact hδ _ _ _ h h'
  | add _ _ h1 _ => cases h' with | add h3 _ => exact h1 h3
  | sub _ _ h1 _ => cases h' with | sub h3 _ => exact h1 h3
  | mul _ _ h1 h2 => cases h' with | mul h3 h4 => rw [h1 h3, h2 h4]
  | div _ _ h1 h2 => cases h' with | div h3 h4 => rw [h1 h3, h2 h4]
  | neg _ h1 => cases h' with | neg h3 => exact h1 h3
  | pow n _ h1 => cases h' with | pow _ h3 => rw [h1 h3]
  | sqrt _ h1 => cases h' with | sqrt h3 => have := h1 h3; omega
  | exp _ _ => cases h'; rfl
  | ff => cases h'; rfl
  | edw => cases h'; rfl
  | bmom => cases h'; rfl

example : HasDim SymbolDim (.sym (mandelstam 1)) 2 ∧ HasDim SymbolDim (.sym (massOfState 1)) 1 ∧
    HasDim SymbolDim (.sym resonanceRadius) (-1) ∧
    HasDim SymbolDim (.div (.num 1) (.sym (mandelstam 1))) (-2) :=
  ⟨.sym (.mandelstam 1), .sym (.stateMass 1), .sym .resonanceRadius,
    HasDim.div (HasDim.num 1) (HasDim.sym (SymbolDim.mandelstam 1))⟩

/-! ### C68 -/

/-- **C68** `BuggBreitWigner` has the closed form `1/(m0² - s - i g²(s))` with
`g²(s) = (s - s_A)/(m0² - s_A) m0 Γ0 exp(-γ s)` and Adler zero `s_A = m1² - m2²/2`. -/
theorem C68_bugg_closed_form (ι : Interp) (η : Sym → ℚ) (s m0 g0 m1 m2 γ : Expr) :
    let sA := m1.eval ι η ^ 2 - m2.eval ι η ^ 2 / 2
    (buggBreitWigner s m0 g0 m1 m2 γ).eval ι η =
      1 / (m0.eval ι η ^ 2 - s.eval ι η - Complex.I * ((s.eval ι η - sA) / (m0.eval ι η ^ 2 - sA) *
        (m0.eval ι η * g0.eval ι η * Complex.exp (-γ.eval ι η * s.eval ι η)))) := by
  intro sA
  simp only [buggBreitWigner]
  rw [eval_div, eval_one]
  simp only [eval_sub, eval_pow, eval_mul, eval_div, eval_neg, Expr.eval, sA]
  rw [show (((2 : ℕ) : ℚ) : ℂ) = 2 by norm_num]

/-- **C68** For real parameters with `m0² > s_A` and `m0 Γ0 ≠ 0`: the lineshape is real exactly at the
Adler zero, has no pole at any other real `s`, and has the value `i exp(γ m0²)/(m0 Γ0)` at the pole mass. -/
theorem C68_bugg_adler_zero (ι : Interp) (η : Sym → ℚ) (s m0 g0 m1 m2 γ : Expr)
    (x m Γ a b g : ℝ) (hs : s.eval ι η = x) (hm : m0.eval ι η = m) (hg : g0.eval ι η = Γ)
    (ha : m1.eval ι η = a) (hb : m2.eval ι η = b) (hγ : γ.eval ι η = g)
    (hA : a ^ 2 - b ^ 2 / 2 < m ^ 2) (hmg : m * Γ ≠ 0) :
    let A := (buggBreitWigner s m0 g0 m1 m2 γ).eval ι η
    (A.im = 0 ↔ x = a ^ 2 - b ^ 2 / 2) ∧ A ≠ 0 ∧
    (x = m ^ 2 → A = Complex.I * Real.exp (g * m ^ 2) / (m * Γ)) := by
  intro A
  set sA : ℝ := a ^ 2 - b ^ 2 / 2 with hsA
  set W : ℝ := (x - sA) / (m ^ 2 - sA) * (m * Γ * Real.exp (-g * x)) with hW
  have hpos : 0 < m ^ 2 - sA := by linarith
  have hval : A = 1 / (((m ^ 2 - x : ℝ) : ℂ) - Complex.I * (W : ℂ)) := by
    show (buggBreitWigner s m0 g0 m1 m2 γ).eval ι η = _
    rw [C68_bugg_closed_form, hs, hm, hg, ha, hb, hγ, hW, hsA]
    push_cast
    rfl
  have hWz : W = 0 ↔ x = sA := by
    rw [hW, mul_eq_zero, div_eq_zero_iff]
    constructor
    · rintro ((h | h) | h)
      · linarith
      · exact absurd h hpos.ne'
      · exact absurd h (mul_ne_zero hmg (Real.exp_pos _).ne')
    · rintro rfl; simp
  have re_of : ∀ D W : ℝ, ((D : ℂ) - Complex.I * (W : ℂ)).re = D := by intros; simp
  have im_of : ∀ D W : ℝ, ((D : ℂ) - Complex.I * (W : ℂ)).im = -W := by intros; simp
  have hden : ((m ^ 2 - x : ℝ) : ℂ) - Complex.I * (W : ℂ) ≠ 0 := by
    intro h
    have h1 := congrArg Complex.re h
    have h2 := congrArg Complex.im h
    rw [re_of, Complex.zero_re] at h1
    rw [im_of, Complex.zero_im, neg_eq_zero, hWz] at h2
    linarith
  have him : A.im = W / Complex.normSq (((m ^ 2 - x : ℝ) : ℂ) - Complex.I * (W : ℂ)) := by
    rw [hval, one_div, Complex.inv_im, im_of, neg_neg]
  refine ⟨?_, ?_, ?_⟩
  · rw [him, div_eq_zero_iff, hWz]
    constructor
    · rintro (h | h)
      · exact h
      · exact absurd (Complex.normSq_eq_zero.1 h) hden
    · exact .inl
  · rw [hval]; exact one_div_ne_zero hden
  · rintro rfl
    have hW' : W = m * Γ * Real.exp (-g * m ^ 2) := by
      rw [hW, div_self hpos.ne', one_mul]
    rw [hval, hW']
    have e1 : (Real.exp (-g * m ^ 2) : ℂ) * Real.exp (g * m ^ 2) = 1 := by
      rw [← Complex.ofReal_mul, ← Real.exp_add]; simp
    have hm' : (m : ℂ) ≠ 0 := by
      intro h; apply hmg; rw [Complex.ofReal_eq_zero.1 h, zero_mul]
    have hg' : (Γ : ℂ) ≠ 0 := by
      intro h; apply hmg; rw [Complex.ofReal_eq_zero.1 h, mul_zero]
    have e2 : (Real.exp (-g * m ^ 2) : ℂ) ≠ 0 := by
      exact_mod_cast (Real.exp_pos _).ne'
    rw [sub_self, Complex.ofReal_zero, zero_sub, div_eq_div_iff (by simp [hm', hg'])
      (mul_ne_zero hm' hg')]
    push_cast at e1 ⊢
    linear_combination (-(m * Γ : ℂ)) * e1 + (m * Γ * Complex.exp (g * m ^ 2) * Complex.exp (-g * m ^ 2) : ℂ) * Complex.I_sq

example : ((1 : ℝ) ^ 2 - 1 ^ 2 / 2 < 3 ^ 2) ∧ ((3 : ℝ) * (1 / 10) ≠ 0) := by norm_num

end Verif.ThreeBody
