import Verif.Props.Division
import Verif.Props.SerialClosure

/-! Property C81 for deserialized models. -/
namespace Verif.Serialization
open Verif Verif.ThreeBody Verif.Spec Verif.Spin

variable {m : ModelDefinition} {tl : String → String} {add : Option (PyDict String PropagatorBuilder)}
  {D : Distribution} {rd : ChainDefinition → Reading} {ref : ℤ} {cl : Bool} {a : AmplitudeModel} {ι : Interp}

theorem undivided_recoupling {n k : ℕ} {e : Expr} (h : formulateRecoupling m n k = .ok e) : e.Undivided := by
  unfold formulateRecoupling at h
  simp only [bind_ok] at h
  obtain ⟨cs, -, c, -, h⟩ := h
  split at h
  · cases h
  · split at h
    · cases h
    · simp only [bind_ok] at h
      obtain ⟨v, hv, ⟨x, y⟩, hab, h⟩ := h
      split at h
      · cases hh : v.helicities with
        | none => rw [hh] at h; cases h
        | some l =>
          simp only [hh, bind_ok] at h
          obtain ⟨hs, -, ⟨a0, b0⟩, -, h⟩ := h
          split at h
          · simp only [bind_ok] at h
            obtain ⟨f, -, h⟩ := h
            cases h
            exact ⟨⟨trivial, trivial⟩, ⟨trivial, trivial⟩, trivial⟩
          · cases h
            exact ⟨trivial, trivial⟩
      · split at h
        · cases hl : v.l with
          | none => rw [hl] at h; cases h
          | some l =>
            cases hs : v.s with
            | none => rw [hl, hs] at h; cases h
            | some s =>
              simp only [hl, hs, bind_ok] at h
              obtain ⟨l', -, s', -, cs, -, ⟨ja, jb⟩, -, j, -, h⟩ := h
              injection h with h
              subst h
              exact ⟨⟨trivial, trivial⟩, trivial⟩
        · cases h

theorem undivided_formFactor {v : Vertex} {e : DefExpr} (h : formulateFormFactor v m = .ok e) :
    e.expression.Undivided := by
  rcases formFactor_ok.1 h with ⟨-, rfl⟩ | ⟨name, f, s, x, y, m1, m2, R, L, radius, -, -, -, -, -, -, -, -, -,
    -, -, rfl⟩
  · trivial
  · exact ⟨trivial, trivial, trivial, trivial⟩

theorem safe_foldl {η : Sym → ℚ} {ds : List DefExpr} : ∀ {d : DefExpr},
    (∀ x ∈ ds, x.expression.Undivided) → NoZeroDivision ι η d.expression →
    NoZeroDivision ι η (ds.foldl (fun a x => a.mul (.defined x)) d).expression := by
  induction ds with
  | nil => intro d _ h; exact h
  | cons x t ih =>
    intro d hx h
    exact ih (fun y hy => hx y (List.mem_cons_of_mem _ hy))
      ⟨h, Expr.undivided_safe _ _ (hx x (List.mem_cons_self ..))⟩

theorem safe_chainData {cs : List ChainDefinition} (hm : getDecayChains m = .ok cs) {n : ℕ}
    {c : ChainDefinition} (hc : cs[n]? = some c)
    (hl : ∀ d, formulateDynamics c m tl add = .ok d → ∀ η, NoZeroDivision ι η d.expression)
    {k : ℤ} {e : Expr} {P : PyDict Key Val} {θ : Sym × RExpr} (h : ChainData m tl add n k e P θ)
    (η : Sym → ℚ) : NoZeroDivision ι η e := by
  have h := h.ok
  unfold formulateChainAmplitude at h
  rw [hm] at h
  simp only [bind_ok] at h
  obtain ⟨cs', hcs', c', hc', d', h3, d'', h4, w', h5, ij, h6, θ', h7, jR, h8, r', h9, k', h10, hp, h11, hdec,
    h12, u, h13, h14⟩ := h
  cases hcs'
  rw [item_ok, hc] at hc'
  injection hc' with hc'
  subst hc'
  obtain ⟨ds', hds', rfl⟩ := formFactors_ok.1 h4
  injection h14 with h14
  injection h14 with e1 e2 e3 e4
  rw [← e2, Expr.safe_substHel]
  refine ⟨⟨⟨⟨trivial, ?_⟩, ?_⟩, trivial⟩, safe_foldl (fun x hx => ?_) (hl _ h3 _)⟩
  · exact Expr.undivided_safe _ _ (undivided_recoupling h11)
  · exact Expr.undivided_safe _ _ (undivided_recoupling h12)
  · obtain ⟨v, -, hvx⟩ := Qrules.forall₂_mem_right hds' hx
    exact undivided_formFactor hvx

theorem stored_nodup {K : ℕ → ℤ} {E : ℕ → Expr} {P : ℕ → PyDict Key Val} {Θ : ℕ → Sym × RExpr}
    (ps : List ((ℚ × ℚ × ℚ × ℚ) × ℕ)) : ∀ acc : Acc, (PyDict.keys acc.amplitudes).Nodup →
      (PyDict.keys (ps.foldl (loopStep K E P Θ) acc).amplitudes).Nodup := by
  induction ps with
  | nil => exact fun _ h => h
  | cons y t ih => exact fun acc h => ih _ (PyDict.nodup_set h _ _)

/-- C81: the full expression of a deserialized model contains no division by zero at points at which
the lineshapes of the chains contain none. -/
theorem C81_deserialized (hm : ReadsModel m D rd)
    (href : IsSpectator D.referenceTopology ref) (href' : ref ∈ ([1, 2, 3] : List ℤ))
    (h : formulate m cl tl add = .ok a)
    (hl : ∀ c ∈ D.chains, ∀ d, formulateDynamics c m tl add = .ok d → ∀ η, NoZeroDivision ι η d.expression)
    (η : Sym → ℚ) : NoZeroDivision ι η a.fullExpression := by
  obtain ⟨K, E, P, Θ, ref', ids, zetas, terms, hf⟩ := formulate_inv hm.head hm.kinematics h
  have : ref' = ref := href.2 _ (((C52_spectator _).1 _).1 hf.reference).1
  subst this
  have hval : ∀ x e, PyDict.get? a.amplitudes x = some e → ∀ η, NoZeroDivision ι η e := by
    intro x e he
    rw [hf.amplitudes] at he
    refine stored_invariant (Q := fun e => ∀ η, NoZeroDivision ι η e) (fun _ => trivial)
      (fun _ _ h1 h2 η => ⟨h1 η, h2 η⟩) _ ?_ {} (by intro x e h; cases h) x e he
    intro y hy η
    obtain ⟨c, hc, hmem, -⟩ := pair_chain hm hf hy
    rw [Expr.safe_substHel]
    exact safe_chainData (chains_ok hm.head) hc (hl c hmem) (hf.table y hy).data _
  refine Expr.safe_xreplace _ ?_ _ (Expr.flat_doit _ _) (Expr.undivided_doit _ _ ?_)
  · intro x hx
    obtain ⟨y, hy, rfl⟩ := List.mem_map.1 hx
    apply Expr.safe_doit
    have hnd : (PyDict.keys a.amplitudes).Nodup := by
      rw [hf.amplitudes]
      exact stored_nodup _ _ (by simp [PyDict.keys])
    exact hval y.1 y.2 (PyDict.get?_of_mem hnd hy) _
  · have hint : a.intensity = serialIntensity a.decay (ids.map (alignTerm ref' (spins a.decay)
        fun i => .sym (lambdaSym i))) cl := by rw [hf.intensity, (aligned_terms hf href').1]
    rw [hint]
    have : (Expr.addAll (ids.map (alignTerm ref' (spins a.decay) fun i => .sym (lambdaSym i)))).Undivided := by
      refine (Expr.undivided_addAll _).2 ?_
      intro e he
      obtain ⟨k, -, rfl⟩ := List.mem_map.1 he
      exact undivided_alignTerm _ _ _ _
    cases cl
    · exact this
    · have h2 : (serialAligned a.decay (ids.map (alignTerm ref' (spins a.decay)
          fun i => .sym (lambdaSym i)))).cleanup.Undivided := Expr.undivided_cleanup this
      exact Expr.undivided_cleanup (e := .psum (.pow (.abs _) 2) _) h2

/-- C81: the lineshape of a `BreitWigner` function contains a division by zero exactly at
`s = m² - i m Γ(s)`. -/
theorem C81_serial_breit_wigner {p : Propagator} {R : String} {i j k : ℤ} (hn : p.node = [.id i, .id j])
    (hp : [i, j, k].Perm [1, 2, 3]) {e : DefExpr} (h : formulateBreitWigner p R m = .ok e) :
    ∃ f, FunctionNamed m p.parametrization f ∧ ∀ L : ℤ, PyDict.get? f.fields "l" = some (L : ℚ) → ∀ ι η,
      (NoZeroDivision ι η e.expression ↔ ι.sym (massNamed R) ^ 2 - ι.sym (mandelstam k) -
        Complex.I * ι.sym (massNamed R) * ι.edw "PhaseSpaceFactor" (ι.sym (mandelstam k))
          (ι.sym (massNamed R)) (ι.sym (widthNamed R)) (ι.sym (massOfState i)) (ι.sym (massOfState j)) L
          (ι.sym resonanceRadius) ≠ 0) := by
  obtain ⟨f, i', j', s, m1, m2, L', mass, width, ma, mb, d, h1, h2, h3, h4, h5, h6, -, -, -, -, -, rfl⟩ :=
    breitWigner_ok.1 h
  refine ⟨f, functionNamed_iff.1 h1, fun L hL ι η => ?_⟩
  rw [hL] at h6
  cases h6
  rw [hn] at h2
  cases h2
  cases h4
  cases h5
  rw [mandelstam_of hn hp] at h3
  cases h3
  unfold breitWigner breitWignerWidth
  rw [if_neg (by rintro ⟨-, h, -⟩; cases h), pyInt_of rfl]
  constructor
  · intro h
    refine fun h' => h.2.2 (Eq.trans ?_ h')
    show ι.sym (massNamed R) ^ 2 - ι.sym (mandelstam k) - ι.sym (massNamed R) *
      ι.edw "PhaseSpaceFactor" (ι.sym (mandelstam k)) (ι.sym (massNamed R)) (ι.sym (widthNamed R))
        (ι.sym (massOfState i)) (ι.sym (massOfState j)) L (ι.sym resonanceRadius) * Complex.I = _
    ring
  · intro h
    refine ⟨trivial, ⟨⟨trivial, trivial⟩, ⟨trivial, ⟨trivial, trivial, trivial, trivial, trivial, trivial⟩⟩,
      trivial⟩, fun h' => h (Eq.trans ?_ h')⟩
    show _ = ι.sym (massNamed R) ^ 2 - ι.sym (mandelstam k) - ι.sym (massNamed R) *
      ι.edw "PhaseSpaceFactor" (ι.sym (mandelstam k)) (ι.sym (massNamed R)) (ι.sym (widthNamed R))
        (ι.sym (massOfState i)) (ι.sym (massOfState j)) L (ι.sym resonanceRadius) * Complex.I
    ring

theorem safe_width {η : Sym → ℚ} (cs : List ChannelArguments) : ∀ a : Expr,
    NoZeroDivision ι η (cs.foldl (fun acc c => acc + c.evaluate) a) ↔
      NoZeroDivision ι η a ∧ ∀ c ∈ cs, NoZeroDivision ι η c.evaluate := by
  induction cs with
  | nil => simp
  | cons c t ih =>
    intro a
    rw [List.foldl_cons, ih]
    simp only [List.mem_cons, forall_eq_or_imp, ← and_assoc]
    exact Iff.rfl

/-- C81: the lineshape of a `MultichannelBreitWigner` function contains a division by zero exactly
at `s = 0` and at `s = m² - i m Γ(s)`. -/
theorem C81_multichannel {p : Propagator} {R : String} {i j k : ℤ} (hn : p.node = [.id i, .id j])
    (hp : [i, j, k].Perm [1, 2, 3]) {e : DefExpr} (h : formulateMultichannelBreitWigner p R m = .ok e) :
    ∃ f c cs, FunctionNamed m p.parametrization f ∧ f.channels = some (c :: cs) ∧ cs ≠ [] ∧
      ∀ (L : ℤ) (Ls : List ℤ), PyDict.get? c "l" = some (L : ℚ) →
        List.Forall₂ (fun (c : PyDict String ℚ) (L : ℤ) => PyDict.get? c "l" = some (L : ℚ)) cs Ls →
        ∀ ι η, (NoZeroDivision ι η e.expression ↔ ι.sym (mandelstam k) ≠ 0 ∧
          ι.sym (massNamed R) ^ 2 - ι.sym (mandelstam k) -
            Complex.I * ι.sym (massNamed R) * multichannelWidthValue ι R i j k L Ls ≠ 0) := by
  obtain ⟨f, c1, c2, cs, i', j', s, m1, m2, L', mass, gsq, ma, mb, d, r, h1, hc, h2, h3, h4, h5, h6, -, -, -, -, -,
    h12, rfl⟩ := multichannel_ok h
  refine ⟨f, c1, c2 :: cs, functionNamed_iff.1 h1, hc, by simp, fun L Ls hL hLs ι η => ?_⟩
  rw [hL] at h6
  cases h6
  rw [hn] at h2
  cases h2
  cases h4
  cases h5
  rw [mandelstam_of hn hp] at h3
  cases h3
  have hr := channelLoop_channels h12 hLs
  rw [pyInt_of rfl] at hr
  have hsum : (multichannelWidth r.1).eval ι η = multichannelWidthValue ι R i j k L Ls := by
    unfold multichannelWidth
    rw [multichannelWidth_eval, hr, List.map_append, List.sum_append]
    simp only [List.map_cons, List.map_nil, List.sum_cons, List.sum_nil, add_zero, List.map_map]
    refine (congrArg (· + _) ?_).trans (zero_add _)
    simp
  have hsafe : NoZeroDivision ι η (multichannelWidth r.1) ↔ ι.sym (mandelstam k) ≠ 0 := by
    unfold multichannelWidth
    rw [safe_width]
    have hone : ∀ (w a b d : Sym) (L : ℤ), NoZeroDivision ι η (ChannelArguments.evaluate
        ⟨.sym (mandelstam k), .sym (resonanceMass R), .sym w, .sym a, .sym b, L, .sym d⟩) ↔
          ι.sym (mandelstam k) ≠ 0 := by
      intro w a b d L
      constructor
      · intro h h0
        refine h.1.2.2 ?_
        show ι.sym (mandelstam k) ^ (1 / 2 : ℂ) = 0
        rw [h0, Complex.zero_cpow (by norm_num)]
      · intro h
        refine ⟨⟨⟨trivial, trivial⟩, trivial, ?_⟩, trivial, trivial, trivial, trivial⟩
        show ι.sym (mandelstam k) ^ (1 / 2 : ℂ) ≠ 0
        rw [Complex.cpow_def_of_ne_zero h]
        exact Complex.exp_ne_zero _
    constructor
    · intro h
      have h := h.2
      rw [hr] at h
      exact (hone _ _ _ _ _).1 (h _ (List.mem_append_left _ (List.mem_cons_self ..)))
    · intro h
      refine ⟨trivial, fun c hc => ?_⟩
      rw [hr, List.mem_append] at hc
      rcases hc with hc | hc
      · rw [List.mem_singleton.1 hc]; exact (hone _ _ _ _ _).2 h
      · obtain ⟨x, -, rfl⟩ := List.mem_map.1 hc
        exact (hone _ _ _ _ _).2 h
  have hden : ι.sym (massNamed R) ^ 2 - ι.sym (mandelstam k) -
      ι.sym (massNamed R) * multichannelWidthValue ι R i j k L Ls * Complex.I =
      ι.sym (massNamed R) ^ 2 - ι.sym (mandelstam k) -
            Complex.I * ι.sym (massNamed R) * multichannelWidthValue ι R i j k L Ls := by ring
  have hw : breitWignerWidth (.sym (mandelstam k)) (.sym (resonanceMass R)) (multichannelWidth r.1) 0 0 0 1
      "PhaseSpaceFactor" = multichannelWidth r.1 := by
    unfold breitWignerWidth
    rw [if_pos ⟨rfl, rfl, rfl⟩]
  show NoZeroDivision ι η (simpleBreitWigner (.sym (mandelstam k)) (.sym (resonanceMass R)) (breitWignerWidth
    (.sym (mandelstam k)) (.sym (resonanceMass R)) (multichannelWidth r.1) 0 0 0 1 "PhaseSpaceFactor")) ↔ _
  rw [hw, ← hsafe, ← hden, ← hsum]
  constructor
  · intro h
    exact ⟨h.2.1.2.1.2, h.2.2⟩
  · intro h
    exact ⟨trivial, ⟨⟨trivial, trivial⟩, ⟨trivial, h.1⟩, trivial⟩, h.2⟩

/-- C81: without custom builders, a deserialized model can be evaluated without division by zero
wherever the Mandelstam variables are real (and not zero for multichannel chains) and the masses and
widths of the resonances are positive. -/
theorem C81_deserialized_physical (hm : ReadsModel m D rd)
    (href : IsSpectator D.referenceTopology ref) (href' : ref ∈ ([1, 2, 3] : List ℤ))
    (h : formulate m cl tl none = .ok a)
    (hl : ∀ c ∈ D.chains, ∃ p i j k f, c.propagators = [p] ∧ p.node = [.id i, .id j] ∧
      [i, j, k].Perm [1, 2, 3] ∧ FunctionNamed m p.parametrization f ∧
      ∃ s M Γ : ℝ, ι.sym (mandelstam k) = s ∧ ι.sym (massNamed (tl c.name)) = M ∧ 0 < M ∧ 0 < Γ ∧
        ((f.type = "BreitWigner" ∧ ∃ L : ℤ, PyDict.get? f.fields "l" = some (L : ℚ) ∧
          ι.edw "PhaseSpaceFactor" s M (ι.sym (widthNamed (tl c.name))) (ι.sym (massOfState i))
            (ι.sym (massOfState j)) L (ι.sym resonanceRadius) = Γ) ∨
        (f.type = "MultichannelBreitWigner" ∧ s ≠ 0 ∧ ∃ (d : PyDict String ℚ) (ds : List (PyDict String ℚ))
          (L : ℤ) (Ls : List ℤ), f.channels = some (d :: ds) ∧ PyDict.get? d "l" = some (L : ℚ) ∧
            List.Forall₂ (fun (c : PyDict String ℚ) (L : ℤ) => PyDict.get? c "l" = some (L : ℚ)) ds Ls ∧
            multichannelWidthValue ι (tl c.name) i j k L Ls = Γ)))
    (η : Sym → ℚ) : NoZeroDivision ι η a.fullExpression := by
  refine C81_deserialized hm href href' h (fun c hc d hd η => ?_) η
  obtain ⟨p, i, j, k, f, hp, hn, hperm, hf, s, M, Γ, hs, hM, hM0, hΓ, hfin⟩ := hl c hc
  unfold formulateDynamics at hd
  rw [hp] at hd
  unfold dynamicsLoop at hd
  rw [functionNamed_iff.2 hf] at hd
  simp only [bind, Except.bind] at hd
  cases hb : PyDict.get? (dynamicsDefinitions none) f.type with
  | none => rw [hb] at hd; cases hd
  | some b =>
    rw [hb] at hd
    simp only at hd
    cases hbe : b p (tl c.name) m with
    | error x => rw [hbe] at hd; cases hd
    | ok e =>
      rw [hbe] at hd
      cases hd
      suffices NoZeroDivision ι η e.expression from ⟨trivial, this⟩
      rcases hfin with ⟨ht, L, hL, hw⟩ | ⟨ht, hs0, d1, ds, L, Ls, hch, hL, hLs, hw⟩
      · rcases builtin_get hb with ⟨ht', rfl⟩ | ⟨ht', rfl⟩
        · obtain ⟨f', hf', h⟩ := C81_serial_breit_wigner hn hperm hbe
          have := functionNamed_iff.2 hf'
          rw [functionNamed_iff.2 hf] at this
          cases this
          rw [h L hL, hs, hM, hw]
          exact denominator_ne hM0 hΓ
        · rw [ht] at ht'
          exact absurd ht' (by decide)
      · rcases builtin_get hb with ⟨ht', rfl⟩ | ⟨ht', rfl⟩
        · rw [ht] at ht'
          exact absurd ht' (by decide)
        · obtain ⟨f', c1, cs, hf', hcs, -, h⟩ := C81_multichannel hn hperm hbe
          have := functionNamed_iff.2 hf'
          rw [functionNamed_iff.2 hf] at this
          cases this
          rw [hch] at hcs
          cases hcs
          rw [h L Ls hL hLs, hs, hM, hw]
          exact ⟨by exact_mod_cast hs0, denominator_ne hM0 hΓ⟩

/-- A point at which both example models can be evaluated: all symbols, widths and form factors are 1. -/
noncomputable def unitPoint : Interp := ⟨fun _ => 1, fun _ _ _ => 0, fun _ _ _ _ => 0, fun _ _ _ _ _ _ => 0,
  fun _ _ _ _ _ => 1, fun _ _ _ _ _ _ _ _ => 1, fun _ _ _ => 0⟩

example (cl : Bool) : ∃ a, formulate exModel cl id none = .ok a ∧
    ∀ η, NoZeroDivision unitPoint η a.fullExpression := by
  obtain ⟨a, ha⟩ := exModel_ok id cl
  refine ⟨a, ha, C81_deserialized_physical exModel_reads exModel_reference (by simp) ha ?_⟩
  intro c hc
  simp only [exDistribution, List.mem_cons, List.not_mem_nil, or_false] at hc
  have hK : FunctionNamed exModel "K892_BW" exFunctions[0] := functionNamed_iff.1 rfl
  have hL : FunctionNamed exModel "L1520_BW" exFunctions[1] := functionNamed_iff.1 rfl
  rcases hc with rfl | rfl | rfl
  · exact ⟨_, 3, 1, 2, _, rfl, rfl, by decide, hL, 1, 1, 1, Complex.ofReal_one.symm, Complex.ofReal_one.symm,
      one_pos, one_pos, .inl ⟨rfl, 2, rfl, Complex.ofReal_one.symm⟩⟩
  · exact ⟨_, 2, 3, 1, _, rfl, rfl, by decide, hK, 1, 1, 1, Complex.ofReal_one.symm, Complex.ofReal_one.symm,
      one_pos, one_pos, .inl ⟨rfl, 1, rfl, Complex.ofReal_one.symm⟩⟩
  · exact ⟨_, 2, 3, 1, _, rfl, rfl, by decide, hK, 1, 1, 1, Complex.ofReal_one.symm, Complex.ofReal_one.symm,
      one_pos, one_pos, .inl ⟨rfl, 1, rfl, Complex.ofReal_one.symm⟩⟩

example (cl : Bool) : ∃ a, formulate mcModel cl id none = .ok a ∧
    ∀ η, NoZeroDivision unitPoint η a.fullExpression := by
  obtain ⟨a, ha⟩ := mcModel_ok id cl
  refine ⟨a, ha, C81_deserialized_physical (ref := 1) mcModel_reads ⟨by simp [mcDistribution], by simp [mcDistribution]⟩
    (by simp) ha ?_⟩
  have hw : ∀ R i j k, multichannelWidthValue unitPoint R i j k 0 [0] = ((2 : ℝ) : ℂ) := by
    intro R i j k
    simp [multichannelWidthValue, unitPoint]
    norm_num
  intro c hc
  simp only [mcDistribution, List.mem_cons, List.not_mem_nil, or_false] at hc
  have hF : FunctionNamed mcModel "F0" mcModel.functions[0] := functionNamed_iff.1 rfl
  have hA : FunctionNamed mcModel "A0" mcModel.functions[1] := functionNamed_iff.1 rfl
  rcases hc with rfl | rfl
  · exact ⟨_, 2, 3, 1, _, rfl, rfl, by decide, hF, 1, 1, 2, Complex.ofReal_one.symm, Complex.ofReal_one.symm,
      one_pos, two_pos, .inr ⟨rfl, one_ne_zero, _, _, 0, [0], rfl, rfl, .cons rfl .nil, hw ..⟩⟩
  · exact ⟨_, 3, 1, 2, _, rfl, rfl, by decide, hA, 1, 1, 2, Complex.ofReal_one.symm, Complex.ofReal_one.symm,
      one_pos, two_pos, .inr ⟨rfl, one_ne_zero, _, _, 0, [0], rfl, rfl, .cons rfl .nil, hw ..⟩⟩

end Verif.Serialization
