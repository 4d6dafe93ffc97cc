import Verif.Spec.SerialUnits
import Verif.Props.SerialSpinless
import Verif.Props.SerialClosure
import Verif.Props.Units

/-! Property C104: the unit of mass of serialized models. -/
namespace Verif.Serialization
open Verif Verif.ThreeBody Verif.Spec Verif.Spin Verif.Angles

variable {m : ModelDefinition} {tl : String → String} {add : Option (PyDict String PropagatorBuilder)}
  {D : Distribution} {rd : ChainDefinition → Reading} {cl : Bool} {a : AmplitudeModel} {ref : ℤ} {ι ι' : Interp}
  {t : ℝ}

theorem rescaled_serial (hι : SerialRescaled t tl D.chains rd ι ι') :
    ∀ s ∈ providedSymbols, (ι'.sym s).re = t ^ symDim s * (ι.sym s).re := by
  refine provided_scaled (ρ := fun s => (ι.sym s).re) (ρ' := fun s => (ι'.sym s).re) ?_ ?_
  · intro i _
    have := hι.symbols _ _ (.stateMass i)
    rw [zpow_one] at this
    have e : ι'.sym ⟨"m" ++ toString i, .nonneg⟩ = t * ι.sym ⟨"m" ++ toString i, .nonneg⟩ := this
    simp only [e, Complex.re_ofReal_mul]
  · intro i _
    have e : ι'.sym ⟨"sigma" ++ toString i, .nonneg⟩ = (t : ℂ) ^ (2 : ℤ) * ι.sym ⟨"sigma" ++ toString i, .nonneg⟩ :=
      hι.symbols _ _ (.mandelstam i)
    have e2 : ((t : ℂ) ^ (2 : ℤ)) = ((t ^ 2 : ℝ) : ℂ) := by push_cast; rfl
    rw [e2] at e
    simp only [e, Complex.re_ofReal_mul]

/-- Angles that are computed from scaled masses are the same. -/
theorem angle_same (ht : 0 < t) (hprov : ∀ s ∈ providedSymbols, (ι'.sym s).re = t ^ symDim s * (ι.sym s).re)
    {x : Sym × RExpr} (hx : dimR x.2 = some 0) (hs : ∀ s ∈ kinematicSymbols x.2, s ∈ providedSymbols)
    (h : Computes ι x) (h' : Computes ι' x) : ι'.sym x.1 = ι.sym x.1 := by
  obtain ⟨v, g1, g2⟩ := h
  obtain ⟨v', g1', g2'⟩ := h'
  have := eval_dimensionless (ρ := fun s => (ι.sym s).re) (ρ' := fun s => (ι'.sym s).re) ht hx hs hprov
  rw [g1, g1'] at this
  injection this with this
  exact g2'.trans ((congrArg _ this).trans g2.symm)

theorem intensityOver_scaled {d : Decay} {S : Finset ℤ} {r : ℤ} {A A' : ℤ → (Fin 4 → ℚ) → ℂ} {z : ℂ}
    (hw : ι.wig = ι'.wig)
    (hz : ∀ k ∈ S, ∀ i : Fin 4, d.spin i ≠ 0 → ι'.sym (zetaSymbol i k r) = ι.sym (zetaSymbol i k r))
    (hA : ∀ k ∈ S, ∀ l ∈ helicities d, A' k l = z * A k l) :
    intensityOver ι' d S r A' = ‖z‖ ^ 2 * intensityOver ι d S r A := by
  unfold intensityOver
  rw [Finset.mul_sum]
  refine Finset.sum_congr rfl fun l _ => ?_
  have hrot : ∀ k ∈ S, ∀ (i : Fin 4) x y, rotation ι' d r k i x y = rotation ι d r k i x y := by
    intro k hk i x y
    unfold rotation
    split_ifs with h
    · rfl
    · rw [hz k hk i h, hw]
  have : alignedOver ι' d S r A' l = z * alignedOver ι d S r A l := by
    unfold alignedOver
    rw [Finset.mul_sum]
    refine Finset.sum_congr rfl fun l' hl' => ?_
    rw [Finset.mul_sum]
    refine Finset.sum_congr rfl fun k hk => ?_
    have R := hrot k hk
    rw [hA k hk l' hl', R, R, R, R]
    ring
  rw [this, norm_mul, mul_pow]

theorem serial_theta {r : Reading} (hr : r.Standard) {s : Sym} {e : RExpr}
    (h : formulateScatteringAngle r.i r.j = .ok (s, e)) :
    dimR e = some 0 ∧ ∀ s ∈ kinematicSymbols e, s ∈ providedSymbols := by
  have : (r.i, r.j) ∈ [((1 : ℤ), (2 : ℤ)), (2, 1), (1, 3), (3, 1), (2, 3), (3, 2)] := by
    have hr : [r.i, r.j, r.k].Perm [1, 2, 3] := hr
    have h1 := hr.subset (List.mem_cons_self ..)
    have h2 := hr.subset (List.mem_cons_of_mem _ (List.mem_cons_self ..))
    have h3 := hr.nodup_iff.2 (by decide)
    generalize r.i = i at *
    generalize r.j = j at *
    generalize r.k = k at *
    simp only [List.mem_cons, List.not_mem_nil, or_false, List.nodup_cons, not_or] at h1 h2 h3
    rcases h1 with rfl | rfl | rfl <;> rcases h2 with rfl | rfl | rfl <;> simp_all
  generalize r.i = i at *
  generalize r.j = j at *
  simp only [List.mem_cons, List.not_mem_nil, or_false, Prod.mk.injEq] at this
  rcases this with ⟨rfl, rfl⟩ | ⟨rfl, rfl⟩ | ⟨rfl, rfl⟩ | ⟨rfl, rfl⟩ | ⟨rfl, rfl⟩ | ⟨rfl, rfl⟩ <;>
    cases h <;> exact ⟨by decide +kernel, by decide +kernel⟩

/-- C104: the angles of a deserialized model do not depend on the unit of mass. -/
theorem C104_angles (hm : ReadsModel m D rd)
    (href : IsSpectator D.referenceTopology ref) (href' : ref ∈ ([1, 2, 3] : List ℤ))
    (h : formulate m cl tl add = .ok a) (ht : 0 < t) (hι : SerialRescaled t tl D.chains rd ι ι') :
    ∀ x ∈ a.angleDefs, Computes ι x → Computes ι' x → ι'.sym x.1 = ι.sym x.1 := by
  intro x hx h1 h2
  rcases serial_angleDefs hm href href' h hx with ⟨c, hc, h6, -⟩ | ⟨i, hi, k, hk, rfl⟩
  · obtain ⟨d1, d2⟩ := serial_theta (hm.reads c hc).2 h6
    exact angle_same ht (rescaled_serial hι) d1 d2 h1 h2
  · exact angle_same ht (rescaled_serial hι) (zeta_dim hi hk href') (zeta_symbols hi hk href') h1 h2

/-- If each chain is multiplied by the same number, so is the amplitude. -/
theorem serial_scaled (hm : ReadsModel m D rd) (h0 : NonnegativeSpins D)
    (href : IsSpectator D.referenceTopology ref) (href' : ref ∈ ([1, 2, 3] : List ℤ))
    (h : formulate m cl tl add = .ok a) (ht : 0 < t) (hι : SerialRescaled t tl D.chains rd ι ι')
    (ha : ∀ x ∈ a.angleDefs, Computes ι x) (ha' : ∀ x ∈ a.angleDefs, Computes ι' x)
    {line line' : ChainDefinition → ℂ} {form form' : Vertex → ℂ}
    (hv : DynamicsValues m D.chains tl add ι line form) (hv' : DynamicsValues m D.chains tl add ι' line' form')
    {z : ℂ} (hz : ∀ c ∈ D.chains, line' c * (c.vertices.map form').prod = z * (line c * (c.vertices.map form).prod))
    (η : Sym → ℚ) :
    a.fullExpression.eval ι' η = (‖z‖ ^ 2 : ℝ) * a.fullExpression.eval ι η := by
  classical
  rw [(C70_intensity_value hm h0 href href' h ι η).2, (C70_intensity_value hm h0 href href' h ι' η).2,
    ← Complex.ofReal_mul]
  obtain ⟨hθ, hζ⟩ := C71_angles_defined hm h0 href href' h
  have hprov := rescaled_serial hι
  refine congrArg _ (intensityOver_scaled hι.functions.wig ?_ ?_)
  · intro k hk i hi
    have hi4 : (i : ℤ) ∈ ([0, 1, 2, 3] : List ℤ) := by fin_cases i <;> decide
    have hk3 : k ∈ ([1, 2, 3] : List ℤ) := by
      have := (Finset.mem_filter.1 hk).1
      simpa using this
    obtain ⟨e, he, hg⟩ := hζ k hk i hi4 hi
    have hmem := PyDict.mem_of_get? hg
    have e1 : e = zetaExpr i k ref := by
      rw [zeta_eq hi4 hk3 href'] at he
      injection he with he
      exact (congrArg Prod.snd he).symm
    subst e1
    exact angle_same (x := (zetaSymbol i k ref, _)) ht hprov (zeta_dim hi4 hk3 href') (zeta_symbols hi4 hk3 href')
      (ha _ hmem) (ha' _ hmem)
  · intro k _ l hl
    rw [C60_amplitude_value hm h hv η k hl, C60_amplitude_value hm h hv' η k hl, ← List.sum_map_mul_left]
    refine congrArg List.sum (List.map_congr_left fun c hc => ?_)
    split
    · obtain ⟨e, he, hg⟩ := hθ c hc
      have hmem := PyDict.mem_of_get? hg
      have hang : ι'.sym ⟨"theta_" ++ toString (rd c).i ++ toString (rd c).j, .real⟩ =
          ι.sym ⟨"theta_" ++ toString (rd c).i ++ toString (rd c).j, .real⟩ := by
        obtain ⟨d1, d2⟩ := serial_theta (hm.reads c hc).2 he
        exact angle_same (x := (_, e)) ht hprov d1 d2 (ha _ hmem) (ha' _ hmem)
      unfold serialValue
      rw [hι.weights c hc, hang, ← hι.functions.wig, hz c hc]
      ring
    · rw [mul_zero]

/-- C104: if all lineshapes are multiplied by the same power `t ^ n` of the ratio of the units, and form factors
do not change, a change of the unit of mass multiplies the intensity by one overall factor, `t ^ (2 * n)`, for
all kinematic points and all values of the parameters. -/
theorem C104_homogeneous (hm : ReadsModel m D rd) (h0 : NonnegativeSpins D)
    (href : IsSpectator D.referenceTopology ref) (href' : ref ∈ ([1, 2, 3] : List ℤ))
    (h : formulate m cl tl add = .ok a) (ht : 0 < t) (hι : SerialRescaled t tl D.chains rd ι ι')
    (ha : ∀ x ∈ a.angleDefs, Computes ι x) (ha' : ∀ x ∈ a.angleDefs, Computes ι' x) {n : ℤ}
    (hline : ∀ c ∈ D.chains, ∀ d, formulateDynamics c m tl add = .ok d → HelicityFree d.expression ∧
      ∀ η, d.expression.eval ι' η = (t : ℂ) ^ n * d.expression.eval ι η)
    (hform : ∀ c ∈ D.chains, ∀ v ∈ c.vertices, ∀ d, formulateFormFactor v m = .ok d →
      ∀ η, d.expression.eval ι' η = d.expression.eval ι η) (η : Sym → ℚ) :
    a.fullExpression.eval ι' η = (t : ℂ) ^ (2 * n) * a.fullExpression.eval ι η := by
  have hv : ∀ ι, DynamicsValues m D.chains tl add ι (lineValue m tl add ι) (formValue m ι) := by
    intro ι
    constructor
    · intro c hc d hd η
      unfold lineValue
      simp only [hd]
      exact (hline c hc d hd).1 ι _ _
    · intro c _ v _ d hd η
      unfold formValue
      simp only [hd]
      exact free_formFactor hd ι _ _
  rw [serial_scaled hm h0 href href' h ht hι ha ha' (hv ι) (hv ι') (z := (t : ℂ) ^ n) ?_ η]
  · rw [norm_zpow, Complex.norm_real, Real.norm_of_nonneg ht.le]
    have h2 : (t : ℂ) ^ (2 * n) = (((t ^ n) ^ 2 : ℝ) : ℂ) := by
      push_cast
      rw [mul_comm, zpow_mul]
      rfl
    rw [h2]
  · intro c hc
    have e1 : lineValue m tl add ι' c = (t : ℂ) ^ n * lineValue m tl add ι c := by
      unfold lineValue
      cases hd : formulateDynamics c m tl add with
      | error x => simp
      | ok d => exact (hline c hc d hd).2 _
    have e2 : c.vertices.map (formValue m ι') = c.vertices.map (formValue m ι) := by
      refine List.map_congr_left fun v hvm => ?_
      unfold formValue
      cases hd : formulateFormFactor v m with
      | error x => rfl
      | ok d => exact hform c hc v hvm d hd _
    rw [e1, e2, mul_assoc]

/-! ### Built-in lineshapes and form factors -/

/-- The arguments of a channel have their dimensions. -/
def ChannelDim (c : ChannelArguments) : Prop :=
  HasDim SerialDim c.s 2 ∧ HasDim SerialDim c.m0 1 ∧ HasDim SerialDim c.width 1 ∧ HasDim SerialDim c.m1 1 ∧
    HasDim SerialDim c.m2 1 ∧ HasDim SerialDim c.R (-1)

theorem channelLoop_dim {R : String} {s mass d : Sym} (hs : SerialDim s 2) (hmass : SerialDim mass 1)
    (hd : SerialDim d (-1)) {n : ℕ} {cs : List (PyDict String ℚ)}
    {ch : List ChannelArguments} {P : PyDict Key Val} {r : List ChannelArguments × PyDict Key Val}
    (h : channelLoop R s mass d n cs ch P = .ok r) (hc : ∀ c ∈ ch, ChannelDim c) :
    ∀ c ∈ r.1, ChannelDim c := by
  induction cs generalizing n ch P with
  | nil => cases h; exact hc
  | cons c t ih =>
    unfold channelLoop at h
    simp only [bind_ok] at h
    obtain ⟨L, -, ma, -, mb, -, gsq, -, h⟩ := h
    refine ih h ?_
    intro c hc'
    rcases List.mem_append.1 hc' with hc' | hc'
    · exact hc c hc'
    · rw [List.mem_singleton.1 hc']
      exact ⟨.sym hs, .sym hmass, .sym (.channelWidth R n), .sym (.firstMass n), .sym (.secondMass n), .sym hd⟩

theorem bwValue_scaled (ht : 0 < t) {s m0 g s' m0' g' : ℂ} (hs : s' = (t : ℂ) ^ (2 : ℤ) * s)
    (hm : m0' = (t : ℂ) ^ (1 : ℤ) * m0) (hg : g' = (t : ℂ) ^ (1 : ℤ) * g) :
    breitWignerValue s' m0' g' = (t : ℂ) ^ (-2 : ℤ) * breitWignerValue s m0 g := by
  have t0 : (t : ℂ) ≠ 0 := by exact_mod_cast ht.ne'
  unfold breitWignerValue
  rw [hs, hm, hg, zpow_one, show ((t : ℂ) ^ (2 : ℤ)) = (t : ℂ) ^ 2 from rfl,
    show ((t : ℂ) * m0) ^ 2 - (t : ℂ) ^ 2 * s - Complex.I * (t * m0) * (t * g) =
      (t : ℂ) ^ 2 * (m0 ^ 2 - s - Complex.I * m0 * g) by ring, zpow_neg, one_div, one_div, mul_inv]
  rfl

/-- The lineshapes of one propagator have dimension -2. -/
theorem propagator_scaled {p : Propagator} {R : String} {i j k : ℤ} (hn : p.node = [.id i, .id j])
    (hp : [i, j, k].Perm [1, 2, 3]) (ht : 0 < t) (hcov : Covariant ι t)
    (hf : ι'.ff = ι.ff ∧ ι'.edw = ι.edw ∧ ι'.bmom = ι.bmom)
    (hsym : ∀ s d, SerialDim s d → ι'.sym s = (t : ℂ) ^ d * ι.sym s) {e : DefExpr}
    (h : formulateBreitWigner p R m = .ok e ∨ formulateMultichannelBreitWigner p R m = .ok e) (η : Sym → ℚ) :
    e.expression.eval ι' η = (t : ℂ) ^ (-2 : ℤ) * e.expression.eval ι η := by
  have sound : ∀ {x : Expr} {d}, HasDim SerialDim x d → x.eval ι' η = (t : ℂ) ^ d * x.eval ι η :=
    fun hx => C41_dimension_sound hx ι ι' η t ht hcov hf hsym
  rcases h with h | h
  · obtain ⟨f, i', j', s, m1, m2, L, mass, width, ma, mb, d, -, h2, h3, h4, h5, -, -, -, -, -, -, rfl⟩ :=
      breitWigner_ok.1 h
    rw [hn] at h2
    cases h2
    cases h4
    cases h5
    rw [mandelstam_of hn hp] at h3
    cases h3
    refine sound ?_
    have hs : HasDim SerialDim (.sym (mandelstam k)) 2 := .sym (.mandelstam k)
    have hm : HasDim SerialDim (.sym (resonanceMass R)) 1 := .sym (.mass R)
    have hg : HasDim SerialDim (.sym (resonanceWidth R)) 1 := .sym (.width R)
    have hi : HasDim SerialDim (.sym (massOfState i)) 1 := .sym (.stateMass i)
    have hj : HasDim SerialDim (.sym (massOfState j)) 1 := .sym (.stateMass j)
    have hr : HasDim SerialDim (.sym resRadius) (-1) := .sym .resonanceRadius
    have hγ : HasDim SerialDim (Expr.div (.num 1) (.sym (mandelstam k))) (-2) := .div (.num 1) hs
    exact (C67_dimensions SerialDim _ _ _ _ _ _ _ _ _ _ _ _ _ _ _ 0 _ hs hm hg hg hg hi hj hi hj hi hj hr hr hγ).2.2.1
  · obtain ⟨f, c1, c2, cs, i', j', s, m1, m2, L', mass, gsq, ma, mb, d, r, -, -, h2, h3, h4, h5, -, -, -, -, -, -,
      h12, rfl⟩ := multichannel_ok h
    rw [hn] at h2
    cases h2
    cases h4
    cases h5
    rw [mandelstam_of hn hp] at h3
    cases h3
    have hch := channelLoop_dim (.mandelstam k) (.mass R) (.radius R) h12 (fun c hc => by
      rw [List.mem_singleton.1 hc]
      exact ⟨.sym (.mandelstam k), .sym (.mass R), .sym (.width R), .sym (.stateMass i), .sym (.stateMass j),
        .sym (.radius R)⟩)
    have hw : (r.1.map (ThreeBody.channelWidth ι' η)).sum =
        (t : ℂ) ^ (1 : ℤ) * (r.1.map (ThreeBody.channelWidth ι η)).sum := by
      rw [← List.sum_map_mul_left]
      refine congrArg List.sum (List.map_congr_left fun c hc => ?_)
      obtain ⟨d1, d2, d3, d4, d5, d6⟩ := hch c hc
      have hsq : HasDim SerialDim (.sqrt c.s) 1 := .sqrt d1
      have hF : HasDim SerialDim (Expr.pow (.ff c.s c.m1 c.m2 c.L c.R) 2) 0 := by
        have := HasDim.pow 2 (HasDim.ff c.L d1 d4 d5 d6)
        simpa using this
      have := sound (HasDim.mul (HasDim.div (HasDim.mul d3 d2) hsq) hF)
      simpa [Expr.eval, ThreeBody.channelWidth] using this
    rw [C39_sum_of_widths, C39_sum_of_widths]
    exact bwValue_scaled ht (sound (.sym (.mandelstam k))) (sound (.sym (.mass R))) hw

/-- C104: without custom builders, the lineshape of a chain has dimension -2, and the form factor of a decay
vertex is dimensionless. -/
theorem C104_dimensions (ht : 0 < t) (hι : SerialRescaled t tl D.chains rd ι ι') (hcov : Covariant ι t) :
    (∀ (c : ChainDefinition) (p : Propagator) (i j k : ℤ) (d : DefExpr), c.propagators = [p] →
      p.node = [.id i, .id j] → [i, j, k].Perm [1, 2, 3] → formulateDynamics c m tl none = .ok d →
      ∀ η, (t : ℂ) ^ 2 * d.expression.eval ι' η = d.expression.eval ι η) ∧
    ∀ (v : Vertex) (i j k : ℤ) (d : DefExpr), v.node = [.id i, .id j] → [i, j, k].Perm [1, 2, 3] →
      formulateFormFactor v m = .ok d → ∀ η, d.expression.eval ι' η = d.expression.eval ι η := by
  have t0 : (t : ℂ) ≠ 0 := by exact_mod_cast ht.ne'
  have hf : ι'.ff = ι.ff ∧ ι'.edw = ι.edw ∧ ι'.bmom = ι.bmom :=
    ⟨hι.functions.ff.symm, hι.functions.edw.symm, hι.functions.bmom.symm⟩
  constructor
  · intro c p i j k d hc hn hp hd η
    unfold formulateDynamics at hd
    rw [hc] at hd
    unfold dynamicsLoop at hd
    simp only [bind_ok] at hd
    obtain ⟨f, -, hd⟩ := hd
    cases hb : PyDict.get? (dynamicsDefinitions none) f.type with
    | none => rw [hb] at hd; cases hd
    | some b =>
      rw [hb] at hd
      simp only [bind_ok] at hd
      obtain ⟨e, he, hd⟩ := hd
      cases hd
      have hval : ∀ ι, (({} : DefExpr).mul (.defined e)).expression.eval ι η = e.expression.eval ι η := by
        intro ι
        change (Expr.mul _ _).eval ι η = _
        simp [Expr.eval]
      rw [hval, hval, propagator_scaled hn hp ht hcov hf hι.symbols (by
        rcases builtin_get hb with ⟨-, rfl⟩ | ⟨-, rfl⟩
        · exact .inl he
        · exact .inr he) η, ← mul_assoc, show ((t : ℂ) ^ 2) = (t : ℂ) ^ (2 : ℤ) from rfl, ← zpow_add₀ t0]
      simp
  · intro v i j k d hn hp h η
    have hint : allInt v.node = true := by rw [hn]; rfl
    have : HasDim SerialDim d.expression 0 := by
      rcases formFactor_ok.1 h with ⟨h1, rfl⟩ | ⟨name, f, s, x, y, m1, m2, R, L, radius, h1, h2, h3, h4, h5, h6, h7,
        h8, hR, hL, hr, rfl⟩
      · exact HasDim.num 1
      · rw [hn] at h6
        cases h6
        cases h7
        cases h8
        unfold toMandelstamSymbol at h5
        rw [hint, if_pos rfl, hn, mandelstam_node hp] at h5
        cases h5
        rcases hR with ⟨-, rfl⟩ | ⟨ha, -⟩
        · exact .ff _ (.sym (.mandelstam k)) (.sym (.stateMass i)) (.sym (.stateMass j)) (.sym .resonanceRadius)
        · rw [hint] at ha; cases ha
    rw [C41_dimension_sound this ι ι' η t ht hcov hf hι.symbols, zpow_zero, one_mul]

/-- C104 (partial: only without form factors at production vertices, which `C104_production_fails` excludes):
with the built-in lineshapes, the intensity of a serialized model has dimension -4. -/
theorem C104_breit_wigner_partial (hm : ReadsModel m D rd) (h0 : NonnegativeSpins D)
    (href : IsSpectator D.referenceTopology ref) (href' : ref ∈ ([1, 2, 3] : List ℤ))
    (hprop : OnePropagator D) (hno : NoProductionFormFactor D)
    (h : formulate m cl tl none = .ok a) (ht : 0 < t) (hι : SerialRescaled t tl D.chains rd ι ι')
    (hcov : Covariant ι t) (ha : ∀ x ∈ a.angleDefs, Computes ι x) (ha' : ∀ x ∈ a.angleDefs, Computes ι' x)
    (η : Sym → ℚ) :
    (t : ℂ) ^ 4 * a.fullExpression.eval ι' η = a.fullExpression.eval ι η := by
  have t0 : (t : ℂ) ≠ 0 := by exact_mod_cast ht.ne'
  obtain ⟨d1, d2⟩ := C104_dimensions (m := m) ht hι hcov
  rw [C104_homogeneous hm h0 href href' h ht hι ha ha' (n := -2) ?_ ?_ η, ← mul_assoc, ← zpow_natCast,
    ← zpow_add₀ t0]
  · simp
  · intro c hc d hd
    obtain ⟨p, i, j, k, hp, hn, hperm⟩ := hprop c hc
    refine ⟨free_dynamics (fun _ h => by cases h) hd, fun η => ?_⟩
    rw [← d1 c p i j k d hp hn hperm hd η, ← mul_assoc, zpow_neg, show ((t : ℂ) ^ 2) = (t : ℂ) ^ (2 : ℤ) from rfl,
      inv_mul_cancel₀ (zpow_ne_zero _ t0), one_mul]
  · intro c hc v hv d hd η
    obtain ⟨⟨p, q, hpq, ⟨x, y, hp⟩, hq1, hq2⟩, hst⟩ := hm.reads c hc
    have hvm : v = p ∨ v = q := by
      rcases hpq with e | e <;> rw [e] at hv <;> simp at hv <;> tauto
    rcases hvm with rfl | rfl
    · have := hno c hc v hv x y (rd c).k (by
        rcases hp with ⟨e, -⟩ | ⟨e, -⟩
        · exact .inl e
        · exact .inr e)
      rcases formFactor_ok.1 hd with ⟨h1, rfl⟩ | ⟨name, f, s, x, y, m1, m2, R, L, radius, h1, h2, -⟩
      · simp [Expr.eval]
      · rcases this with e | e <;> rw [e] at h1 <;> cases h1
        exact absurd rfl h2
    · exact d2 v _ _ _ d hq1 hst hd η

/-! ### An example: `D → f0 π`, `f0 → π η`, with or without form factor at the production vertex -/

def suProduction (ff : Option String) : Vertex :=
  { type := "helicity", node := [.seq [.id 2, .id 3], .id 1], helicities := some [some 0, some 0],
    formfactor := ff }

def suDecay : Vertex := { type := "helicity", node := [.id 2, .id 3], helicities := some [some 0, some 0] }

def suChain (ff : Option String) : ChainDefinition where
  name := "f0"
  propagators := [⟨some 0, [.id 2, .id 3], "F0"⟩]
  vertices := [suProduction ff, suDecay]
  topology := [.seq [.id 2, .id 3], .id 1]
  weight := some (1, 0)

def suDistribution (ff : Option String) : Distribution := { mcDistribution with chains := [suChain ff] }

def suLine : FunctionDefinition :=
  ⟨"F0", "BreitWigner", [("mass", 980 / 1000), ("width", 1 / 10), ("l", 0), ("ma", 140 / 1000),
    ("mb", 548 / 1000), ("d", 1)], none⟩

def suModel (ff : Option String) : ModelDefinition where
  distributions := [suDistribution ff]
  functions := [
    suLine, ⟨"FFP", "BlattWeisskopf", [("l", 0), ("radius", 5)], none⟩]

def suReading (_ : ChainDefinition) : Reading := ⟨2, 3, 1, 0, 0, 0, 0⟩

theorem suModel_reads (ff : Option String) : ReadsModel (suModel ff) (suDistribution ff) suReading where
  head := ⟨[], rfl⟩
  kinematics := mcModel_reads.kinematics
  reads := by
    intro c hc
    obtain rfl := List.mem_singleton.1 hc
    exact ⟨⟨_, _, .inl rfl, ⟨_, _, .inl ⟨rfl, rfl⟩⟩, rfl, rfl⟩, show [(2 : ℤ), 3, 1].Perm [1, 2, 3] by decide⟩

theorem suModel_reference (ff : Option String) : IsSpectator (suDistribution ff).referenceTopology 1 :=
  ⟨by simp [suDistribution, mcDistribution], by simp [suDistribution, mcDistribution]⟩

theorem suModel_spinless (ff : Option String) : Spinless (suDistribution ff) := mcSpinless

/-- The value of the form factor of the production vertex. -/
noncomputable def suForm (ff : Option String) (ι : Interp) : ℂ :=
  if ff = some "FFP" then ι.ff (ι.sym (massOfState 0)) (ι.sym (mandelstam 1)) (ι.sym (massOfState 1)) 0
    (ι.sym (radiusNamed "D")) else 1

theorem suModel_dynamics {ff : Option String} (hff : ff = none ∨ ff = some "FFP") :
    (∃ d, formulateDynamics (suChain ff) (suModel ff) id none = .ok d ∧
      ∀ ι η, d.expression.eval ι η = breitWignerLine ι "f0" 2 3 1 0) ∧
    (∃ d, formulateFormFactor (suProduction ff) (suModel ff) = .ok d ∧
      ∀ ι η, d.expression.eval ι η = suForm ff ι) ∧
    ∃ d, formulateFormFactor suDecay (suModel ff) = .ok d ∧ ∀ ι η, d.expression.eval ι η = 1 := by
  refine ⟨?_, ?_, ?_⟩
  · refine ⟨_, rfl, fun ι η => ?_⟩
    have hf : FunctionNamed (suModel ff) "F0" suLine := functionNamed_iff.1 rfl
    rcases C73_chain (m := suModel ff) (tl := id) (c := suChain ff) (p := ⟨some 0, [.id 2, .id 3], "F0"⟩) rfl
      (i := 2) (j := 3) (k := 1) rfl (by decide) hf rfl with ⟨-, h⟩ | ⟨h, -⟩
    · exact h 0 rfl ι η
    · exact absurd h (by decide)
  · rcases hff with rfl | rfl
    · exact ⟨_, rfl, fun ι η => by simp [Expr.eval, suForm]⟩
    · exact ⟨_, rfl, fun ι η => by
        unfold suForm
        rw [if_pos rfl]
        rfl⟩
  · exact ⟨_, rfl, fun ι η => by simp [Expr.eval]⟩

theorem suModel_ok {ff : Option String} (hff : ff = none ∨ ff = some "FFP") :
    ∃ a, formulate (suModel ff) true id none = .ok a := by
  obtain ⟨⟨d, hd, -⟩, ⟨e, he, -⟩, ⟨g, hg, -⟩⟩ := suModel_dynamics hff
  refine C60_returns (suModel_reads ff) (suModel_reference ff) (by simp) ?_ true
  intro c hc
  obtain rfl := List.mem_singleton.1 hc
  refine ⟨?_, rfl, ⟨0, ⟨_, _, rfl, rfl⟩, half_zero⟩, ⟨1, by simp, by simp [suChain], by simp [suChain]⟩, ⟨d, hd⟩, ?_⟩ <;>
    intro v hv <;> rcases List.mem_cons.1 hv with rfl | hv
  · exact .inl rfl
  · obtain rfl := List.mem_singleton.1 hv
    exact .inl rfl
  · exact ⟨e, he⟩
  · obtain rfl := List.mem_singleton.1 hv
    exact ⟨g, hg⟩

/-- The kinematic point of `unInterp`, with weight 1. -/
noncomputable def suInterp (t : ℝ) : Interp :=
  { unInterp t with sym := fun s => if s.asm = .none then 1 else (unInterp t).sym s }

theorem suInterp_scaled (t : ℝ) {s : Sym} {d : ℤ} (h : SerialDim s d) :
    (suInterp t).sym s = (t : ℂ) ^ d * (suInterp 1).sym s := by
  cases h with
  | mandelstam k => simp [suInterp, unInterp, head_mandelstam, mandelstam]
  | stateMass i => simp [suInterp, unInterp, head_state, massOfState]
  | mass R => simp [suInterp, unInterp, massNamed]
  | width R => simp [suInterp, unInterp, widthNamed]
  | channelWidth R n => simp [suInterp, unInterp, widthOfChannel]
  | firstMass n => simp [suInterp, unInterp, firstMassOfChannel]
  | secondMass n => simp [suInterp, unInterp, secondMassOfChannel]
  | resonanceRadius => simp [suInterp, unInterp, resonanceRadius]
  | radius R => simp [suInterp, unInterp, radiusNamed]

theorem suInterp_interior {t : ℝ} (ht : t = 1 ∨ t = 2) : DalitzInterior fun s => ((suInterp t).sym s).re := by
  rcases ht with rfl | rfl <;> constructor <;> simp [suInterp, unInterp, SumRule, BetweenThresholds, lam] <;> norm_num

/-- The example at one kinematic point, in two units. -/
theorem su_points {ff : Option String} (h : formulate (suModel ff) true id none = .ok a) :
    ∃ ι ι' : Interp, SerialRescaled 2 id (suDistribution ff).chains suReading ι ι' ∧
      (∀ u : ℝ, 0 < u → Covariant ι u) ∧ (∀ x ∈ a.angleDefs, Computes ι x) ∧ (∀ x ∈ a.angleDefs, Computes ι' x) ∧
      SameFunctions (suInterp 1) ι ∧ (∀ s : Sym, s.asm ≠ .real → ι.sym s = (suInterp 1).sym s) := by
  have key : ∀ s : Sym, s.asm ≠ .real → s ∉ PyDict.keys a.angleDefs := by
    intro s hs hmem
    obtain ⟨y, hy, rfl⟩ := List.mem_map.1 hmem
    rcases serial_angleDefs (suModel_reads ff) (suModel_reference ff) (by simp) h hy with ⟨c, -, -, h7⟩ | ⟨i, -, k, -, rfl⟩
    · rw [h7] at hs; exact hs rfl
    · exact hs rfl
  obtain ⟨ι, f1, i1, s1, a1⟩ := C75_evaluable (suModel_reads ff) (suModel_reference ff) (by simp) h
    (suInterp_interior (.inl rfl)).region
  obtain ⟨ι', f2, i2, s2, a2⟩ := C75_evaluable (suModel_reads ff) (suModel_reference ff) (by simp) h
    (suInterp_interior (.inr rfl)).region
  have hdim : ∀ {s d}, SerialDim s d → s.asm ≠ .real := by
    intro s d h
    cases h <;> simp [mandelstam, massOfState, massNamed, widthNamed, widthOfChannel, firstMassOfChannel,
      secondMassOfChannel, Spec.resonanceRadius, radiusNamed]
  refine ⟨ι, ι', ⟨⟨f1.wig.symm.trans f2.wig, f1.cg.symm.trans f2.cg, f1.ff.symm.trans f2.ff,
      f1.edw.symm.trans f2.edw, f1.bmom.symm.trans f2.bmom⟩, ?_, ?_⟩, ?_, a1, a2, f1,
      fun s hs => s1 _ (key s hs)⟩
  · intro c _
    rw [s1 _ (key _ (by simp [weightSymbol])), s2 _ (key _ (by simp [weightSymbol]))]
    simp [suInterp, weightSymbol]
  · intro s d h
    rw [s1 _ (key _ (hdim h)), s2 _ (key _ (hdim h)), suInterp_scaled 2 h]
  · intro u hu
    obtain ⟨c1, c2, c3⟩ := unInterp_covariant 1 hu
    have e1 : (unInterp 1).ff = ι.ff := f1.ff
    have e2 : (unInterp 1).edw = ι.edw := f1.edw
    have e3 : (unInterp 1).bmom = ι.bmom := f1.bmom
    rw [e1] at c1
    rw [e2] at c2
    rw [e3] at c3
    exact ⟨c1, c2, c3⟩

theorem su_value {ff : Option String} (hff : ff = none ∨ ff = some "FFP")
    (h : formulate (suModel ff) true id none = .ok a) (ι : Interp) (η : Sym → ℚ) :
    a.fullExpression.eval ι η = (‖ι.sym (weightSymbol id (suChain ff) (suReading (suChain ff))) *
      ι.wig 0 0 0 (ι.sym ⟨"theta_23", .real⟩) * breitWignerLine ι "f0" 2 3 1 0 * suForm ff ι‖ ^ 2 : ℝ) := by
  obtain ⟨⟨d, hd, vd⟩, ⟨e, he, ve⟩, ⟨g, hg, vg⟩⟩ := suModel_dynamics hff
  obtain ⟨line, form, hv⟩ := C60_dynamics_values (suModel ff) (suDistribution ff).chains id ι
  rw [C103_coherent (suModel_reads ff) (suModel_spinless ff) (suModel_reference ff) (by simp) ?_ h hv η]
  · have e1 := hv.line (suChain ff) (List.mem_singleton.2 rfl) d hd η
    have e2 := hv.form (suChain ff) (List.mem_singleton.2 rfl) (suProduction ff) (by simp [suChain]) e he η
    have e3 := hv.form (suChain ff) (List.mem_singleton.2 rfl) suDecay (by simp [suChain]) g hg η
    rw [vd] at e1
    rw [ve] at e2
    rw [vg] at e3
    have z : ∀ v : Vertex, v.type = "helicity" → scalarFactor v = 1 := by
      intro v hv
      unfold scalarFactor
      rw [if_neg (by rw [hv]; decide)]
    have t1 : "theta_" ++ toString (2 : ℤ) ++ toString (3 : ℤ) = "theta_23" := by decide +kernel
    refine congrArg _ (congrArg (fun x : ℂ => ‖x‖ ^ 2) ?_)
    have e4 : spinlessValue ι id line form (suChain ff) (suReading (suChain ff)) =
        ι.sym (weightSymbol id (suChain ff) (suReading (suChain ff))) *
          (scalarFactor (suProduction ff) * (scalarFactor suDecay * (1 : ℂ))) *
          ι.wig 0 0 0 (ι.sym ⟨"theta_" ++ toString (2 : ℤ) ++ toString (3 : ℤ), .real⟩) *
          (line (suChain ff) * (form (suProduction ff) * (form suDecay * (1 : ℂ)))) := rfl
    rw [show (suDistribution ff).chains = [suChain ff] from rfl, List.map_cons, List.map_nil, List.sum_cons,
      List.sum_nil, e4, t1, z _ rfl, z _ rfl, ← e1, ← e2, ← e3]
    ring
  · intro c hc v hv
    obtain rfl := List.mem_singleton.1 hc
    simp only [suChain, List.mem_cons, List.not_mem_nil, or_false] at hv
    rcases hv with rfl | rfl <;> rfl

/-- C104: the property fails for a model with a form factor at its production vertex, even though the external
functions are covariant: the form factor receives a mass where it expects a squared mass. The intensity is not
multiplied by any power of the ratio of the units. -/
theorem C104_production_fails : ∃ (m : ModelDefinition) (D : Distribution) (rd : ChainDefinition → Reading)
    (a : AmplitudeModel) (ι ι' : Interp), ReadsModel m D rd ∧ Spinless D ∧ OnePropagator D ∧
    IsSpectator D.referenceTopology 1 ∧ formulate m true id none = .ok a ∧ SerialRescaled 2 id D.chains rd ι ι' ∧
    (∀ u : ℝ, 0 < u → Covariant ι u) ∧ (∀ x ∈ a.angleDefs, Computes ι x) ∧ (∀ x ∈ a.angleDefs, Computes ι' x) ∧
    ∀ (n : ℤ) (η : Sym → ℚ), a.fullExpression.eval ι' η ≠ 2 ^ n * a.fullExpression.eval ι η := by
  obtain ⟨a, h⟩ := suModel_ok (ff := some "FFP") (.inr rfl)
  obtain ⟨ι, ι', hι, hcov, ha, ha', hf, hs⟩ := su_points h
  refine ⟨_, _, _, a, ι, ι', suModel_reads _, suModel_spinless _, ?_, suModel_reference _, h, hι, hcov, ha, ha', ?_⟩
  · intro c hc
    obtain rfl := List.mem_singleton.1 hc
    exact ⟨_, 2, 3, 1, rfl, rfl, by decide⟩
  · intro n η
    rw [su_value (.inr rfl) h, su_value (.inr rfl) h]
    have w := hι.weights (suChain (some "FFP")) (List.mem_singleton.2 rfl)
    have w1 : ι.sym (weightSymbol id (suChain (some "FFP")) (suReading (suChain (some "FFP")))) = 1 := by
      rw [hs _ (by simp [weightSymbol])]
      simp [suInterp, weightSymbol]
    have wig : ι.wig = fun _ _ _ _ => 1 := hf.wig.symm
    have hff : ι.ff = fun s _ _ _ R => 1 + s * R ^ 2 := hf.ff.symm
    have hedw : ι.edw = fun _ _ _ g _ _ _ _ => g := hf.edw.symm
    have t0 : (massOfState 0).name = "m0" := by decide +kernel
    have us : (mandelstam 1).name = "sigma1" := by decide +kernel
    have x0 : ι.sym (massOfState 0) = 4 := by
      rw [hs _ (by simp [massOfState])]; simp [suInterp, unInterp, t0]; simp [massOfState]
    have xs : ι.sym (mandelstam 1) = 7 := by
      rw [hs _ (by simp [mandelstam])]; simp [suInterp, unInterp, us]; simp [mandelstam]
    have xR : ι.sym (massNamed "f0") = 1 := by
      rw [hs _ (by simp [massNamed])]; simp [suInterp, unInterp, massNamed]
    have xG : ι.sym (widthNamed "f0") = 1 := by
      rw [hs _ (by simp [widthNamed])]; simp [suInterp, unInterp, widthNamed]
    have xr : ι.sym (radiusNamed "D") = 1 := by
      rw [hs _ (by simp [radiusNamed])]; simp [suInterp, unInterp, radiusNamed]
    have y0 := hι.symbols _ _ (.stateMass 0)
    have ys := hι.symbols _ _ (.mandelstam 1)
    have yR := hι.symbols _ _ (.mass "f0")
    have yG := hι.symbols _ _ (.width "f0")
    have yr := hι.symbols _ _ (.radius "D")
    have v : ι.sym (weightSymbol id (suChain (some "FFP")) (suReading (suChain (some "FFP")))) *
      ι.wig 0 0 0 (ι.sym ⟨"theta_23", .real⟩) * breitWignerLine ι "f0" 2 3 1 0 * suForm (some "FFP") ι =
        20 * (1 / (4 * (-6 - Complex.I))) := by
      rw [w1, wig, suForm, if_pos rfl, breitWignerLine, hff, hedw]
      simp only [x0, xs, xR, xG, xr, breitWignerValue]
      rw [show (1 : ℂ) ^ 2 - 7 - Complex.I * 1 * 1 = -6 - Complex.I by ring, one_div, one_div, mul_inv]
      ring
    have v' : ι'.sym (weightSymbol id (suChain (some "FFP")) (suReading (suChain (some "FFP")))) *
      ι'.wig 0 0 0 (ι'.sym ⟨"theta_23", .real⟩) * breitWignerLine ι' "f0" 2 3 1 0 * suForm (some "FFP") ι' =
        3 * (1 / (4 * (-6 - Complex.I))) := by
      rw [w, w1, ← hι.functions.wig, wig, suForm, if_pos rfl, breitWignerLine, ← hι.functions.ff, hff,
        ← hι.functions.edw, hedw]
      simp only [y0, ys, yR, yG, yr, x0, xs, xR, xG, xr, breitWignerValue]
      norm_num
      rw [show (-24 : ℂ) - Complex.I * 2 * 2 = 4 * (-6 - Complex.I) by ring, mul_inv]
      ring
    have hne : (4 * (-6 - Complex.I)) ≠ 0 := by
      intro h
      have := congrArg Complex.im h
      norm_num at this
    have hpos : 0 < ‖1 / (4 * (-6 - Complex.I))‖ := norm_pos_iff.2 (div_ne_zero one_ne_zero hne)
    rw [v, v', norm_mul, norm_mul]
    generalize ‖1 / (4 * (-6 - Complex.I))‖ = x at hpos
    intro hx
    have hx : ((‖(3 : ℂ)‖ * x) ^ 2 : ℝ) = 2 ^ n * (‖(20 : ℂ)‖ * x) ^ 2 := by
      have e2 : ((2 : ℂ) ^ n) = ((2 ^ n : ℝ) : ℂ) := by push_cast; rfl
      rw [e2, ← Complex.ofReal_mul] at hx
      exact Complex.ofReal_injective hx
    have n1 : ‖(3 : ℂ)‖ = 3 := by norm_num
    have n2 : ‖(20 : ℂ)‖ = 20 := by norm_num
    rw [n1, n2, mul_pow, mul_pow, ← mul_assoc] at hx
    have hx := mul_right_cancel₀ (pow_pos hpos 2).ne' hx
    have l1 : (2 : ℝ) ^ (-6 : ℤ) < 2 ^ n := by norm_num; nlinarith
    have l2 : (2 : ℝ) ^ n < 2 ^ (-5 : ℤ) := by norm_num; nlinarith
    rw [zpow_lt_zpow_iff_right₀ (by norm_num)] at l1 l2
    omega

/-- The hypotheses of `C104_breit_wigner_partial` are met by the same model without the form factor. -/
example : ∃ (a : AmplitudeModel) (ι ι' : Interp), formulate (suModel none) true id none = .ok a ∧
    SerialRescaled 2 id (suDistribution none).chains suReading ι ι' ∧
    ι'.sym (mandelstam 1) ≠ ι.sym (mandelstam 1) ∧
    ∀ η, 2 ^ 4 * a.fullExpression.eval ι' η = a.fullExpression.eval ι η := by
  obtain ⟨a, h⟩ := suModel_ok (ff := none) (.inl rfl)
  obtain ⟨ι, ι', hι, hcov, ha, ha', hf, hs⟩ := su_points h
  refine ⟨a, ι, ι', h, hι, ?_, fun η => ?_⟩
  · have us : (mandelstam 1).name = "sigma1" := by decide +kernel
    have xs : ι.sym (mandelstam 1) = 7 := by
      rw [hs _ (by simp [mandelstam])]; simp [suInterp, unInterp, us]; simp [mandelstam]
    rw [hι.symbols _ _ (.mandelstam 1), xs]
    norm_num
  · have := C104_breit_wigner_partial (suModel_reads none) (spinless_nonneg (suModel_spinless none))
      (suModel_reference none) (by simp) ?_ ?_ h (by norm_num : (0 : ℝ) < 2) hι (hcov 2 (by norm_num)) ha ha' η
    · exact_mod_cast this
    · intro c hc
      obtain rfl := List.mem_singleton.1 hc
      exact ⟨_, 2, 3, 1, rfl, rfl, by decide⟩
    · intro c hc v hv _ _ _ _
      obtain rfl := List.mem_singleton.1 hc
      simp only [suChain, List.mem_cons, List.not_mem_nil, or_false] at hv
      rcases hv with rfl | rfl <;> exact .inl rfl

end Verif.Serialization
