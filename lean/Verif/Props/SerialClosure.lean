import Verif.Proofs.SerialClosure
import Verif.Props.SerialAmplitude
import Verif.Props.SerialDynamics

/-! Property C75: a deserialized model leaves nothing undefined. -/
namespace Verif.Serialization
open Verif Verif.ThreeBody Verif.Spec Verif.Spin Verif.Angles

variable {m : ModelDefinition} {tl : String → String} {add : Option (PyDict String PropagatorBuilder)}
  {D : Distribution} {rd : ChainDefinition → Reading} {ref : ℤ} {cl : Bool} {a : AmplitudeModel}

theorem serial_provided {P : PyDict Key Val} {s : Sym} (hs : s ∈ providedSymbols)
    (hi : a.invariants = [(⟨"sigma1", .nonneg⟩, thirdExpr 2 3),
      (⟨"sigma2", .nonneg⟩, thirdExpr 3 1), (⟨"sigma3", .nonneg⟩, thirdExpr 1 2)])
    (hp : a.parameterDefaults = PyDict.update P (massParams (massDict a.decay))) :
    s ∈ PyDict.keys a.invariants ∨ Key.sym s ∈ PyDict.keys a.parameterDefaults := by
  have hm : ∀ i ∈ ([0, 1, 2, 3] : List ℤ), Key.sym (massSym i) ∈ PyDict.keys a.parameterDefaults := by
    intro i hi
    rw [hp, PyDict.mem_keys_update]
    right
    simp only [List.mem_cons, List.not_mem_nil, or_false] at hi
    rcases hi with rfl | rfl | rfl | rfl <;> simp [massParams, massDict, PyDict.keys]
  have hk : PyDict.keys a.invariants =
    [⟨"sigma1", .nonneg⟩, ⟨"sigma2", .nonneg⟩, ⟨"sigma3", .nonneg⟩] := by rw [hi]; rfl
  rw [hk]
  simp only [providedSymbols, List.mem_cons, List.not_mem_nil, or_false] at hs
  rcases hs with rfl | rfl | rfl | rfl | rfl | rfl | rfl
  · exact .inr (hm 0 (by simp))
  · exact .inr (hm 1 (by simp))
  · exact .inr (hm 2 (by simp))
  · exact .inr (hm 3 (by simp))
  · simp
  · simp
  · simp

/-- The definitions of the angles. -/
theorem serial_angleDefs (hm : ReadsModel m D rd)
    (href : IsSpectator D.referenceTopology ref) (href' : ref ∈ ([1, 2, 3] : List ℤ))
    (h : formulate m cl tl add = .ok a) {x : Sym × RExpr} (hx : x ∈ a.angleDefs) :
    (∃ c ∈ D.chains, formulateScatteringAngle (rd c).i (rd c).j = .ok x ∧
      x.1 = thetaSym (rd c).i (rd c).j) ∨
    ∃ i ∈ ([0, 1, 2, 3] : List ℤ), ∃ k ∈ ([1, 2, 3] : List ℤ),
      x = (ThreeBody.zetaSym i k ref, zetaExpr i k ref) := by
  obtain ⟨K, E, P, Θ, ref', ids, zetas, terms, hf⟩ := formulate_inv hm.head hm.kinematics h
  have : ref' = ref := href.2 _ (((C52_spectator _).1 _).1 hf.reference).1
  subst this
  rw [hf.angles] at hx
  rcases PyDict.mem_update hx with hx | hx
  · rcases PyDict.mem_update hx with hx | hx
    · cases hx
    · obtain ⟨y, hy, rfl⟩ := List.mem_map.1 hx
      obtain ⟨c, hc, hmem, -⟩ := pair_chain hm hf hy
      obtain ⟨hr, hs⟩ := hm.reads c hmem
      obtain ⟨d, ds, w, -, -, -, -, -, h6, h7, -⟩ :=
        chainData_facts (chains_ok hm.head) hc hr hs (hf.table y hy).data
      exact .inl ⟨c, hmem, h6, h7⟩
  · rw [(aligned_terms hf href').2] at hx
    rcases PyDict.mem_update hx with hx | hx
    · cases hx
    · obtain ⟨k, hk, hx⟩ := List.mem_flatMap.1 hx
      obtain ⟨i, hi, hx⟩ := List.mem_flatMap.1 hx
      unfold wigItems at hx
      split at hx
      · cases hx
      · exact .inr ⟨i, hi, k, hf.bases k hk, List.mem_singleton.1 hx⟩

theorem serial_angle_symbols (hm : ReadsModel m D rd)
    (href : IsSpectator D.referenceTopology ref) (href' : ref ∈ ([1, 2, 3] : List ℤ))
    (h : formulate m cl tl add = .ok a) {x : Sym × RExpr} (hx : x ∈ a.angleDefs) :
    ∀ s ∈ kinematicSymbols x.2, s ∈ providedSymbols := by
  rcases serial_angleDefs hm href href' h hx with ⟨c, hc, h6, -⟩ | ⟨i, hi, k, hk, rfl⟩
  · obtain ⟨h1, h2, -⟩ := standard_mem (hm.reads c hc).2
    exact scattering_symbols h1 h2 h6
  · exact zeta_symbols hi hk href'

/-- C75: what `formulate` returns for a serialized model is closed: no helicity symbol is left in
`full_expression`, every symbol in it is an angle of `variables`, a Mandelstam variable or a parameter
with a default value, and the definitions of the angles and of the Mandelstam variables use nothing
else. Custom lineshape builders, if any, must return closed lineshapes. -/
theorem C75_closed (hm : ReadsModel m D rd) (h0 : NonnegativeSpins D)
    (href : IsSpectator D.referenceTopology ref) (href' : ref ∈ ([1, 2, 3] : List ℤ))
    (hadd : ∀ defs, add = some defs → ∀ x ∈ defs, ∀ p R e, x.2 p R m = .ok e → ClosedLineshape e)
    (h : formulate m cl tl add = .ok a) : Closed a := by
  have hang : ∀ x ∈ a.angleDefs, ∀ s ∈ kinematicSymbols x.2, s ∈ providedSymbols :=
    fun x hx => serial_angle_symbols hm href href' h hx
  obtain ⟨htheta, hzeta⟩ := C71_angles_defined hm h0 href href' h
  obtain ⟨K, E, P, Θ, ref', ids, zetas, terms, hf⟩ := formulate_inv hm.head hm.kinematics h
  have : ref' = ref := href.2 _ (((C52_spectator _).1 _).1 hf.reference).1
  subst this
  have hd := (toDecay_standard hm.head hm.kinematics hf.decay).1
  have hsp := spins_nonneg hm h0 hf.decay
  have hprov : ∀ s ∈ providedSymbols, s ∈ PyDict.keys a.invariants ∨
      Key.sym s ∈ PyDict.keys a.parameterDefaults :=
    fun s hs => serial_provided hs hf.invariants hf.parameters
  -- the amplitudes
  have hval : ∀ x e, PyDict.get? a.amplitudes x = some e →
      OnlySymbols (fun s => s ∈ PyDict.keys a.angleDefs ∨ s ∈ PyDict.keys a.invariants ∨
        Key.sym s ∈ PyDict.keys a.parameterDefaults) (e.doit fun _ => none) := by
    intro x e he
    rw [hf.amplitudes] at he
    refine stored_invariant (Q := fun e => OnlySymbols (fun s => s ∈ PyDict.keys a.angleDefs ∨
      s ∈ PyDict.keys a.invariants ∨ Key.sym s ∈ PyDict.keys a.parameterDefaults)
        (e.doit fun _ => none)) ?_ ?_ _ ?_ {} (by intro x e h; cases h) x e he
    · exact ⟨rfl, rfl, fun s hs => by cases hs⟩
    · exact fun _ _ => only_add
    · intro y hy
      obtain ⟨c, hc, hmem, -⟩ := pair_chain hm hf hy
      obtain ⟨hr, hs⟩ := hm.reads c hmem
      obtain ⟨g1, g2, g3⟩ := chainData_symbols (chains_ok hm.head) hc hr hs hadd (hf.table y hy).data y.1
      refine ⟨g1, g2, fun s hs' => ?_⟩
      rcases g3 s hs' with rfl | h' | h'
      · obtain ⟨e, -, he⟩ := htheta c hmem
        exact .inl (PyDict.mem_keys_iff.2 ⟨e, he⟩)
      · exact .inr (hprov s h')
      · refine .inr (.inr ?_)
        rw [hf.parameters]
        refine (PyDict.mem_keys_update ..).2 (.inl ((PyDict.mem_keys_update ..).2 (.inr ?_)))
        obtain ⟨z, hz, he⟩ := List.mem_map.1 h'
        exact List.mem_map.2 ⟨z, List.mem_flatMap.2 ⟨y, hy, hz⟩, he⟩
  have hdefs : ∀ y v, PyDict.get? (a.amplitudes.map fun kv => (kv.1, kv.2.doit fun _ => none)) y = some v →
      OnlySymbols (fun s => s ∈ PyDict.keys a.angleDefs ∨ s ∈ PyDict.keys a.invariants ∨
        Key.sym s ∈ PyDict.keys a.parameterDefaults) v := by
    intro y v hv
    rw [get?_map_snd] at hv
    cases hg : PyDict.get? a.amplitudes y with
    | none => rw [hg] at hv; cases hv
    | some e =>
      rw [hg] at hv
      simp only [Option.map_some, Option.some.injEq] at hv
      subst hv
      exact hval y e hg
  have hint : a.intensity = serialIntensity a.decay (ids.map (alignTerm ref' (spins a.decay)
      fun i => .sym (lambdaSym i))) cl := by rw [hf.intensity, (aligned_terms hf href').1]
  refine ⟨?_, ?_, ?_, ?_, ?_⟩
  · rw [List.eq_nil_iff_forall_not_mem]
    intro s hs
    unfold AmplitudeModel.fullExpression at hs
    rcases Expr.mem_free_xreplace _ _ s hs with hs | ⟨y, hy, v, hv, hs⟩
    · rw [hint] at hs
      exact free_serialIntensity hd hsp hs
    · rw [(hdefs y v hv).1] at hs
      cases hs
  · intro x hx
    unfold AmplitudeModel.fullExpression at hx
    rcases Expr.mem_indexeds_xreplace _ _ x hx with ⟨hx1, hx2⟩ | ⟨y, hy, v, hv, hx⟩
    · obtain ⟨hk, -⟩ := intensity_keys hm h0 hf href' hx1
      rw [get?_map_snd] at hx2
      obtain ⟨e, he⟩ := PyDict.mem_keys_iff.1 hk
      rw [he] at hx2
      cases hx2
    · rw [(hdefs y v hv).2.1] at hx
      cases hx
  · intro s hs
    unfold AmplitudeModel.fullExpression at hs
    rcases Expr.mem_syms_xreplace _ _ s hs with hs | ⟨y, hy, v, hv, hs⟩
    · have hs := Expr.mem_syms_doit _ _ _ hs
      rw [hint] at hs
      obtain ⟨k, hk, i, hi, hne, rfl⟩ := syms_serialIntensity hs
      rw [spins_eq _ hi] at hne
      obtain ⟨e, -, he⟩ := hzeta k (by rw [← ids_toFinset hm hf, List.mem_toFinset]; exact hk) i hi hne
      exact .inl (PyDict.mem_keys_iff.2 ⟨e, he⟩)
    · exact (hdefs y v hv).2.2 s hs
  · exact fun x hx s hs => hprov s (hang x hx s hs)
  · intro x hx s hs
    rw [hf.invariants] at hx
    obtain ⟨h1, h2⟩ := third_symbols hx s hs
    exact ⟨h1, hprov s h2⟩

/-- C75: the value of a deserialized model is determined by the parameters and the Mandelstam
variables, when the angles are computed by the definitions of the model. -/
theorem C75_value (hm : ReadsModel m D rd) (h0 : NonnegativeSpins D)
    (href : IsSpectator D.referenceTopology ref) (href' : ref ∈ ([1, 2, 3] : List ℤ))
    (hadd : ∀ defs, add = some defs → ∀ x ∈ defs, ∀ p R e, x.2 p R m = .ok e → ClosedLineshape e)
    (h : formulate m cl tl add = .ok a) {ι ι' : Interp} (hf : SameFunctions ι ι')
    (hp : SameParameters a ι ι')
    (hσ : ∀ s ∈ PyDict.keys a.invariants, ι.sym s = ι'.sym s)
    (hang : ∀ x ∈ a.angleDefs, Computes ι x) (hang' : ∀ x ∈ a.angleDefs, Computes ι' x)
    (η η' : Sym → ℚ) : a.fullExpression.eval ι η = a.fullExpression.eval ι' η' :=
  C72_value (C75_closed hm h0 href href' hadd h) hf hp hσ hang hang' η η'

theorem computes_all {A : PyDict Sym RExpr} (hnd : (PyDict.keys A).Nodup) {ι : Interp}
    (hreal : ∀ s ∈ PyDict.keys A, s ∉ providedSymbols)
    (hsym : ∀ x ∈ A, ∀ s ∈ kinematicSymbols x.2, s ∈ providedSymbols)
    (hval : ∀ x ∈ A, ∃ v, x.2.eval (fun s => (ι.sym s).re) = some v) :
    ∃ ι' : Interp, SameFunctions ι ι' ∧ ι'.idx = ι.idx ∧
      (∀ s, s ∉ PyDict.keys A → ι'.sym s = ι.sym s) ∧ ∀ x ∈ A, Computes ι' x := by
  have hnone : ∀ s, s ∉ PyDict.keys A → PyDict.get? A s = none := by
    intro s hs
    cases hg : PyDict.get? A s with
    | none => rfl
    | some v => exact absurd (PyDict.mem_keys_iff.2 ⟨v, hg⟩) hs
  refine ⟨{ ι with sym := fun s => ((PyDict.get? A s).map fun e =>
    (((e.eval fun s => (ι.sym s).re).getD 0 : ℝ) : ℂ)).getD (ι.sym s) }, ⟨rfl, rfl, rfl, rfl, rfl⟩, rfl, ?_, ?_⟩
  · intro s hs
    simp only [hnone s hs, Option.map_none, Option.getD_none]
  · intro x hx
    have hget : PyDict.get? A x.1 = some x.2 := PyDict.get?_of_mem hnd hx
    obtain ⟨v, hv⟩ := hval x hx
    refine ⟨v, ?_, ?_⟩
    · rw [← hv]
      apply RExpr.eval_congr
      intro s hs
      simp only [hnone s fun hk => hreal s hk (hsym x hx s hs), Option.map_none, Option.getD_none]
    · simp only [hget, Option.map_some, Option.getD_some, hv]

/-- C75: at every point of the Dalitz plot, also on its boundary, and for all values of the parameters, the angles of
the deserialized model can be computed by their definitions, so that `C75_value` applies. -/
theorem C75_evaluable (hm : ReadsModel m D rd)
    (href : IsSpectator D.referenceTopology ref) (href' : ref ∈ ([1, 2, 3] : List ℤ))
    (h : formulate m cl tl add = .ok a) {ι : Interp} (hρ : DalitzRegion fun s => (ι.sym s).re) :
    ∃ ι' : Interp, SameFunctions ι ι' ∧ ι'.idx = ι.idx ∧
      (∀ s, s ∉ PyDict.keys a.angleDefs → ι'.sym s = ι.sym s) ∧
      ∀ x ∈ a.angleDefs, Computes ι' x := by
  apply computes_all
  · obtain ⟨K, E, P, Θ, ref', ids, zetas, terms, hf⟩ := formulate_inv hm.head hm.kinematics h
    rw [hf.angles]
    exact PyDict.nodup_update (PyDict.nodup_update (by simp [PyDict.keys]) _) _
  · intro s hs hs'
    obtain ⟨y, hy, rfl⟩ := List.mem_map.1 hs
    have h1 : y.1.2 = .real := by
      rcases serial_angleDefs hm href href' h hy with ⟨c, -, -, h7⟩ | ⟨i, -, k, -, rfl⟩
      · rw [h7]; rfl
      · rfl
    have h2 : ∀ s ∈ providedSymbols, s.2 ≠ .real := by decide +kernel
    exact h2 _ hs' h1
  · exact fun x hx => serial_angle_symbols hm href href' h hx
  · intro x hx
    rcases serial_angleDefs hm href href' h hx with ⟨c, hc, h6, -⟩ | ⟨i, hi, k, hk, rfl⟩
    · obtain ⟨g1, g2, -, g4⟩ := standard_mem (hm.reads c hc).2
      have hne : (rd c).i ≠ (rd c).j := by
        simp only [List.nodup_cons, List.mem_cons, List.not_mem_nil, or_false, not_or] at g4
        exact g4.1.1
      obtain ⟨s', e', v, e1, e2, -⟩ := (C120_defined hρ).1 _ g1 _ g2 hne
      rw [h6] at e1
      injection e1 with e1
      exact ⟨v, by rw [e1]; exact e2⟩
    · exact ⟨_, zeta_defined hρ hi hk href'⟩

/-! ### C71: every angle that occurs -/

theorem wigAngles_syms (e : Expr) : ∀ s ∈ wigAngles e, s ∈ e.syms := by
  induction e with
  | num | I | sym | phase | cg | idx | kron => intro s hs; cases hs
  | wig => intro s hs; exact hs
  | mul a b iha ihb | add a b iha ihb | sub a b iha ihb | div a b iha ihb =>
    intro s hs
    simp only [wigAngles, Expr.syms, List.mem_append] at hs ⊢
    exact hs.imp (iha s) (ihb s)
  | neg a ih | pow a _ ih | sqrt a ih | exp a ih | abs a ih => exact ih
  | psum a _ ih => exact ih
  | ff s m1 m2 _ R i1 i2 i3 i4 =>
    intro x hx
    simp only [wigAngles, Expr.syms, List.mem_append] at hx ⊢
    exact hx.imp (Or.imp (Or.imp (i1 x) (i2 x)) (i3 x)) (i4 x)
  | edw s m0 g0 m1 m2 _ R _ i1 i2 i3 i4 i5 i6 =>
    intro x hx
    simp only [wigAngles, Expr.syms, List.mem_append] at hx ⊢
    exact hx.imp (Or.imp (Or.imp (Or.imp (Or.imp (i1 x) (i2 x)) (i3 x)) (i4 x)) (i5 x)) (i6 x)
  | bmom s m1 m2 i1 i2 i3 =>
    intro x hx
    simp only [wigAngles, Expr.syms, List.mem_append] at hx ⊢
    exact hx.imp (Or.imp (i1 x) (i2 x)) (i3 x)

theorem wigAngles_channels {cs : List ChannelArguments} {acc : Expr} (ha : wigAngles acc = [])
    (hc : ∀ c ∈ cs, wigAngles c.evaluate = []) :
    wigAngles (cs.foldl (fun acc c => acc + c.evaluate) acc) = [] := by
  induction cs generalizing acc with
  | nil => exact ha
  | cons c t ih =>
    refine ih ?_ fun x hx => hc x (List.mem_cons_of_mem _ hx)
    show wigAngles acc ++ wigAngles c.evaluate = []
    rw [ha, hc c (List.mem_cons_self ..)]
    rfl

theorem wigAngles_channelLoop {R : String} {s mass d : Sym} {n : ℕ} {cs : List (PyDict String ℚ)}
    {ch : List ChannelArguments} {P : PyDict Key Val} {r : List ChannelArguments × PyDict Key Val}
    (h : channelLoop R s mass d n cs ch P = .ok r) (hc : ∀ c ∈ ch, wigAngles c.evaluate = []) :
    ∀ c ∈ r.1, wigAngles c.evaluate = [] := by
  induction cs generalizing n ch P with
  | nil => cases h; exact hc
  | cons c t ih =>
    unfold channelLoop at h
    simp only [bind_ok] at h
    obtain ⟨L, -, ma, -, mb, -, gsq, -, h⟩ := h
    refine ih h fun x hx => ?_
    rcases List.mem_append.1 hx with hx | hx
    · exact hc x hx
    · rw [List.mem_singleton.1 hx]
      rfl

theorem wigAngles_dynamics
    (hadd : ∀ defs, add = some defs → ∀ x ∈ defs, ∀ p R e, x.2 p R m = .ok e → wigAngles e.expression = [])
    {c : ChainDefinition} {e : DefExpr} (h : formulateDynamics c m tl add = .ok e) :
    wigAngles e.expression = [] := by
  have hbw : ∀ p R (e : DefExpr), formulateBreitWigner p R m = .ok e → wigAngles e.expression = [] := by
    intro p R e h
    obtain ⟨f, i, j, s, m1, m2, L, mass, width, ma, mb, d, -, -, -, -, -, -, -, -, -, -, -, rfl⟩ :=
      breitWigner_ok.1 h
    unfold breitWigner breitWignerWidth
    split <;> rfl
  have hmc : ∀ p R (e : DefExpr), formulateMultichannelBreitWigner p R m = .ok e →
      wigAngles e.expression = [] := by
    intro p R e h
    obtain ⟨f, c1, c2, cs, i, j, s, m1, m2, L, mass, gsq, ma, mb, d, r, -, -, -, -, -, -, -, -, -, -, -, -,
      h12, rfl⟩ := multichannel_ok h
    have h1 := wigAngles_channelLoop h12 (by
      intro c hc
      rw [List.mem_singleton.1 hc]
      rfl)
    have h2 : wigAngles (multichannelWidth r.1) = [] := wigAngles_channels rfl h1
    unfold multichannelBreitWigner breitWigner breitWignerWidth
    have hsum : ∀ w : Expr, wigAngles w = [] →
        wigAngles (simpleBreitWigner (.sym s) (.sym (resonanceMass R)) w) = [] := by
      intro w hw
      show [] ++ ([] ++ [] ++ ([] ++ wigAngles w ++ [])) = []
      rw [hw]
      rfl
    split
    · exact hsum _ h2
    · refine hsum _ ?_
      show [] ++ [] ++ wigAngles (multichannelWidth r.1) ++ [] ++ [] ++ [] = []
      rw [h2]
      rfl
  have hdefs : ∀ t b, PyDict.get? (dynamicsDefinitions add) t = some b → ∀ p e,
      b p (tl c.name) m = .ok e → wigAngles e.expression = [] := by
    intro t b hb p e he
    have hfin : PyDict.get? (dynamicsDefinitions none) t = some b → wigAngles e.expression = [] := by
      intro hb
      rcases builtin_get hb with ⟨-, rfl⟩ | ⟨-, rfl⟩
      · exact hbw _ _ _ he
      · exact hmc _ _ _ he
    cases hadd' : add with
    | none => rw [hadd'] at hb; exact hfin hb
    | some defs =>
      rw [hadd'] at hb
      unfold dynamicsDefinitions at hb
      simp only at hb
      rw [PyDict.get?_update] at hb
      cases hr : PyDict.get? defs.reverse t with
      | none => rw [hr] at hb; exact hfin hb
      | some b' =>
        rw [hr, Option.some_or] at hb
        cases hb
        exact hadd defs hadd' _ (List.mem_reverse.1 (PyDict.mem_of_get? hr)) p _ e he
  have key : ∀ ps (d : DefExpr), wigAngles d.expression = [] →
      dynamicsLoop (dynamicsDefinitions add) (tl c.name) m ps d = .ok e → wigAngles e.expression = [] := by
    intro ps
    induction ps with
    | nil => intro d hd h; cases h; exact hd
    | cons p t ih =>
      intro d hd h
      unfold dynamicsLoop at h
      simp only [bind_ok] at h
      obtain ⟨f, -, h⟩ := h
      cases hb : PyDict.get? (dynamicsDefinitions add) f.type with
      | none => rw [hb] at h; cases h
      | some b =>
        rw [hb] at h
        simp only [bind_ok] at h
        obtain ⟨x, hx, h⟩ := h
        refine ih _ ?_ h
        show wigAngles d.expression ++ wigAngles x.expression = []
        rw [hd, hdefs _ _ hb p x hx]
        rfl
  exact key _ {} rfl h

theorem wigAngles_chain
    (hadd : ∀ defs, add = some defs → ∀ x ∈ defs, ∀ p R e, x.2 p R m = .ok e → wigAngles e.expression = [])
    {cs : List ChainDefinition} (hm : getDecayChains m = .ok cs) {n : ℕ}
    {c : ChainDefinition} (hc : cs[n]? = some c) {r : Reading} (hr : Reads c r) (hs : r.Standard)
    {k : ℤ} {e : Expr} {P : PyDict Key Val} {θ : Sym × RExpr} (h : ChainData m tl add n k e P θ) :
    ∀ s ∈ wigAngles e, s = thetaSym r.i r.j := by
  obtain ⟨d, ds, w, hd, hds, hw, -, -, -, hθ, hP, -⟩ := chainData_facts hm hc hr hs h
  have h := h.ok
  unfold formulateChainAmplitude at h
  rw [hm] at h
  simp only [bind_ok] at h
  obtain ⟨cs', hcs', c', hc', d', h3, d'', h4, w', h5, ij, h6, θ', h7, jR, h8, r', h9, k', h10, hp, h11, hdec,
    h12, u, h13, h14⟩ := h
  cases hcs'
  rw [item_ok, hc] at hc'
  injection hc' with hc'
  subst hc'
  rw [hd] at h3
  cases h3
  obtain ⟨ds', hds', rfl⟩ := formFactors_ok.1 h4
  have hff : ∀ x ∈ ds', wigAngles x.expression = [] := by
    intro x hx
    obtain ⟨v, hv, hvx⟩ := Qrules.forall₂_mem_right hds' hx
    rcases formFactor_ok.1 hvx with ⟨-, rfl⟩ | ⟨name, f, s, x, y, m1, m2, R, L, radius, -, -, -, -, -, -, -, -, -,
      -, -, rfl⟩ <;> rfl
  have hdyn : wigAngles (ds'.foldl (fun a x => a.mul (.defined x)) d).expression = [] := by
    have := wigAngles_dynamics hadd hd
    clear hds' h4 h14 hds hd hP
    induction ds' generalizing d with
    | nil => exact this
    | cons x t ih =>
      refine ih _ (fun y hy => hff y (List.mem_cons_of_mem _ hy)) ?_
      show wigAngles d.expression ++ wigAngles x.expression = []
      rw [this, hff x (List.mem_cons_self ..)]
      rfl
  injection h14 with h14
  injection h14 with e1 e2 e3 e4
  subst e4
  obtain ⟨-, p2, -⟩ := recoupling_symbols hm hc h11
  obtain ⟨-, q2, -⟩ := recoupling_symbols hm hc h12
  have p3 : wigAngles hp = [] := List.eq_nil_iff_forall_not_mem.2 fun s hs => by
    have := wigAngles_syms _ s hs
    rw [p2] at this
    cases this
  have q3 : wigAngles hdec = [] := List.eq_nil_iff_forall_not_mem.2 fun s hs => by
    have := wigAngles_syms _ s hs
    rw [q2] at this
    cases this
  subst e2
  intro s hs'
  rw [wigAngles_substHel] at hs'
  simp only [wigAngles, p3, q3, hdyn, List.append_nil, List.nil_append, List.mem_singleton] at hs'
  rw [hs', hθ]

/-- C71: the argument of every Wigner function in an amplitude is the helicity angle of one of the chains
and is defined as such, that of every Wigner function in the intensity is an alignment angle, of a state
with spin, and is defined as such. Custom lineshapes, if any, must not contain Wigner functions. -/
theorem C71_every_angle (hm : ReadsModel m D rd) (h0 : NonnegativeSpins D)
    (href : IsSpectator D.referenceTopology ref) (href' : ref ∈ ([1, 2, 3] : List ℤ))
    (hadd : ∀ defs, add = some defs → ∀ x ∈ defs, ∀ p R e, x.2 p R m = .ok e → wigAngles e.expression = [])
    (h : formulate m cl tl add = .ok a) :
    (∀ x f, PyDict.get? a.amplitudes x = some f → ∀ s ∈ wigAngles f, ∃ c ∈ D.chains, ∃ e,
      formulateScatteringAngle (rd c).i (rd c).j = .ok (s, e) ∧ PyDict.get? a.angleDefs s = some e) ∧
    (∀ s ∈ wigAngles a.intensity, ∃ i ∈ ([0, 1, 2, 3] : List ℤ), a.decay.spin i ≠ 0 ∧
      ∃ k ∈ topologySubsystems D.chains, ∃ e, formulateZetaAngle i k ref = .ok (s, e) ∧
        PyDict.get? a.angleDefs s = some e) := by
  obtain ⟨htheta, hzeta⟩ := C71_angles_defined hm h0 href href' h
  obtain ⟨K, E, P, Θ, ref', ids, zetas, terms, hf⟩ := formulate_inv hm.head hm.kinematics h
  have : ref' = ref := href.2 _ (((C52_spectator _).1 _).1 hf.reference).1
  subst this
  constructor
  · intro x e he
    rw [hf.amplitudes] at he
    refine stored_invariant (Q := fun e => ∀ s ∈ wigAngles e, ∃ c ∈ D.chains, ∃ e,
      formulateScatteringAngle (rd c).i (rd c).j = .ok (s, e) ∧ PyDict.get? a.angleDefs s = some e) ?_ ?_ _ ?_
        {} (by intro x e h; cases h) x e he
    · intro s hs; cases hs
    · intro a b ha hb s hs
      exact (List.mem_append.1 hs).elim (ha s) (hb s)
    · intro y hy s hs
      obtain ⟨c, hc, hmem, -⟩ := pair_chain hm hf hy
      obtain ⟨hr, hst⟩ := hm.reads c hmem
      rw [wigAngles_substHel] at hs
      have := wigAngles_chain hadd (chains_ok hm.head) hc hr hst (hf.table y hy).data s hs
      subst this
      obtain ⟨e, he⟩ := htheta c hmem
      exact ⟨c, hmem, e, he⟩
  · intro s hs
    rw [hf.intensity, (aligned_terms hf href').1] at hs
    obtain ⟨k, hk, i, hi, hne, rfl⟩ := syms_serialIntensity (wigAngles_syms _ s hs)
    rw [spins_eq _ hi] at hne
    have hk' : k ∈ topologySubsystems D.chains := by
      rw [← ids_toFinset hm hf, List.mem_toFinset]; exact hk
    exact ⟨i, hi, hne, k, hk', hzeta k hk' i hi hne⟩

/-- The example model meets the conditions of `C71_every_angle`. -/
example (cl : Bool) : ∃ a, formulate exModel cl id none = .ok a ∧
    ∀ x f, PyDict.get? a.amplitudes x = some f → ∀ s ∈ wigAngles f, ∃ e, PyDict.get? a.angleDefs s = some e := by
  obtain ⟨a, ha⟩ := exModel_ok id cl
  refine ⟨a, ha, fun x f hx s hs => ?_⟩
  obtain ⟨c, -, e, -, he⟩ := (C71_every_angle exModel_reads exDistribution_nonneg exModel_reference (by simp)
    (by intro _ h; cases h) ha).1 x f hx s hs
  exact ⟨e, he⟩

/-- The example models are closed: one with Breit-Wigner lineshapes and decay vertices in both orders,
one with a multichannel Breit-Wigner and form factors. -/
example (cl : Bool) : ∃ a, formulate exModel cl id none = .ok a ∧ Closed a ∧
    (⟨"theta_31", .real⟩ : Sym) ∈ PyDict.keys a.angleDefs ∧ ∃ ι : Interp, ι.sym ⟨"m0", .nonneg⟩ = 5 ∧
      ∀ x ∈ a.angleDefs, Computes ι x := by
  obtain ⟨a, ha⟩ := exModel_ok id cl
  refine ⟨a, ha, C75_closed exModel_reads exDistribution_nonneg exModel_reference (by simp)
    (by intro _ h; cases h) ha, ?_, ?_⟩
  · obtain ⟨e, -, he⟩ := (C71_angles_defined exModel_reads exDistribution_nonneg exModel_reference (by simp)
      ha).1 exLambda (by simp [exDistribution])
    exact PyDict.mem_keys_iff.2 ⟨e, he⟩
  · let ι : Interp := ⟨fun s => if s.name = "m0" then 5 else if s.name = "m1" then 1
      else if s.name = "m2" then 1 else if s.name = "m3" then 1 else ((28 / 3 : ℝ) : ℂ), fun _ _ _ => 0,
      fun _ _ _ _ => 0, fun _ _ _ _ _ _ => 0, fun _ _ _ _ _ => 0, fun _ _ _ _ _ _ _ _ => 0,
      fun _ _ _ => 0⟩
    have hin : DalitzInterior fun s => (ι.sym s).re := by
      constructor <;> simp [ι, SumRule, BetweenThresholds, lam] <;> norm_num
    obtain ⟨ι', -, -, h1, h2⟩ := C75_evaluable exModel_reads exModel_reference (by simp) ha (ι := ι) hin.region
    refine ⟨ι', ?_, h2⟩
    rw [h1 _ ?_]
    · rfl
    · intro hs
      obtain ⟨y, hy, he⟩ := List.mem_map.1 hs
      rcases serial_angleDefs exModel_reads exModel_reference (by simp) ha hy with
        ⟨c, -, -, h7⟩ | ⟨i, -, k, -, rfl⟩
      · rw [h7] at he; exact absurd (congrArg Sym.asm he) (by simp [thetaSym])
      · exact absurd (congrArg Sym.asm he) (by simp [ThreeBody.zetaSym])

example (cl : Bool) : ∃ a, formulate mcModel cl id none = .ok a ∧ Closed a := by
  obtain ⟨a, ha⟩ := mcModel_ok id cl
  exact ⟨a, ha, C75_closed (ref := 1) mcModel_reads mcDistribution_nonneg
    ⟨by simp [mcDistribution], by simp [mcDistribution]⟩ (by simp) (by intro _ h; cases h) ha⟩

end Verif.Serialization
