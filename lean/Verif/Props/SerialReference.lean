import Verif.Props.SerialClosure
import Verif.Props.SerialAmplitude
import Verif.Props.Reference

/-!
C101: what the reference topology of a serialized model changes, and what it does not.
-/
namespace Verif.Serialization
open Verif Verif.ThreeBody Verif.Spec Verif.Spin Verif.Angles

variable {m : ModelDefinition} {tl : String → String} {add : Option (PyDict String PropagatorBuilder)}
  {D : Distribution} {rd : ChainDefinition → Reading} {cl cl' : Bool} {a a' : AmplitudeModel} {r₁ r₂ : ℤ}
  {t : List Tree} {ι : Interp} {ρ : Sym → ℝ} {W : ℚ → ℚ → ℚ → ℝ → ℝ}

/-! ### Only the alignment reads the reference topology -/

theorem dynamics_withReference (h : IgnoresReference add m t) (c : ChainDefinition) :
    formulateDynamics c (withReference m t) tl add = formulateDynamics c m tl add := by
  have hb : ∀ x b, PyDict.get? (dynamicsDefinitions add) x = some b → ∀ p R,
      b p R (withReference m t) = b p R m := by
    intro x b hb p R
    have hfin : PyDict.get? (dynamicsDefinitions none) x = some b → b p R (withReference m t) = b p R m := by
      intro hb
      rcases builtin_get hb with ⟨-, rfl⟩ | ⟨-, rfl⟩ <;> rfl
    cases hadd : add with
    | none => rw [hadd] at hb; exact hfin hb
    | some defs =>
      rw [hadd] at hb
      unfold dynamicsDefinitions at hb
      simp only at hb
      rw [PyDict.get?_update] at hb
      cases hr : PyDict.get? defs.reverse x with
      | none => rw [hr] at hb; exact hfin hb
      | some b' =>
        rw [hr, Option.some_or] at hb
        cases hb
        exact h defs hadd _ (List.mem_reverse.1 (PyDict.mem_of_get? hr)) p R
  unfold formulateDynamics
  generalize ({} : DefExpr) = d
  induction c.propagators generalizing d with
  | nil => rfl
  | cons p ps ih =>
    unfold dynamicsLoop
    have e : getFunctionDefinition p.parametrization (withReference m t) =
        getFunctionDefinition p.parametrization m := rfl
    rw [e]
    refine congrArg (Bind.bind _) (funext fun f => ?_)
    cases hf : PyDict.get? (dynamicsDefinitions add) f.type with
    | none => rfl
    | some b =>
      simp only [hb _ _ hf]
      exact congrArg (Bind.bind _) (funext fun e => ih _)

theorem distribution_withReference {β : Type} (f : Distribution × Bool → Py β)
    (hf : ∀ D w, f ({ D with referenceTopology := t }, w) = f (D, w)) :
    (getDistributionDef (withReference m t) >>= f) = getDistributionDef m >>= f := by
  unfold getDistributionDef withReference
  cases m.distributions with
  | nil => rfl
  | cons D rest => exact hf D _

theorem formFactors_withReference (vs : List Vertex) (d : DefExpr) :
    formFactorLoop (withReference m t) vs d = formFactorLoop m vs d := by
  induction vs generalizing d with
  | nil => rfl
  | cons v vs ih =>
    unfold formFactorLoop
    have g : ∀ n, getFunctionDefinition n (withReference m t) = getFunctionDefinition n m := fun _ => rfl
    have g' : getInitialState (withReference m t) identityFunction = getInitialState m identityFunction :=
      distribution_withReference _ fun _ _ => rfl
    have e : formulateFormFactor v (withReference m t) = formulateFormFactor v m := by
      unfold formulateFormFactor
      simp only [g, g']
    rw [e]
    exact congrArg (Bind.bind _) (funext fun e => ih _)

theorem chains_withReference : getDecayChains (withReference m t) = getDecayChains m :=
  distribution_withReference _ fun _ _ => rfl

theorem states_withReference (f : String → String) :
    getStates (withReference m t) f = getStates m f := by
  have h1 : getInitialState (withReference m t) f = getInitialState m f :=
    distribution_withReference _ fun _ _ => rfl
  have h2 : getFinalState (withReference m t) f = getFinalState m f :=
    distribution_withReference _ fun _ _ => rfl
  unfold getStates
  rw [h1, h2]

theorem decay_withReference (f : String → String) : toDecay (withReference m t) f = toDecay m f := by
  have h1 : getInitialState (withReference m t) f = getInitialState m f :=
    distribution_withReference _ fun _ _ => rfl
  have h2 : getFinalState (withReference m t) f = getFinalState m f :=
    distribution_withReference _ fun _ _ => rfl
  unfold toDecay
  rw [states_withReference, chains_withReference, h1, h2]

theorem recoupling_withReference (n k : ℤ) :
    formulateRecoupling (withReference m t) n k = formulateRecoupling m n k := by
  have h1 : getInitialState (withReference m t) identityFunction = getInitialState m identityFunction :=
    distribution_withReference _ fun _ _ => rfl
  have h2 : getFinalState (withReference m t) identityFunction = getFinalState m identityFunction :=
    distribution_withReference _ fun _ _ => rfl
  unfold formulateRecoupling getParentSpin getChildSpins
  rw [chains_withReference, h1, h2]

theorem chain_withReference (h : IgnoresReference add m t) (l0 l1 l2 l3 : ℚ) (n : ℕ) :
    formulateChainAmplitude l0 l1 l2 l3 (withReference m t) n tl add =
      formulateChainAmplitude l0 l1 l2 l3 m n tl add := by
  unfold formulateChainAmplitude
  simp only [chains_withReference, dynamics_withReference h, formFactors_withReference, recoupling_withReference]

theorem loop_withReference (h : IgnoresReference add m t) (ps : List ((ℚ × ℚ × ℚ × ℚ) × ℕ)) (acc : Acc) :
    chainLoop (withReference m t) tl add ps acc = chainLoop m tl add ps acc := by
  induction ps generalizing acc with
  | nil => rfl
  | cons x ps ih =>
    unfold chainLoop
    rw [chain_withReference h]
    exact congrArg (Bind.bind _) (funext fun e => ih _)

theorem reads_withReference (hm : ReadsModel m D rd) :
    ReadsModel (withReference m t) { D with referenceTopology := t } rd := by
  obtain ⟨⟨rest, hr⟩, hk, hrd⟩ := hm
  refine ⟨⟨rest, ?_⟩, hk, hrd⟩
  unfold withReference
  rw [hr]
  rfl

/-! ### The theorems -/

/-- C101: the reference topology has no influence on the amplitudes, the parameters, the masses and the
Mandelstam variables of a model, nor on whether it can be formulated. -/
theorem C101_same (hm : ReadsModel m D rd) (hadd : IgnoresReference add m t) (ht : IsSpectator t r₂)
    (hr₂ : r₂ ∈ ([1, 2, 3] : List ℤ)) (h : formulate m cl tl add = .ok a) (cl' : Bool) :
    ∃ a', formulate (withReference m t) cl' tl add = .ok a' ∧ a'.decay = a.decay ∧
      a'.amplitudes = a.amplitudes ∧ a'.parameterDefaults = a.parameterDefaults ∧ a'.masses = a.masses ∧
      a'.invariants = a.invariants := by
  obtain ⟨K, E, P, Θ, ref, ids, zetas, terms, hf⟩ := formulate_inv hm.head hm.kinematics h
  obtain ⟨hd, hst, -⟩ := toDecay_standard hm.head hm.kinematics hf.decay
  have hids : getExistingSubsystemIds (withReference m t) = .ok ids := by
    rw [← hf.subsystems]
    exact distribution_withReference _ fun _ _ => rfl
  have hal : ∃ e, formulateAlignedAmplitude (withReference m t) (fun i => .sym (lambdaSym i)) = .ok e := by
    unfold formulateAlignedAmplitude
    rw [reference_ok (reads_withReference hm).head, states_withReference, hst]
    simp only [bind, Except.bind, pure, Except.pure, ((C52_spectator _).1 r₂).2 ht, serialFourSpins_eq hd,
      hids]
    rw [mapM_ok _ (fun _ => ()) _ (fun k hk => by unfold amplitudeBase; rw [if_pos (hf.bases k hk)])]
    simp only
    rw [alignedSum_eq hr₂ _ _ _ hf.bases]
    exact ⟨_, rfl⟩
  obtain ⟨e, he⟩ := hal
  unfold formulate at h ⊢
  simp only [bind_ok] at h
  obtain ⟨states, h1, s0, g0, s1, g1, s2, g2, s3, g3, cs, h2, acc, h3, al, h4, d, h5, masses, h6, inv, h7,
    h8⟩ := h
  injection h8 with h8
  subst h8
  simp only [states_withReference, chains_withReference, loop_withReference hadd, decay_withReference,
    h1, g0, g1, g2, g3, h2, h3, he, h5, h6, h7, bind, Except.bind, pure, Except.pure]
  exact ⟨_, rfl, rfl, rfl, rfl, rfl, rfl⟩

theorem topology_mem {k : ℤ} (h : k ∈ topologySubsystems D.chains) : k ∈ ([1, 2, 3] : List ℤ) := by
  classical
  unfold topologySubsystems at h
  simpa using (Finset.mem_filter.1 h).1

theorem zeta_serial (hm : ReadsModel m D rd) (h0 : NonnegativeSpins D)
    (href : IsSpectator D.referenceTopology r₁) (hr₁ : r₁ ∈ ([1, 2, 3] : List ℤ))
    (h : formulate m cl tl add = .ok a) (hρ : DalitzRegion ρ) (hang : AnglesAt ι ρ a) :
    ∀ k ∈ topologySubsystems D.chains, ∀ i : Fin 4, a.decay.spin i ≠ 0 →
      ι.sym (zetaSymbol i k r₁) = zv ρ i k r₁ := by
  intro k hk i hs
  have hi := fin4_mem i
  obtain ⟨e, he, hg⟩ := (C71_angles_defined hm h0 href hr₁ h).2 k hk i hi hs
  have hk' := topology_mem hk
  rw [zeta_eq hi hk' hr₁] at he
  cases he
  exact hang _ _ _ hg (zeta_defined hρ hi hk' hr₁)

/-- C101: replacing the reference topology by one with another spectator is the same as giving the amplitudes
of each subsystem the sign `refSign`, which is `-1` only for the third subsystem and half-integer initial
spin. -/
theorem C101_change (hm : ReadsModel m D rd) (h0 : NonnegativeSpins D) (hadd : IgnoresReference add m t)
    (href : IsSpectator D.referenceTopology r₁) (hr₁ : r₁ ∈ ([1, 2, 3] : List ℤ))
    (ht : IsSpectator t r₂) (hr₂ : r₂ ∈ ([1, 2, 3] : List ℤ)) (hne : r₁ ≠ r₂)
    (h : formulate m cl tl add = .ok a) (h' : formulate (withReference m t) cl' tl add = .ok a')
    (hρ : DalitzRegion ρ) (ha : AnglesAt ι ρ a) (ha' : AnglesAt ι ρ a')
    (hW : IsWignerD W) (hι : UsesWignerD ι W) (η : Sym → ℚ) :
    a.intensity.eval ι η =
      (intensityOver ι a.decay (topologySubsystems D.chains) r₁ (symbolValue ι) : ℂ) ∧
    a'.intensity.eval ι η = (intensityOver ι a.decay (topologySubsystems D.chains) r₁
      (fun k l => refSign a.decay r₁ r₂ k * symbolValue ι k l) : ℂ) ∧
    a.fullExpression.eval ι η =
      (intensityOver ι a.decay (topologySubsystems D.chains) r₁ (definedValue a ι η) : ℂ) ∧
    a'.fullExpression.eval ι η = (intensityOver ι a.decay (topologySubsystems D.chains) r₁
      (fun k l => refSign a.decay r₁ r₂ k * definedValue a ι η k l) : ℂ) := by
  obtain ⟨a₂, e1, e2, e3, -⟩ := C101_same hm hadd ht hr₂ h cl'
  rw [h'] at e1
  cases e1
  have hm' := reads_withReference (t := t) hm
  obtain ⟨p1, p2⟩ := C70_intensity_value hm h0 href hr₁ h ι η
  obtain ⟨q1, q2⟩ := C70_intensity_value hm' h0 ht hr₂ h' ι η
  have z1 := zeta_serial hm h0 href hr₁ h hρ ha
  have z2 := zeta_serial hm' h0 ht hr₂ h' hρ ha'
  rw [e2] at q1 q2 z2
  obtain ⟨K, E, P, Θ, ref, ids, zetas, terms, hf⟩ := formulate_inv hm.head hm.kinematics h
  have hd := (toDecay_standard hm.head hm.kinematics hf.decay).1
  have key := over_change hd hρ (fun k => topology_mem) hr₁ hr₂ hne z1 z2 hW hι
  have hdef : definedValue a' ι η = definedValue a ι η := by
    funext k l
    unfold definedValue
    rw [e3]
  refine ⟨p1, ?_, p2, ?_⟩
  · rw [q1]
    exact congrArg _ (key _)
  · rw [q2, hdef]
    exact congrArg _ (key _)

/-- C101: if the initial spin is an integer, or all chains have the spectator of one of the two reference
topologies, the reference topology does not matter; nor does it matter in which order it is written. -/
theorem C101_irrelevant (hm : ReadsModel m D rd) (h0 : NonnegativeSpins D) (hadd : IgnoresReference add m t)
    (href : IsSpectator D.referenceTopology r₁) (hr₁ : r₁ ∈ ([1, 2, 3] : List ℤ))
    (ht : IsSpectator t r₂) (hr₂ : r₂ ∈ ([1, 2, 3] : List ℤ))
    (h : formulate m cl tl add = .ok a) (h' : formulate (withReference m t) cl' tl add = .ok a')
    (hρ : DalitzRegion ρ) (ha : AnglesAt ι ρ a) (ha' : AnglesAt ι ρ a')
    (hW : IsWignerD W) (hι : UsesWignerD ι W) (η : Sym → ℚ)
    (hc : r₁ = r₂ ∨ IsInteger (a.decay.spin 0) ∨
      ∀ c ∈ D.chains, IsSpectator c.topology r₁ ∨ IsSpectator c.topology r₂) :
    a'.intensity.eval ι η = a.intensity.eval ι η ∧ a'.fullExpression.eval ι η = a.fullExpression.eval ι η := by
  classical
  by_cases hne : r₁ = r₂
  · subst hne
    obtain ⟨a₂, e1, e2, e3, -⟩ := C101_same hm hadd ht hr₂ h cl'
    rw [h'] at e1
    cases e1
    obtain ⟨p1, p2⟩ := C70_intensity_value hm h0 href hr₁ h ι η
    obtain ⟨q1, q2⟩ := C70_intensity_value (reads_withReference (t := t) hm) h0 ht hr₂ h' ι η
    have hdef : definedValue a' ι η = definedValue a ι η := by
      funext k l
      unfold definedValue
      rw [e3]
    rw [p1, p2, q1, q2, e2, hdef]
    exact ⟨rfl, rfl⟩
  · obtain ⟨q1, q2, q3, q4⟩ := C101_change hm h0 hadd href hr₁ ht hr₂ hne h h' hρ ha ha' hW hι η
    have hs : ∀ k ∈ topologySubsystems D.chains, refSign a.decay r₁ r₂ k = 1 := by
      intro k hk
      unfold refSign
      rw [if_pos]
      rcases hc with hc | hc | hc
      · exact absurd hc hne
      · exact .inl hc
      · unfold topologySubsystems at hk
        obtain ⟨-, c, hcm, hsp⟩ := Finset.mem_filter.1 hk
        rcases hc c hcm with hc | hc
        · exact .inr (.inl (hc.2 _ hsp.1))
        · exact .inr (.inr (hc.2 _ hsp.1))
    rw [q1, q2, q3, q4]
    constructor <;>
    · refine congrArg _ (intensityOver_congr fun k hk l _ => ?_)
      rw [hs k hk]
      simp

/-- C101: for half-integer initial spin and chains in the reference subsystem and in the third one, the intensity
does depend on the reference topology: there are values of the amplitudes for which it is 4 with one
reference and 0 with the other. -/
theorem C101_half_integer_depends (hm : ReadsModel m D rd) (h0 : NonnegativeSpins D)
    (hadd : IgnoresReference add m t)
    (href : IsSpectator D.referenceTopology r₁) (hr₁ : r₁ ∈ ([1, 2, 3] : List ℤ))
    (ht : IsSpectator t r₂) (hr₂ : r₂ ∈ ([1, 2, 3] : List ℤ)) (hne : r₁ ≠ r₂)
    (h : formulate m cl tl add = .ok a) (h' : formulate (withReference m t) cl' tl add = .ok a')
    (hρ : DalitzRegion ρ) (ha : AnglesAt ι ρ a) (ha' : AnglesAt ι ρ a')
    (hW : IsWignerD W) (hι : UsesWignerD ι W) (η : Sym → ℚ) (hspin : ¬ IsInteger (a.decay.spin 0))
    (hpop : ∃ c ∈ D.chains, IsSpectator c.topology r₁) {k : ℤ} (hk3 : k ∈ ([1, 2, 3] : List ℤ))
    (hk : ∃ c ∈ D.chains, IsSpectator c.topology k) (hk1 : k ≠ r₁) (hk2 : k ≠ r₂) :
    ∃ idx, a.intensity.eval { ι with idx := idx } η = 4 ∧ a'.intensity.eval { ι with idx := idx } η = 0 := by
  classical
  have hsub : ∀ {x}, x ∈ ([1, 2, 3] : List ℤ) → (∃ c ∈ D.chains, IsSpectator c.topology x) →
      x ∈ topologySubsystems D.chains := by
    intro x hx hc
    unfold topologySubsystems
    exact Finset.mem_filter.2 ⟨by simpa using hx, hc⟩
  obtain ⟨K, E, P, Θ, ref, ids, zetas, terms, hf⟩ := formulate_inv hm.head hm.kinematics h
  have hd := (toDecay_standard hm.head hm.kinematics hf.decay).1
  obtain ⟨A, g1, g2⟩ := over_depends (r₂ := r₂) hd (spins_nonneg hm h0 hf.decay) hr₁
    (zeta_serial hm h0 href hr₁ h hρ ha) hW hι hspin (hsub hr₁ hpop) (hsub hk3 hk) hk1 hk2
  refine ⟨(withAmplitudes ι A).idx, ?_⟩
  change a.intensity.eval (withAmplitudes ι A) η = 4 ∧ a'.intensity.eval (withAmplitudes ι A) η = 0
  obtain ⟨q1, q2, -, -⟩ := C101_change (ι := withAmplitudes ι A) hm h0 hadd href hr₁ ht hr₂ hne h h' hρ ha ha'
    hW hι η
  have hI : ∀ B, intensityOver (withAmplitudes ι A) a.decay (topologySubsystems D.chains) r₁ B =
      intensityOver ι a.decay (topologySubsystems D.chains) r₁ B := fun B => intensityOver_interp rfl rfl _ _ _ B
  have hval : ∀ x ∈ topologySubsystems D.chains, ∀ l, symbolValue (withAmplitudes ι A) x l = A x l :=
    fun x hx l => symbolValue_withAmplitudes A (topology_mem hx) l
  rw [q1, q2, hI, hI]
  constructor
  · rw [intensityOver_congr (B := A) fun x hx l _ => hval x hx l, g1]
    norm_num
  · rw [intensityOver_congr (B := fun k l => refSign a.decay r₁ r₂ k * A k l)
      fun x hx l _ => by rw [hval x hx l], g2]
    norm_num

/-- C101: the angles that occur with both reference topologies have the same definitions, so that there are values
of the angles that agree with the definitions of both models. -/
theorem C101_angles (hm : ReadsModel m D rd)
    (href : IsSpectator D.referenceTopology r₁) (hr₁ : r₁ ∈ ([1, 2, 3] : List ℤ))
    (ht : IsSpectator t r₂) (hr₂ : r₂ ∈ ([1, 2, 3] : List ℤ))
    (h : formulate m cl tl add = .ok a) (h' : formulate (withReference m t) cl' tl add = .ok a') :
    (∀ s e e', PyDict.get? a.angleDefs s = some e → PyDict.get? a'.angleDefs s = some e' → e = e') ∧
    ∀ (ι : Interp) (ρ : Sym → ℝ), ∃ ι', SameFunctions ι ι' ∧ ι'.idx = ι.idx ∧ AnglesAt ι' ρ a ∧
      AnglesAt ι' ρ a' := by
  have hinj : ∀ i ∈ ([1, 2, 3] : List ℤ), ∀ j ∈ ([1, 2, 3] : List ℤ), ∀ i' ∈ ([1, 2, 3] : List ℤ),
      ∀ j' ∈ ([1, 2, 3] : List ℤ), thetaSym i j = thetaSym i' j' → i = i' ∧ j = j' := by decide
  have hdiff : ∀ i j i' k r, thetaSym i j ≠ Angles.zetaSym i' k r := by
    intro i j i' k r h
    have := congrArg (fun s => s.name.toList.head?) h
    simp [Angles.zetaSym, thetaSym, String.toList_append] at this
  have key : ∀ s e e', PyDict.get? a.angleDefs s = some e → PyDict.get? a'.angleDefs s = some e' → e = e' := by
    intro s e e' g g'
    rcases serial_angleDefs hm href hr₁ h (PyDict.mem_of_get? g) with ⟨c, hc, h6, h7⟩ | ⟨i, hi, k, hk, h7⟩ <;>
    rcases serial_angleDefs (reads_withReference (t := t) hm) ht hr₂ h' (PyDict.mem_of_get? g') with
      ⟨c', hc', g6, g7⟩ | ⟨i', hi', k', hk', g7⟩
    · obtain ⟨e1, e2, -, -⟩ := standard_mem (hm.reads c hc).2
      obtain ⟨f1, f2, -, -⟩ := standard_mem (hm.reads c' hc').2
      obtain ⟨q1, q2⟩ := hinj _ e1 _ e2 _ f1 _ f2 (h7.symm.trans g7)
      rw [q1, q2, g6] at h6
      injection h6 with h6
      injection h6 with _ h6
      exact h6.symm
    · injection g7 with g7 _
      exact absurd (h7.symm.trans g7) (hdiff _ _ _ _ _)
    · injection h7 with h7 _
      exact absurd (g7.symm.trans h7) (hdiff _ _ _ _ _)
    · injection h7 with h7 h8
      injection g7 with g7 g8
      have z1 := zeta_eq hi hk hr₁
      have z2 := zeta_eq hi' hk' hr₂
      rw [← h7] at z1
      rw [← g7] at z2
      have := Angles.C13_zeta_symbols_injective z1 z2
      injection this with a1 a2
      injection a2 with a2 a3
      rw [h8, g8, a1, a2, a3]
  refine ⟨key, fun ι ρ => ⟨{ ι with sym := fun s =>
    ((((PyDict.get? a.angleDefs s).or (PyDict.get? a'.angleDefs s)).bind fun e => e.eval ρ).getD 0 : ℝ) },
    ⟨rfl, rfl, rfl, rfl, rfl⟩, rfl, ?_, ?_⟩⟩
  · intro s e v g hv
    simp [g, hv]
  · intro s e v g hv
    cases g' : PyDict.get? a.angleDefs s with
    | none => simp [g', g, hv]
    | some e' =>
      have := key s e' e g' g
      subst this
      simp [g', hv]

/-! ### The conditions can be met -/

/-- The example model, in which `Λc → p π K` has reference 1 and chains in subsystems 1 and 2, and the same with
reference 3: all conditions of `C101_half_integer_depends` are met at the centre of the Dalitz plot of
`5 → 1 1 1`, so that the intensity does depend on the reference topology. -/
example : ∃ a a' ι η, formulate exModel true id none = .ok a ∧
    formulate (withReference exModel [.seq [.id 1, .id 2], .id 3]) true id none = .ok a' ∧
    a.intensity.eval ι η = 4 ∧ a'.intensity.eval ι η = 0 := by
  obtain ⟨a, ha⟩ := exModel_ok id true
  have hadd : IgnoresReference none exModel [.seq [.id 1, .id 2], .id 3] := by intro _ h; cases h
  have ht : IsSpectator [.seq [.id 1, .id 2], .id 3] 3 := ⟨by simp, by simp⟩
  obtain ⟨a', ha', -⟩ := C101_same exModel_reads hadd ht (by simp) ha true
  let ρ : Sym → ℝ := fun s => if s.name = "m0" then 5 else if s.name = "m1" then 1
      else if s.name = "m2" then 1 else if s.name = "m3" then 1 else 28 / 3
  have hρ : DalitzInterior ρ := by constructor <;> simp [ρ, SumRule, BetweenThresholds, lam] <;> norm_num
  obtain ⟨ι, hι, -, h1, h2⟩ := (C101_angles exModel_reads exModel_reference (by simp) ht (by simp) ha ha').2
    (ThreeBody.exInterp ρ) ρ
  have hW : UsesWignerD ι Wigner.wignerD := by
    intro j m m' x
    rw [← hι.wig]
    exact ThreeBody.exInterp_wigner ρ j m m' x
  have hspin : ¬ IsInteger (a.decay.spin 0) := by
    rintro ⟨z, hz⟩
    rw [(exModel_spins ha).1] at hz
    have : ((1 : ℤ) : ℚ) = ((2 * z : ℤ) : ℚ) := by push_cast; linarith
    have : (1 : ℤ) = 2 * z := by exact_mod_cast this
    omega
  obtain ⟨idx, p, q⟩ := C101_half_integer_depends exModel_reads exDistribution_nonneg hadd exModel_reference
    (by simp) ht (by simp) (by norm_num) ha ha' hρ.region h1 h2 Wigner.isWignerD hW (fun _ => 0) hspin
    ⟨exKstar, by simp [exDistribution], by simp [exKstar], by simp [exKstar]⟩ (k := 2) (by simp)
    ⟨exLambda, by simp [exDistribution], by simp [exLambda], by simp [exLambda]⟩ (by norm_num) (by norm_num)
  exact ⟨a, a', _, _, ha, ha', p, q⟩

/-- With reference 2 instead of 1 the intensity stays the same, for all values of the amplitudes: no chain has
spectator 3. -/
example : ∃ a a', ∃ ι : Interp, formulate exModel true id none = .ok a ∧
    formulate (withReference exModel [.id 2, .seq [.id 3, .id 1]]) true id none = .ok a' ∧
    ∀ idx η, a'.intensity.eval { ι with idx := idx } η = a.intensity.eval { ι with idx := idx } η := by
  obtain ⟨a, ha⟩ := exModel_ok id true
  have hadd : IgnoresReference none exModel [.id 2, .seq [.id 3, .id 1]] := by intro _ h; cases h
  have ht : IsSpectator [.id 2, .seq [.id 3, .id 1]] 2 := ⟨by simp, by simp⟩
  obtain ⟨a', ha', -⟩ := C101_same exModel_reads hadd ht (by simp) ha true
  let ρ : Sym → ℝ := fun s => if s.name = "m0" then 5 else if s.name = "m1" then 1
      else if s.name = "m2" then 1 else if s.name = "m3" then 1 else 28 / 3
  have hρ : DalitzInterior ρ := by constructor <;> simp [ρ, SumRule, BetweenThresholds, lam] <;> norm_num
  obtain ⟨ι, hι, -, h1, h2⟩ := (C101_angles exModel_reads exModel_reference (by simp) ht (by simp) ha ha').2
    (ThreeBody.exInterp ρ) ρ
  have hW : UsesWignerD ι Wigner.wignerD := by
    intro j m m' x
    rw [← hι.wig]
    exact ThreeBody.exInterp_wigner ρ j m m' x
  refine ⟨a, a', ι, ha, ha', fun idx η => ?_⟩
  refine (C101_irrelevant (ι := { ι with idx := idx }) exModel_reads exDistribution_nonneg hadd exModel_reference
    (by simp) ht (by simp) ha ha' hρ.region h1 h2 Wigner.isWignerD hW η (.inr (.inr fun c hc => ?_))).1
  simp only [exDistribution, List.mem_cons, List.not_mem_nil, or_false] at hc
  rcases hc with rfl | rfl | rfl
  · exact .inr ⟨by simp [exLambda], by simp [exLambda]⟩
  · exact .inl ⟨by simp [exKstar], by simp [exKstar]⟩
  · exact .inl ⟨by simp [exKstar], by simp [exKstar]⟩

end Verif.Serialization
