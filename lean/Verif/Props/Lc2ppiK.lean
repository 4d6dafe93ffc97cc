import Verif.Proofs.Lc2ppiK
import Verif.Model.SerialBugg
import Verif.Props.SerialClosure
import Verif.Props.SerialComplete
import Verif.Props.LineshapeBuilder
import Verif.Props.SerialDynamics
import Verif.Props.WeightNames

/-!
The amplitude model that comes with the code (`/repo/docs/Lc2ppiK.json`) meets the hypotheses of the
theorems about serialized models.
-/
namespace Verif.Serialization
open Verif Verif.ThreeBody Verif.Spec Verif.Spin Verif.Angles

/-- The readings of the chains: in all of them, the production vertex is the first one. -/
def lcReading (c : ChainDefinition) : Reading :=
  match c.vertices with
  | [⟨_, [_, .id k], _, some [some lR, some lk], _, _, _⟩, ⟨_, [.id i, .id j], _, some [some li, some lj], _, _, _⟩] =>
    ⟨i, j, k, lR, lk, li, lj⟩
  | _ => ⟨0, 0, 0, 0, 0, 0, 0⟩

theorem lc_forall {P : ChainDefinition → Prop} (h0 : P lc0) (h1 : P lc1) (h2 : P lc2) (h3 : P lc3) (h4 : P lc4)
    (h5 : P lc5) (h6 : P lc6) (h7 : P lc7) (h8 : P lc8) (h9 : P lc9) (h10 : P lc10) (h11 : P lc11)
    (h12 : P lc12) (h13 : P lc13) (h14 : P lc14) (h15 : P lc15) (h16 : P lc16) (h17 : P lc17)
    (h18 : P lc18) (h19 : P lc19) (h20 : P lc20) (h21 : P lc21) (h22 : P lc22) (h23 : P lc23)
    (h24 : P lc24) (h25 : P lc25) : ∀ c ∈ lcDistribution.chains, P c := by
  simp only [lcDistribution, lcChains, List.forall_mem_cons]
  exact ⟨h0, h1, h2, h3, h4, h5, h6, h7, h8, h9, h10, h11, h12, h13, h14, h15, h16, h17, h18, h19, h20, h21,
    h22, h23, h24, h25, by simp⟩

theorem lcKinematics_wf : WellFormedKinematics lcKinematics where
  initial := rfl
  final := by decide
  spins := by
    intro d hd
    simp only [lcKinematics, List.mem_cons, List.not_mem_nil, or_false] at hd
    rcases hd with rfl | rfl | rfl | rfl
    · exact ⟨_, rfl, half_half⟩
    · exact ⟨_, rfl, half_half⟩
    · exact ⟨_, rfl, half_zero⟩
    · exact ⟨_, rfl, half_zero⟩

theorem lcModel_reads : ReadsModel lcModel lcDistribution lcReading where
  head := ⟨[], rfl⟩
  kinematics := lcKinematics_wf
  reads := by
    apply lc_forall <;>
    exact ⟨⟨_, _, .inl rfl, ⟨_, _, .inl ⟨rfl, rfl⟩⟩, rfl, rfl⟩, by unfold Reading.Standard; decide⟩

theorem lcDistribution_nonneg : NonnegativeSpins lcDistribution := by
  intro d hd s hs
  simp only [lcDistribution, lcKinematics, List.mem_cons, List.not_mem_nil, or_false] at hd
  rcases hd with rfl | rfl | rfl | rfl <;> cases hs <;> norm_num

theorem lcModel_topology : ∀ c ∈ lcDistribution.chains, IsSpectator c.topology (lcReading c).k := by
  apply lc_forall <;>
  simp [IsSpectator, lcReading, lc0, lc1, lc2, lc3, lc4, lc5, lc6, lc7, lc8, lc9, lc10, lc11, lc12, lc13, lc14,
    lc15, lc16, lc17, lc18, lc19, lc20, lc21, lc22, lc23, lc24, lc25]

theorem lcModel_reference : IsSpectator lcDistribution.referenceTopology 2 := by
  simp [IsSpectator, lcDistribution]

theorem lc_initial : getInitialState lcModel identityFunction =
    .ok ⟨⟨"Lc", "Lc", 1 / 2, none, 114323 / 50000, 0⟩, 0⟩ := by decide +kernel

theorem lc_final : getFinalState lcModel identityFunction =
    .ok [(1, ⟨⟨"p", "p", 1 / 2, none, 469136023 / 500000000, 0⟩, 1⟩), (2, ⟨⟨"pi", "pi", 0, none, 6978509 / 50000000, 0⟩, 2⟩),
      (3, ⟨⟨"K", "K", 0, none, 493677 / 1000000, 0⟩, 3⟩)] := by decide +kernel

theorem lc_ff {v : Vertex} {i j k : ℤ} {s : Sym} (h : v.formfactor = some "BlattWeisskopf_b_decay_l1")
    (hn : v.node = [.seq [.id i, .id j], .id k]) (hs : toMassSymbol (.seq [.id i, .id j]) = .ok s) :
    ∃ d, formulateFormFactor v lcModel = .ok d :=
  ⟨_, formFactor_ok.2 (.inr ⟨_, _, _, _, _, _, _, _, _, _, h, by decide, rfl, rfl, by rw [hn]; rfl, hn, hs, rfl,
    .inr ⟨by rw [hn]; rfl, _, lc_initial, rfl⟩, rfl, rfl, rfl⟩)⟩

theorem bugg_ok {m : ModelDefinition} {p : Propagator} {R : String} {e : DefExpr} :
    formulateBuggBreitWigner p R m = .ok e ↔ ∃ f i j s m1 m2 final mass width ma mb slope,
      getFunctionDefinition p.parametrization m = .ok f ∧ p.node = [i, j] ∧
      toMandelstamSymbol p.node = .ok s ∧ toMassSymbol i = .ok m1 ∧ toMassSymbol j = .ok m2 ∧
      getFinalState m identityFunction = .ok final ∧
      PyDict.get? f.fields "mass" = some mass ∧ PyDict.get? f.fields "width" = some width ∧
      finalStateMass final i = .ok ma ∧ finalStateMass final j = .ok mb ∧ PyDict.get? f.fields "slope" = some slope ∧
      e = ⟨buggBreitWigner (.sym s) (.sym (resonanceMass R)) (.sym (resonanceWidth R)) (.sym m1) (.sym m2)
          (.sym ⟨"\\gamma_{" ++ R ++ "}", .nonneg⟩),
        PyDict.ofItems [(.sym (resonanceMass R), .real mass), (.sym (resonanceWidth R), .real width),
          (.sym m1, .real ma), (.sym m2, .real mb), (.sym ⟨"\\gamma_{" ++ R ++ "}", .nonneg⟩, .real slope)]⟩ := by
  unfold formulateBuggBreitWigner
  simp only [bind_ok]
  constructor
  · rintro ⟨f, h1, ⟨i, j⟩, h2, s, h3, m1, h4, m2, h5, final, h6, mass, h7, width, h8, ma, h9, mb, h10, d, h11, h⟩
    injection h with h
    exact ⟨f, i, j, s, m1, m2, final, mass, width, ma, mb, d, h1, unpack2_ok.1 h2, h3, h4, h5, h6,
      get_ok.1 h7, get_ok.1 h8, h9, h10, get_ok.1 h11, h.symm⟩
  · rintro ⟨f, i, j, s, m1, m2, final, mass, width, ma, mb, d, h1, h2, h3, h4, h5, h6, h7, h8, h9, h10, h11, rfl⟩
    exact ⟨f, h1, (i, j), unpack2_ok.2 h2, s, h3, m1, h4, m2, h5, final, h6, mass, get_ok.2 h7,
      width, get_ok.2 h8, ma, h9, mb, h10, d, get_ok.2 h11, rfl⟩

theorem lc_bugg_eq {tl : String → String} {c : ChainDefinition} {spin : Option ℚ} {name : String}
    {f : FunctionDefinition} {x y z : ℚ} (h : c.propagators = [⟨spin, [.id 2, .id 3], name⟩])
    (hf : lcModel.functions.find? (fun f => f.name = name) = some f)
    (hf' : (f.type, f.fields) = ("BreitWignerWidthExpLikeBugg", [("slope", x), ("mass", y), ("width", z)])) :
    formulateDynamics c lcModel tl (some docsBuilders) = .ok (({} : DefExpr).mul (.defined
      ⟨buggBreitWigner (.sym (mandelstam 1)) (.sym (resonanceMass (tl c.name))) (.sym (resonanceWidth (tl c.name)))
          (.sym (massOfState 2)) (.sym (massOfState 3)) (.sym ⟨"\\gamma_{" ++ tl c.name ++ "}", .nonneg⟩),
        PyDict.ofItems [(.sym (resonanceMass (tl c.name)), .real y), (.sym (resonanceWidth (tl c.name)), .real z),
          (.sym (massOfState 2), .real (6978509 / 50000000)), (.sym (massOfState 3), .real (493677 / 1000000)),
          (.sym ⟨"\\gamma_{" ++ tl c.name ++ "}", .nonneg⟩, .real x)]⟩)) := by
  obtain ⟨n, t, fl, ch⟩ := f
  cases hf'
  have hg : getFunctionDefinition name lcModel =
      .ok ⟨n, "BreitWignerWidthExpLikeBugg", [("slope", x), ("mass", y), ("width", z)], ch⟩ := by
    unfold getFunctionDefinition
    rw [hf]
  have hb := (bugg_ok (p := ⟨spin, [.id 2, .id 3], name⟩) (R := tl c.name)).2 ⟨_, _, _, _, _, _, _, y, z, _, _, x, hg,
    rfl, rfl, rfl, rfl, lc_final, rfl, rfl, rfl, rfl, rfl, rfl⟩
  unfold formulateDynamics dynamicsLoop
  rw [h]
  simp only
  rw [hg]
  change (formulateBuggBreitWigner _ _ _ >>= _) = _
  rw [hb]
  rfl

theorem lc_bugg {tl : String → String} {c : ChainDefinition} {spin : Option ℚ} {name : String}
    {f : FunctionDefinition} {x y z : ℚ} (h : c.propagators = [⟨spin, [.id 2, .id 3], name⟩])
    (hf : lcModel.functions.find? (fun f => f.name = name) = some f)
    (hf' : (f.type, f.fields) = ("BreitWignerWidthExpLikeBugg", [("slope", x), ("mass", y), ("width", z)])) :
    ∃ d, formulateDynamics c lcModel tl (some docsBuilders) = .ok d := ⟨_, lc_bugg_eq h hf hf'⟩

theorem lc_sign {v : Vertex} (h : v.type = "parity") (h' : v.parityFactor = some "+" ∨ v.parityFactor = some "-") :
    KnownVertex v := by
  refine .inr ⟨h, fun s hs => ?_⟩
  rcases h' with h' | h' <;> rw [h'] at hs <;> cases hs
  · exact .inl (exSign rfl)
  · exact .inr (.inl (exSign rfl))

variable {tl : String → String} {cl : Bool} {a : AmplitudeModel}

theorem lc_complete {c : ChainDefinition} {v w : Vertex} {n : ℤ} {p : Propagator} (hv : c.vertices = [v, w])
    (h1 : v.type = "helicity") (h2 : w.type = "parity")
    (h3 : w.parityFactor = some "+" ∨ w.parityFactor = some "-") (h4 : c.weight.isSome) (h5 : c.propagators = [p])
    (h6 : p.spin = some ((n : ℚ) / 2)) (h7 : (lcReading c).k ∈ ([1, 2, 3] : List ℤ))
    (h8 : IsSpectator c.topology (lcReading c).k)
    (h9 : ∃ d, formulateDynamics c lcModel tl (some docsBuilders) = .ok d)
    (h10 : ∃ d, formulateFormFactor v lcModel = .ok d) (h11 : ∃ d, formulateFormFactor w lcModel = .ok d) :
    CompleteChain lcModel tl (some docsBuilders) c where
  vertices := by
    rw [hv]
    intro x hx
    simp only [List.mem_cons, List.not_mem_nil, or_false] at hx
    rcases hx with rfl | rfl
    · exact .inl h1
    · exact lc_sign h2 h3
  weight := h4
  spin := ⟨_, ⟨_, _, h5, h6⟩, n, rfl⟩
  topology := ⟨_, h7, h8⟩
  lineshape := h9
  formFactors := by
    rw [hv]
    intro x hx
    simp only [List.mem_cons, List.not_mem_nil, or_false] at hx
    rcases hx with rfl | rfl
    · exact h10
    · exact h11

theorem lcModel_complete : ∀ c ∈ lcDistribution.chains, CompleteChain lcModel tl (some docsBuilders) c := by
  have h := lcModel_topology
  simp only [lcDistribution, lcChains, List.forall_mem_cons] at h
  obtain ⟨h0, h1, h2, h3, h4, h5, h6, h7, h8, h9, h10, h11, h12, h13, h14, h15, h16, h17, h18, h19, h20, h21,
    h22, h23, h24, h25, -⟩ := h
  have half : (1 / 2 : ℚ) = (1 : ℤ) / 2 := by norm_num
  have three : (3 / 2 : ℚ) = (3 : ℤ) / 2 := by norm_num
  have zero : (0 : ℚ) = (0 : ℤ) / 2 := by norm_num
  have one : (1 : ℚ) = (2 : ℤ) / 2 := by norm_num
  apply lc_forall
  · exact lc_complete rfl rfl rfl (.inl rfl) rfl rfl (congrArg some half) (by decide) h0
      ⟨_, rfl⟩ ⟨_, rfl⟩ ⟨_, rfl⟩
  · exact lc_complete rfl rfl rfl (.inl rfl) rfl rfl (congrArg some half) (by decide) h1
      ⟨_, rfl⟩ ⟨_, rfl⟩ ⟨_, rfl⟩
  · exact lc_complete rfl rfl rfl (.inr rfl) rfl rfl (congrArg some three) (by decide) h2
      ⟨_, rfl⟩ (lc_ff rfl rfl rfl) ⟨_, rfl⟩
  · exact lc_complete rfl rfl rfl (.inr rfl) rfl rfl (congrArg some three) (by decide) h3
      ⟨_, rfl⟩ (lc_ff rfl rfl rfl) ⟨_, rfl⟩
  · exact lc_complete rfl rfl rfl (.inr rfl) rfl rfl (congrArg some half) (by decide) h4
      ⟨_, rfl⟩ ⟨_, rfl⟩ ⟨_, rfl⟩
  · exact lc_complete rfl rfl rfl (.inr rfl) rfl rfl (congrArg some half) (by decide) h5
      ⟨_, rfl⟩ ⟨_, rfl⟩ ⟨_, rfl⟩
  · exact lc_complete rfl rfl rfl (.inl rfl) rfl rfl (congrArg some half) (by decide) h6
      ⟨_, rfl⟩ ⟨_, rfl⟩ ⟨_, rfl⟩
  · exact lc_complete rfl rfl rfl (.inl rfl) rfl rfl (congrArg some half) (by decide) h7
      ⟨_, rfl⟩ ⟨_, rfl⟩ ⟨_, rfl⟩
  · exact lc_complete rfl rfl rfl (.inr rfl) rfl rfl (congrArg some three) (by decide) h8
      ⟨_, rfl⟩ (lc_ff rfl rfl rfl) ⟨_, rfl⟩
  · exact lc_complete rfl rfl rfl (.inr rfl) rfl rfl (congrArg some three) (by decide) h9
      ⟨_, rfl⟩ (lc_ff rfl rfl rfl) ⟨_, rfl⟩
  · exact lc_complete rfl rfl rfl (.inl rfl) rfl rfl (congrArg some half) (by decide) h10
      ⟨_, rfl⟩ ⟨_, rfl⟩ ⟨_, rfl⟩
  · exact lc_complete rfl rfl rfl (.inl rfl) rfl rfl (congrArg some half) (by decide) h11
      ⟨_, rfl⟩ ⟨_, rfl⟩ ⟨_, rfl⟩
  · exact lc_complete rfl rfl rfl (.inl rfl) rfl rfl (congrArg some three) (by decide) h12
      ⟨_, rfl⟩ (lc_ff rfl rfl rfl) ⟨_, rfl⟩
  · exact lc_complete rfl rfl rfl (.inl rfl) rfl rfl (congrArg some three) (by decide) h13
      ⟨_, rfl⟩ (lc_ff rfl rfl rfl) ⟨_, rfl⟩
  · exact lc_complete rfl rfl rfl (.inl rfl) rfl rfl (congrArg some three) (by decide) h14
      ⟨_, rfl⟩ (lc_ff rfl rfl rfl) ⟨_, rfl⟩
  · exact lc_complete rfl rfl rfl (.inl rfl) rfl rfl (congrArg some three) (by decide) h15
      ⟨_, rfl⟩ (lc_ff rfl rfl rfl) ⟨_, rfl⟩
  · exact lc_complete rfl rfl rfl (.inr rfl) rfl rfl (congrArg some three) (by decide) h16
      ⟨_, rfl⟩ (lc_ff rfl rfl rfl) ⟨_, rfl⟩
  · exact lc_complete rfl rfl rfl (.inr rfl) rfl rfl (congrArg some three) (by decide) h17
      ⟨_, rfl⟩ (lc_ff rfl rfl rfl) ⟨_, rfl⟩
  · exact lc_complete rfl rfl rfl (.inl rfl) rfl rfl (congrArg some zero) (by decide) h18
      (lc_bugg rfl rfl rfl) ⟨_, rfl⟩ ⟨_, rfl⟩
  · exact lc_complete rfl rfl rfl (.inl rfl) rfl rfl (congrArg some zero) (by decide) h19
      (lc_bugg rfl rfl rfl) ⟨_, rfl⟩ ⟨_, rfl⟩
  · exact lc_complete rfl rfl rfl (.inl rfl) rfl rfl (congrArg some one) (by decide) h20
      ⟨_, rfl⟩ ⟨_, rfl⟩ ⟨_, rfl⟩
  · exact lc_complete rfl rfl rfl (.inl rfl) rfl rfl (congrArg some one) (by decide) h21
      ⟨_, rfl⟩ ⟨_, rfl⟩ ⟨_, rfl⟩
  · exact lc_complete rfl rfl rfl (.inl rfl) rfl rfl (congrArg some one) (by decide) h22
      ⟨_, rfl⟩ ⟨_, rfl⟩ ⟨_, rfl⟩
  · exact lc_complete rfl rfl rfl (.inl rfl) rfl rfl (congrArg some one) (by decide) h23
      ⟨_, rfl⟩ ⟨_, rfl⟩ ⟨_, rfl⟩
  · exact lc_complete rfl rfl rfl (.inl rfl) rfl rfl (congrArg some zero) (by decide) h24
      (lc_bugg rfl rfl rfl) ⟨_, rfl⟩ ⟨_, rfl⟩
  · exact lc_complete rfl rfl rfl (.inl rfl) rfl rfl (congrArg some zero) (by decide) h25
      (lc_bugg rfl rfl rfl) ⟨_, rfl⟩ ⟨_, rfl⟩

/-- The builder of the documentation returns closed lineshapes with nonnegative parameters. -/
theorem docs_closed {m : ModelDefinition} {p : Propagator} {R : String} {e : DefExpr}
    (h : formulateBuggBreitWigner p R m = .ok e) : ClosedLineshape e ∧ HelicityFree e.expression ∧
      ∀ y ∈ e.parameters, ∃ s : Sym, y.1 = .sym s ∧ s.asm = .nonneg := by
  obtain ⟨f, i, j, s, m1, m2, final, mass, width, ma, mb, d, -, hn, hs, h1, h2, -, -, -, -, -, -, rfl⟩ := bugg_ok.1 h
  refine ⟨?_, fun _ _ _ => rfl, ?_⟩
  · refine ⟨rfl, rfl, fun x hx => ?_⟩
    have hx : x ∈ [resonanceMass R, s, s, m1, m2, resonanceMass R, m1, m2, resonanceMass R, resonanceWidth R,
        ⟨"\\gamma_{" ++ R ++ "}", .nonneg⟩, s] := hx
    simp only [List.mem_cons, List.not_mem_nil, or_false] at hx
    have hk : ∀ k, k ∈ [Key.sym (resonanceMass R), .sym (resonanceWidth R), .sym m1, .sym m2,
        .sym ⟨"\\gamma_{" ++ R ++ "}", .nonneg⟩] →
        k ∈ PyDict.keys (PyDict.ofItems [(Key.sym (resonanceMass R), Val.real mass),
          (.sym (resonanceWidth R), .real width), (.sym m1, .real ma), (.sym m2, .real mb),
          (.sym ⟨"\\gamma_{" ++ R ++ "}", .nonneg⟩, .real d)]) := by
      intro k hk
      rw [PyDict.ofItems, PyDict.mem_keys_update]
      exact .inr hk
    rcases hx with rfl | rfl | rfl | rfl | rfl | rfl | rfl | rfl | rfl | rfl | rfl | rfl
    all_goals first
      | exact .inl (mandelstam_provided hs)
      | exact .inr (hk _ (by simp))
  · intro y hy
    have hy := PyDict.mem_ofItems hy
    simp only [List.mem_cons, List.not_mem_nil, or_false] at hy
    rcases hy with rfl | rfl | rfl | rfl | rfl
    · exact ⟨_, rfl, rfl⟩
    · exact ⟨_, rfl, rfl⟩
    · exact ⟨_, rfl, massSymbol_nonneg h1⟩
    · exact ⟨_, rfl, massSymbol_nonneg h2⟩
    · exact ⟨_, rfl, rfl⟩

theorem docs_builders {m : ModelDefinition} : ∀ defs, some docsBuilders = some defs → ∀ x ∈ defs, ∀ p R e,
    x.2 p R m = .ok e → formulateBuggBreitWigner p R m = .ok e := by
  rintro defs hd x hx p R e h
  cases hd
  cases List.mem_singleton.1 hx
  exact h

theorem docs_free {m : ModelDefinition} : FreeBuilders (some docsBuilders) m :=
  fun d hd x hx p R e h => (docs_closed (docs_builders d hd x hx p R e h)).2.1

theorem docs_nonnegative {m : ModelDefinition} : NonnegativeParameters (some docsBuilders) m :=
  fun d hd x hx p R e h => (docs_closed (docs_builders d hd x hx p R e h)).2.2

/-- C122: `formulate` returns a model for docs/Lc2ppiK.json and the builders of docs/serialization.ipynb. -/
theorem C122_returns (tl : String → String) (cl : Bool) : ∃ a, formulate lcModel cl tl (some docsBuilders) = .ok a :=
  C60_returns lcModel_reads lcModel_reference (by simp) lcModel_complete cl

/-- C122: without these builders, or with others for other function types, it cannot be formulated. -/
theorem C122_needs_builder {add : Option (PyDict String PropagatorBuilder)}
    (hadd : PyDict.get? (dynamicsDefinitions add) "BreitWignerWidthExpLikeBugg" = none)
    (tl : String → String) (cl : Bool) : ∃ e, formulate lcModel cl tl add = .error e := by
  cases h : formulate lcModel cl tl add with
  | error e => exact ⟨e, rfl⟩
  | ok a =>
    have := (C114_returns_iff lcModel_reads lcDistribution_nonneg lcModel_reference (by simp) cl).1 ⟨a, h⟩ lc18
      (by simp [lcDistribution, lcChains])
    obtain ⟨d, hd⟩ := this.lineshape
    have : formulateDynamics lc18 lcModel tl add = .error .notImplementedError := by
      unfold formulateDynamics
      change dynamicsLoop _ _ _ [_] _ = _
      unfold dynamicsLoop
      change (match PyDict.get? (dynamicsDefinitions add) "BreitWignerWidthExpLikeBugg" with
        | none => _ | some b => _) = _
      rw [hadd]
    rw [this] at hd
    cases hd

/-- C122: the intensity of the published model is not negative, and it is the intensity of the decay
with reference subsystem 2, with or without clean-up. -/
theorem C122_intensity (h : formulate lcModel cl tl (some docsBuilders) = .ok a) (ι : Interp) (η : Sym → ℚ) :
    a.fullExpression.eval ι η = (Spec.intensity ι a.decay 2 (definedValue a ι η) : ℂ) ∧
    0 ≤ Spec.intensity ι a.decay 2 (definedValue a ι η) := by
  have h1 := (C70_intensity_of_decay lcModel_reads lcDistribution_nonneg lcModel_topology lcModel_reference (by simp) h
    ι η).2
  refine ⟨h1, ?_⟩
  obtain ⟨x, hx, h2⟩ := C70_nonnegative lcModel_reads lcDistribution_nonneg lcModel_reference (by simp) h ι η
  rw [h1] at h2
  rwa [Complex.ofReal_injective h2]

/-- C122: everything in the published model is defined: every symbol is an angle with a definition, a
Mandelstam variable or a parameter with a default value. -/
theorem C122_closed (h : formulate lcModel cl tl (some docsBuilders) = .ok a) : Closed a :=
  C75_closed lcModel_reads lcDistribution_nonneg lcModel_reference (by simp)
    (fun d hd x hx p R e he => (docs_closed (docs_builders d hd x hx p R e he)).1) h

/-- What distinguishes the chains of the published model. -/
def lcKey (c : ChainDefinition) : String × ℚ × ℚ := (c.name, (lcReading c).lR, (lcReading c).hel 1)

theorem lcKey_nodup : (lcDistribution.chains.map lcKey).Nodup := by decide +kernel

/-- C122: the 26 weights of the file are the default values of 26 different parameters, if the translation
to LaTeX gives different results for different names. -/
theorem C122_weights (htl : ∀ c ∈ lcDistribution.chains, ∀ c' ∈ lcDistribution.chains, tl c.name = tl c'.name → c.name = c'.name)
    (h : formulate lcModel cl tl (some docsBuilders) = .ok a) {c : ChainDefinition} (hc : c ∈ lcDistribution.chains)
    {re im : ℚ} (hw : c.weight = some (re, im)) :
    PyDict.get? a.parameterDefaults (.sym (weightSymbol tl c (lcReading c))) =
      some (if im = 0 then .real re else .cplx re im) := by
  refine C60_own_weights docs_nonnegative lcModel_reads lcDistribution_nonneg h (fun c hc c' hc' h1 h2 h3 => ?_) hc hw
  exact List.inj_on_of_nodup_map lcKey_nodup hc hc' (by
    unfold lcKey
    rw [htl c hc c' hc' h1, h2, h3 1 (by simp)])

/-- C122: the masses of the states are those of the kinematics, although the first channel of the
`L1405_Flatte` of the file has them in the opposite order of the node of the propagator. -/
theorem C122_masses (h : formulate lcModel cl tl (some docsBuilders) = .ok a) :
    PyDict.get? a.parameterDefaults (.sym (massOfState 1)) = some (.real (469136023 / 500000000)) ∧
    PyDict.get? a.parameterDefaults (.sym (massOfState 3)) = some (.real (493677 / 1000000)) ∧
    ∃ p f c, p ∈ lc0.propagators ∧ p.node = [.id 3, .id 1] ∧ getFunctionDefinition p.parametrization lcModel = .ok f ∧
      f.channels.bind List.head? = some c ∧ PyDict.get? c "ma" = some (469136023 / 500000000) ∧
      PyDict.get? c "mb" = some (493677 / 1000000) :=
  ⟨C58_state_masses (d := ⟨1, "p", some (1 / 2), 469136023 / 500000000⟩) lcModel_reads h
      (by simp [lcDistribution, lcKinematics]),
    C58_state_masses (d := ⟨3, "K", some 0, 493677 / 1000000⟩) lcModel_reads h
      (by simp [lcDistribution, lcKinematics]),
    _, _, _, .head _, rfl, rfl, rfl, rfl, rfl⟩

theorem lc_helicity : ∀ c ∈ lcDistribution.chains, (lcReading c).k = 2 → (lcReading c).li - (lcReading c).lj = -1 / 2 := by
  apply lc_forall <;> simp [lcReading, lc0, lc1, lc2, lc3, lc4, lc5, lc6, lc7, lc8, lc9, lc10, lc11, lc12, lc13, lc14,
    lc15, lc16, lc17, lc18, lc19, lc20, lc21, lc22, lc23, lc24, lc25] <;> norm_num

/-- The same interpretation with other Wigner functions. -/
def withWigner (ι : Interp) (w : ℚ → ℚ → ℚ → ℂ → ℂ) : Interp := { ι with wig := w }

theorem eval_withWigner (ι : Interp) (w : ℚ → ℚ → ℚ → ℂ → ℂ) {e : Expr} (h : wigAngles e = []) (η : Sym → ℚ) :
    e.eval (withWigner ι w) η = e.eval ι η := by
  induction e generalizing η with
  | num | I | sym | idx | phase | kron | cg => rfl
  | wig => cases h
  | add a b iha ihb | sub a b iha ihb | mul a b iha ihb | div a b iha ihb =>
    simp only [wigAngles, List.append_eq_nil_iff] at h
    simp only [Expr.eval, iha h.1, ihb h.2]
  | neg a ih | pow a _ ih | sqrt a ih | exp a ih | abs a ih =>
    simp only [wigAngles] at h
    simp only [Expr.eval, ih h]
  | ff a b c L d iha ihb ihc ihd =>
    simp only [wigAngles, List.append_eq_nil_iff] at h
    simp only [Expr.eval, iha h.1.1.1, ihb h.1.1.2, ihc h.1.2, ihd h.2]
    rfl
  | edw a b c d e L f P iha ihb ihc ihd ihe ihf =>
    simp only [wigAngles, List.append_eq_nil_iff] at h
    simp only [Expr.eval, iha h.1.1.1.1.1, ihb h.1.1.1.1.2, ihc h.1.1.1.2, ihd h.1.1.2, ihe h.1.2, ihf h.2]
    rfl
  | bmom a b c iha ihb ihc =>
    simp only [wigAngles, List.append_eq_nil_iff] at h
    simp only [Expr.eval, iha h.1.1, ihb h.1.2, ihc h.2]
    rfl
  | psum b l ih =>
    simp only [wigAngles] at h
    simp only [Expr.eval, ih h]

theorem values_withWigner (ι : Interp) (w : ℚ → ℚ → ℚ → ℂ → ℂ) :
    DynamicsValues lcModel lcDistribution.chains tl (some docsBuilders) (withWigner ι w)
      (lineValue lcModel tl (some docsBuilders) ι) (formValue lcModel ι) := by
  have hv := dynamics_values (m := lcModel) (tl := tl) docs_free lcDistribution.chains ι
  constructor
  · intro c hc d hd η
    rw [eval_withWigner ι w (wigAngles_dynamics (fun D hD x hx p R e he => ?_) hd)]
    · exact hv.line c hc d hd η
    · obtain ⟨f, i, j, s, m1, m2, final, mass, width, ma, mb, d, -, -, -, -, -, -, -, -, -, -, -, rfl⟩ :=
        bugg_ok.1 (docs_builders D hD x hx p R e he)
      rfl
  · intro c hc v hvm d hd η
    rw [eval_withWigner ι w ?_]
    · exact hv.form c hc v hvm d hd η
    · rcases formFactor_ok.1 hd with ⟨-, rfl⟩ | ⟨name, f, s, x, y, m1, m2, R, L, radius, -, -, -, -, -, -, -, -, -,
        -, -, rfl⟩ <;> rfl

/-- C122: the amplitudes of subsystem 2 (the `Λ` resonances) contain only Wigner functions `d^j_{λ, -1/2}`, also those
for helicity `-1/2` of the proton, where the decay products have `λ3 - λ1 = 1/2`: they do not change if the other
Wigner functions are replaced by any others. -/
theorem C122_flipped_wigner (h : formulate lcModel cl tl (some docsBuilders) = .ok a) (ι : Interp)
    (w : ℚ → ℚ → ℚ → ℂ → ℂ) (hw : ∀ j l θ, w j l (-1 / 2) θ = ι.wig j l (-1 / 2) θ) (η : Sym → ℚ)
    {l : Fin 4 → ℚ} (hl : l ∈ helicities a.decay) :
    definedValue a (withWigner ι w) η 2 l = definedValue a ι η 2 l := by
  classical
  rw [C60_amplitude_value lcModel_reads h (values_withWigner ι w) η 2 hl,
    C60_amplitude_value lcModel_reads h (dynamics_values docs_free _ ι) η 2 hl]
  refine congrArg _ (List.map_congr_left fun c hc => ?_)
  by_cases hk : IsSpectator c.topology 2
  · rw [if_pos hk, if_pos hk]
    have := lc_helicity c hc (hk.2 _ (lcModel_topology c hc).1)
    unfold serialValue
    rw [this]
    change _ * _ * w _ _ _ _ * _ = _
    rw [hw]
    rfl
  · rw [if_neg hk, if_neg hk]

/-- C122: so the amplitude of a `Λ` resonance for proton helicity `-1/2` may vanish although the Wigner function with
the actual helicities does not. -/
theorem C122_wigner_fails (h : formulate lcModel cl tl (some docsBuilders) = .ok a) {ι : Interp}
    (h1 : ∀ j l θ, ι.wig j l (-1 / 2) θ = 0) (η : Sym → ℚ) {l : Fin 4 → ℚ} (hl : l ∈ helicities a.decay) :
    definedValue a ι η 2 l = 0 := by
  classical
  rw [C60_amplitude_value lcModel_reads h (dynamics_values docs_free _ ι) η 2 hl]
  refine List.sum_eq_zero fun y hy => ?_
  obtain ⟨c, hc, rfl⟩ := List.mem_map.1 hy
  by_cases hk : IsSpectator c.topology 2
  · rw [if_pos hk]
    have := lc_helicity c hc (hk.2 _ (lcModel_topology c hc).1)
    unfold serialValue
    rw [this, h1]
    ring
  · rw [if_neg hk]

/-- The parameters of Bugg's lineshape: mass, width and slope. -/
def buggParameters (c : ChainDefinition) : ℚ × ℚ × ℚ :=
  if c.name = "K700" then (103 / 125, 239 / 500, 47053 / 50000) else (11 / 8, 19 / 100, 20981 / 1000000)

theorem lc_bugg_chain {c : ChainDefinition} (hc : c ∈ [lc18, lc19, lc24, lc25]) {d : DefExpr}
    (h : formulateDynamics c lcModel tl (some docsBuilders) = .ok d) :
    d = ({} : DefExpr).mul (.defined
      ⟨buggBreitWigner (.sym (mandelstam 1)) (.sym (resonanceMass (tl c.name))) (.sym (resonanceWidth (tl c.name)))
          (.sym (massOfState 2)) (.sym (massOfState 3)) (.sym ⟨"\\gamma_{" ++ tl c.name ++ "}", .nonneg⟩),
        PyDict.ofItems [(.sym (resonanceMass (tl c.name)), .real (buggParameters c).1),
          (.sym (resonanceWidth (tl c.name)), .real (buggParameters c).2.1),
          (.sym (massOfState 2), .real (6978509 / 50000000)), (.sym (massOfState 3), .real (493677 / 1000000)),
          (.sym ⟨"\\gamma_{" ++ tl c.name ++ "}", .nonneg⟩, .real (buggParameters c).2.2)]⟩) := by
  simp only [List.mem_cons, List.not_mem_nil, or_false] at hc
  rcases hc with rfl | rfl | rfl | rfl
  all_goals
    rw [lc_bugg_eq rfl rfl rfl] at h
    injection h with h
    exact h.symm

/-- C122: the lineshape of the scalar kaons is Bugg's, with the Adler zero `m_π² - m_K²/2`. The pion is state
2 and the kaon state 3. -/
theorem C122_bugg {c : ChainDefinition} (hc : c ∈ [lc18, lc19, lc24, lc25]) {d : DefExpr}
    (h : formulateDynamics c lcModel tl (some docsBuilders) = .ok d) (ι : Interp) (η : Sym → ℚ) :
    let v := fun s => (Expr.sym s).eval ι η
    let s := v (mandelstam 1)
    let m := v ⟨"m_{" ++ tl c.name ++ "}", .nonneg⟩
    let Γ := v ⟨"\\Gamma_{" ++ tl c.name ++ "}", .nonneg⟩
    let γ := v ⟨"\\gamma_{" ++ tl c.name ++ "}", .nonneg⟩
    let sA := v (massOfState 2) ^ 2 - v (massOfState 3) ^ 2 / 2
    d.expression.eval ι η =
      1 / (m ^ 2 - s - Complex.I * ((s - sA) / (m ^ 2 - sA) * (m * Γ * Complex.exp (-γ * s)))) := by
  rw [lc_bugg_chain hc h]
  change (1 * _ : Expr).eval ι η = _
  rw [Lineshape.eval_mul, C68_bugg_closed_form, Lineshape.eval_one, one_mul]
  rfl

/-- C122: the default values of mass, width and slope are those of the function definition of the file, the
masses are those of the pion and the kaon. -/
theorem C122_bugg_parameters {c : ChainDefinition} (hc : c ∈ [lc18, lc19, lc24, lc25]) {d : DefExpr}
    (h : formulateDynamics c lcModel tl (some docsBuilders) = .ok d) :
    d.parameters = [(.sym ⟨"m_{" ++ tl c.name ++ "}", .nonneg⟩, .real (buggParameters c).1),
      (.sym ⟨"\\Gamma_{" ++ tl c.name ++ "}", .nonneg⟩, .real (buggParameters c).2.1),
      (.sym (massOfState 2), .real (6978509 / 50000000)), (.sym (massOfState 3), .real (493677 / 1000000)),
      (.sym ⟨"\\gamma_{" ++ tl c.name ++ "}", .nonneg⟩, .real (buggParameters c).2.2)] := by
  rw [lc_bugg_chain hc h]
  change PyDict.ofItems (PyDict.ofItems _) = _
  rw [PyDict.ofItems_of_nodup (PyDict.nodup_ofItems _), PyDict.ofItems_of_nodup]
  · rfl
  have e2 : massOfState 2 = ⟨"m2", .nonneg⟩ := by decide
  have e3 : massOfState 3 = ⟨"m3", .nonneg⟩ := by decide
  simp [PyDict.keys, resonanceMass, resonanceWidth, e2, e3, ← String.toList_inj, String.toList_append]

/-- C122: for the masses and parameters of the file, this lineshape is real at `s = m_π² - m_K²/2 < 0` only,
not at the Adler zero of `K π` scattering, `m_K² - m_π²/2`. -/
theorem C122_adler_zero_fails {c : ChainDefinition} (hc : c ∈ [lc18, lc19, lc24, lc25]) {d : DefExpr}
    (h : formulateDynamics c lcModel tl (some docsBuilders) = .ok d) {ι : Interp} {η : Sym → ℚ}
    (hp : ∀ x q, (Key.sym x, Val.real q) ∈ d.parameters → (Expr.sym x).eval ι η = ((q : ℝ) : ℂ))
    {s : ℝ} (hs : (Expr.sym (mandelstam 1)).eval ι η = s) :
    ((d.expression.eval ι η).im = 0 ↔ s = (6978509 / 50000000) ^ 2 - (493677 / 1000000) ^ 2 / 2) ∧
    (s = (493677 / 1000000) ^ 2 - (6978509 / 50000000) ^ 2 / 2 → (d.expression.eval ι η).im ≠ 0) := by
  have hd := C122_bugg_parameters hc h
  have hb : (0 : ℝ) < (buggParameters c).1 ∧ (0 : ℝ) < (buggParameters c).2.1 := by
    unfold buggParameters
    split <;> norm_num
  have key := (C68_bugg_adler_zero ι η (.sym (mandelstam 1)) (.sym (resonanceMass (tl c.name)))
    (.sym (resonanceWidth (tl c.name))) (.sym (massOfState 2)) (.sym (massOfState 3))
    (.sym ⟨"\\gamma_{" ++ tl c.name ++ "}", .nonneg⟩) s _ _ _ _ _ hs
    (hp _ _ (by rw [hd]; exact .head _)) (hp _ _ (by rw [hd]; exact .tail _ (.head _)))
    (hp _ _ (by rw [hd]; exact .tail _ (.tail _ (.head _))))
    (hp _ _ (by rw [hd]; exact .tail _ (.tail _ (.tail _ (.head _)))))
    (hp _ _ (by rw [hd]; exact .tail _ (.tail _ (.tail _ (.tail _ (.head _))))))
    (lt_of_lt_of_le (by norm_num) (sq_nonneg _)) (mul_pos hb.1 hb.2).ne').1
  have he : d.expression.eval ι η = (buggBreitWigner (.sym (mandelstam 1)) (.sym (resonanceMass (tl c.name)))
    (.sym (resonanceWidth (tl c.name))) (.sym (massOfState 2)) (.sym (massOfState 3))
    (.sym ⟨"\\gamma_{" ++ tl c.name ++ "}", .nonneg⟩)).eval ι η := by
    rw [lc_bugg_chain hc h]
    change (1 * _ : Expr).eval ι η = _
    rw [Lineshape.eval_mul, Lineshape.eval_one, one_mul]
  rw [← he] at key
  push_cast at key
  refine ⟨key, fun h1 h2 => ?_⟩
  have := key.1 h2
  rw [h1] at this
  norm_num at this

/-- All of this holds for the model that is formulated from the file. -/
example : ∃ a, formulate lcModel true id (some docsBuilders) = .ok a ∧ Closed a ∧
    PyDict.get? a.parameterDefaults (.sym ⟨"c^{K892[0]}_{- \\frac{1}{2}, 0, 0}", .none⟩) =
      some (.real (5773502691896258 / 10000000000000000)) ∧
    (∃ e, formulate lcModel true id none = .error e) := by
  obtain ⟨a, ha⟩ := C122_returns id true
  refine ⟨a, ha, C122_closed ha, ?_, C122_needs_builder (by decide +kernel) id true⟩
  have := C122_weights (fun _ _ _ _ h => h) ha (c := lc22) (by simp [lcDistribution, lcChains]) rfl
  have e : weightSymbol id lc22 (lcReading lc22) = ⟨"c^{K892[0]}_{- \\frac{1}{2}, 0, 0}", .none⟩ := by decide +kernel
  rw [e] at this
  rw [this]
  norm_num
/-- The parameters of the file as values: the lineshape of chain 18 is not real at `m_K² - m_π²/2`. -/
example : ∃ d ι, formulateDynamics lc18 lcModel id (some docsBuilders) = .ok d ∧
    (∀ x q, (Key.sym x, Val.real q) ∈ d.parameters → (Expr.sym x).eval ι (fun _ => 0) = ((q : ℝ) : ℂ)) ∧
    (d.expression.eval ι (fun _ => 0)).im ≠ 0 := by
  obtain ⟨d, hd⟩ : ∃ d, formulateDynamics lc18 lcModel id (some docsBuilders) = .ok d := lc_bugg rfl rfl rfl
  let v : Sym → ℝ := fun s => if s = mandelstam 1 then (493677 / 1000000) ^ 2 - (6978509 / 50000000) ^ 2 / 2
    else if s = ⟨"m_{K700}", .nonneg⟩ then 103 / 125 else if s = ⟨"\\Gamma_{K700}", .nonneg⟩ then 239 / 500
    else if s = massOfState 2 then 6978509 / 50000000 else if s = massOfState 3 then 493677 / 1000000 else 47053 / 50000
  have hc : lc18 ∈ [lc18, lc19, lc24, lc25] := .head _
  have hp : ∀ x q, (Key.sym x, Val.real q) ∈ d.parameters →
      (Expr.sym x).eval { Serialization.exInterp (fun _ _ _ _ => 0) with sym := fun s => v s } (fun _ => 0) = ((q : ℝ) : ℂ) := by
    intro x q hx
    rw [C122_bugg_parameters hc hd] at hx
    change ((v x : ℝ) : ℂ) = _
    congr 1
    have e : buggParameters lc18 = (103 / 125, 239 / 500, 47053 / 50000) := by decide +kernel
    rw [e] at hx
    simp only [List.mem_cons, List.not_mem_nil, or_false, Prod.mk.injEq, Key.sym.injEq, Val.real.injEq] at hx
    simp only [v]
    rcases hx with ⟨rfl, rfl⟩ | ⟨rfl, rfl⟩ | ⟨rfl, rfl⟩ | ⟨rfl, rfl⟩ | ⟨rfl, rfl⟩
    · rw [if_neg (by decide), if_pos (by decide)]
      norm_num
    · rw [if_neg (by decide), if_neg (by decide), if_pos (by decide)]
      norm_num
    · rw [if_neg (by decide), if_neg (by decide), if_neg (by decide), if_pos rfl]
      norm_num
    · rw [if_neg (by decide), if_neg (by decide), if_neg (by decide), if_neg (by decide), if_pos rfl]
      norm_num
    · rw [if_neg (by decide), if_neg (by decide), if_neg (by decide), if_neg (by decide), if_neg (by decide)]
      norm_num
  exact ⟨d, _, hd, hp, (C122_adler_zero_fails hc hd hp (s := v (mandelstam 1)) rfl).2 (if_pos rfl)⟩

end Verif.Serialization
