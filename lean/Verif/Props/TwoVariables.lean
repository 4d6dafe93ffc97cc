import Verif.Proofs.TwoVariables
import Verif.Props.SerialGrid
import Verif.Props.SerialDynamics

/-! Property C132: the intensity functions of two Mandelstam variables of a deserialized model. -/
namespace Verif.Serialization
open Verif Verif.Spec Verif.ThreeBody

variable {m : ModelDefinition} {D : Distribution} {rd : ChainDefinition → Reading} {cl : Bool} {tl : String → String}
  {add : Option (PyDict String PropagatorBuilder)} {a : AmplitudeModel} {ref i j k : ℤ} {M : ℤ → ℚ}

theorem wigAngles_eq (e : Expr) : wigAngles e = e.wignerAngles := by
  induction e with
  | num | I | sym | idx | phase | wig | cg | kron => rfl
  | add a b iha ihb | sub a b iha ihb | mul a b iha ihb | div a b iha ihb =>
    simp only [wigAngles, Expr.wignerAngles, iha, ihb]
  | neg a iha | pow a n iha | sqrt a iha | exp a iha | abs a iha => simpa only [wigAngles, Expr.wignerAngles] using iha
  | ff s m1 m2 L R h1 h2 h3 h4 => simp only [wigAngles, Expr.wignerAngles, h1, h2, h3, h4]
  | edw s m0 g0 m1 m2 L R ph h1 h2 h3 h4 h5 h6 => simp only [wigAngles, Expr.wignerAngles, h1, h2, h3, h4, h5, h6]
  | bmom s m1 m2 h1 h2 h3 => simp only [wigAngles, Expr.wignerAngles, h1, h2, h3]
  | psum b ixs ih => simpa only [wigAngles, Expr.wignerAngles] using ih

theorem serial_wigner (hm : ReadsModel m D rd) (h0 : NonnegativeSpins D)
    (href : IsSpectator D.referenceTopology ref) (href' : ref ∈ ([1, 2, 3] : List ℤ))
    (hadd : ∀ defs, add = some defs → ∀ x ∈ defs, ∀ p R e, x.2 p R m = .ok e → wigAngles e.expression = [])
    (h : formulate m cl tl add = .ok a) : ∀ s ∈ a.fullExpression.wignerAngles, s ∈ PyDict.keys a.angleDefs := by
  obtain ⟨h1, h2⟩ := C71_every_angle hm h0 href href' hadd h
  intro s hs
  unfold AmplitudeModel.fullExpression at hs
  rcases Expr.mem_wigner_xreplace _ _ s hs with hs | ⟨y, hy, v, hv, hs⟩
  · obtain ⟨i, -, -, k, -, e, -, he⟩ := h2 s (by rw [wigAngles_eq]; exact Expr.mem_wigner_doit _ _ _ hs)
    exact PyDict.mem_keys_iff.2 ⟨e, he⟩
  · rw [get?_map_snd] at hv
    obtain ⟨f, hf, rfl⟩ := Option.map_eq_some_iff.1 hv
    obtain ⟨c, -, e, -, he⟩ := h1 y f hf s (by rw [wigAngles_eq]; exact Expr.mem_wigner_doit _ _ _ hs)
    exact PyDict.mem_keys_iff.2 ⟨e, he⟩

theorem serialTwoReady (hm : ReadsModel m D rd) (h0 : NonnegativeSpins D)
    (href : IsSpectator D.referenceTopology ref) (href' : ref ∈ ([1, 2, 3] : List ℤ))
    (hadd : ∀ defs, add = some defs → ∀ x ∈ defs, ∀ p R e, x.2 p R m = .ok e →
      ClosedLineshape e ∧ wigAngles e.expression = [])
    (hM : ∀ d ∈ D.kinematics.initialState :: D.kinematics.finalState, M d.index = d.mass)
    (h : formulate m cl tl add = .ok a) (ho : OrdinaryParameters a) : TwoReady a M where
  plot := serialPlotReady hm href href' hM h
  closed := C75_closed hm h0 href href' (fun d hd x hx p R e he => (hadd d hd x hx p R e he).1) h
  ordinary := ho
  wigner := serial_wigner hm h0 href href' (fun d hd x hx p R e he => (hadd d hd x hx p R e he).2) h
  mass := fun n hn => by
    have := serial_mass (M := M) hm h hM hn
    obtain ⟨K, E, P, Θ, ref', ids, zetas, terms, hf⟩ := formulate_inv hm.head hm.kinematics h
    rw [← this]
    exact mass_value hf hn

/-- A symbol that is neither declared real, as the angles are, nor a Mandelstam variable. -/
def PlainSym (s : Sym) : Prop := s.asm ≠ .real ∧ ∀ n ∈ ([1, 2, 3] : List ℤ), s ≠ sSym n

def PlainKeys (P : PyDict Key Val) : Prop := ∀ x ∈ P, ∃ s, x.1 = .sym s ∧ PlainSym s

theorem plain_of_head {s : Sym} {c : Char} (h1 : s.asm ≠ .real) (h2 : s.name.toList.head? = some c) (h3 : c ≠ 's') :
    PlainSym s := by
  refine ⟨h1, fun n _ e => ?_⟩
  rw [e] at h2
  have : (sSym n).name.toList.head? = some 's' := by simp [String.toList_append]
  rw [this] at h2
  injection h2 with h2
  exact h3 h2.symm

theorem plain_state (i : ℤ) : PlainSym (massOfState i) := plain_of_head (by simp [massOfState]) (head_state i) (by decide)

theorem plain_function {R : String} {f : FunctionDefinition} {s : Sym} {v : ℚ} (hs : FunctionParameter R i j f s v) :
    PlainSym s := by
  rcases hs with ⟨-, hs⟩ | ⟨ch, cs, -, -, hs⟩
  · simp only [breitWignerParameters, List.mem_cons, List.not_mem_nil, or_false, Prod.mk.injEq] at hs
    rcases hs with ⟨rfl, -⟩ | ⟨rfl, -⟩ | ⟨rfl, -⟩ | ⟨rfl, -⟩ | ⟨rfl, -⟩
    · exact plain_of_head (by simp [massNamed]) (head_massNamed _) (by decide)
    · exact plain_of_head (by simp [widthNamed]) (head_widthNamed _) (by decide)
    · exact plain_state _
    · exact plain_state _
    · exact plain_of_head (by simp [resonanceRadius]) head_radius (by decide)
  · rcases List.mem_append.1 hs with hs | hs
    · simp only [List.mem_cons, List.not_mem_nil, or_false, Prod.mk.injEq] at hs
      rcases hs with ⟨rfl, -⟩ | ⟨rfl, -⟩ | ⟨rfl, -⟩ | ⟨rfl, -⟩ | ⟨rfl, -⟩
      · exact plain_of_head (by simp [massNamed]) (head_massNamed _) (by decide)
      · exact plain_of_head (by simp [widthNamed]) (head_widthNamed _) (by decide)
      · exact plain_state _
      · exact plain_state _
      · exact plain_of_head (by simp [radiusNamed]) (head_radiusNamed _) (by decide)
    · obtain ⟨x, -, hs⟩ := List.mem_flatMap.1 hs
      simp only [channelParameters, List.mem_cons, List.not_mem_nil, or_false, Prod.mk.injEq] at hs
      rcases hs with ⟨rfl, -⟩ | ⟨rfl, -⟩ | ⟨rfl, -⟩
      · exact plain_of_head (by simp [firstMassOfChannel]) (head_first _) (by decide)
      · exact plain_of_head (by simp [secondMassOfChannel]) (head_second _) (by decide)
      · exact plain_of_head (by simp [widthOfChannel]) (head_widthOfChannel _ _) (by decide)

theorem plain_formFactor {v : Vertex} {e : DefExpr} (h : formulateFormFactor v m = .ok e) : PlainKeys e.parameters := by
  rcases formFactor_ok.1 h with ⟨-, rfl⟩ | ⟨name, f, s, x, y, m1, m2, R, L, radius, -, -, -, -, -, -, -, -, hR,
    -, -, rfl⟩
  · intro x hx; cases hx
  · intro x hx
    rw [List.mem_singleton.1 hx]
    refine ⟨_, rfl, ?_⟩
    rcases hR with ⟨-, rfl⟩ | ⟨-, p0, -, rfl⟩
    · exact plain_of_head (s := resonanceRadius) (by simp [resonanceRadius]) head_radius (by decide)
    · exact plain_of_head (s := radiusNamed p0.latex) (by simp [radiusNamed]) (head_radiusNamed _) (by decide)

theorem plain_update {P Q : PyDict Key Val} (hP : PlainKeys P) (hQ : PlainKeys Q) : PlainKeys (PyDict.update P Q) :=
  fun x hx => (PyDict.mem_update hx).elim (hP x) (hQ x)

theorem plain_mul {d e : DefExpr} (hd : PlainKeys d.parameters) (he : PlainKeys e.parameters) :
    PlainKeys (d.mul (.defined e)).parameters := plain_update (plain_update (fun _ h => (by cases h)) hd) he

theorem plain_foldl {ds : List DefExpr} {d : DefExpr} (hd : PlainKeys d.parameters) (h : ∀ x ∈ ds, PlainKeys x.parameters) :
    PlainKeys (ds.foldl (fun a x => a.mul (.defined x)) d).parameters := by
  induction ds generalizing d with
  | nil => exact hd
  | cons x t ih =>
    exact ih (plain_mul hd (h x (List.mem_cons_self ..))) fun y hy => h y (List.mem_cons_of_mem _ hy)

theorem plain_dynamics
    (hadd : ∀ defs, add = some defs → ∀ x ∈ defs, ∀ p R e, x.2 p R m = .ok e → PlainKeys e.parameters)
    {c : ChainDefinition} (hn : ∀ p ∈ c.propagators, ∃ i j, p.node = [.id i, .id j]) {e : DefExpr}
    (h : formulateDynamics c m tl add = .ok e) : PlainKeys e.parameters := by
  have key : ∀ ps d, (∀ p ∈ ps, ∃ i j, p.node = [.id i, .id j]) → PlainKeys d.parameters →
      dynamicsLoop (dynamicsDefinitions add) (tl c.name) m ps d = .ok e → PlainKeys e.parameters := by
    intro ps
    induction ps with
    | nil => intro d _ hd h; cases h; exact hd
    | cons p t ih =>
      intro d hn hd h
      unfold dynamicsLoop at h
      simp only [bind_ok] at h
      obtain ⟨f, hf, h⟩ := h
      cases hb : PyDict.get? (dynamicsDefinitions add) f.type with
      | none => rw [hb] at h; cases h
      | some b =>
        rw [hb] at h
        simp only [bind_ok] at h
        obtain ⟨x, hx, h⟩ := h
        obtain ⟨i, j, hij⟩ := hn p (List.mem_cons_self ..)
        refine ih _ (fun p hp => hn p (List.mem_cons_of_mem _ hp)) (plain_mul hd ?_) h
        rcases definitions_get hb with (rfl | rfl) | ⟨defs, rfl, hd⟩
        · intro y hy
          obtain ⟨s, v, rfl, hs⟩ := (breitWigner_entries hij hf hx).1 y hy
          exact ⟨s, rfl, plain_function (f := { f with type := "BreitWigner" }) (.breitWigner rfl hs)⟩
        · intro y hy
          obtain ⟨ch, cs, hc, he⟩ := multichannel_entries hij hf hx
          obtain ⟨s, v, rfl, hs⟩ := he.1 y hy
          exact ⟨s, rfl, plain_function (f := { f with type := "MultichannelBreitWigner" }) (.multichannel ch cs rfl hc hs)⟩
        · exact hadd defs rfl _ hd p _ x hx
  exact key _ {} hn (fun x hx => (by cases hx)) h

/-- C132: no parameter has the name of an angle or of a Mandelstam variable, if the parameters of the custom lineshapes, if any, are
symbols that are not declared real and not Mandelstam variables. -/
theorem C132_parameters (hm : ReadsModel m D rd) (htwo : TwoBodyPropagators D)
    (href : IsSpectator D.referenceTopology ref) (href' : ref ∈ ([1, 2, 3] : List ℤ))
    (hadd : ∀ defs, add = some defs → ∀ x ∈ defs, ∀ p R e, x.2 p R m = .ok e →
      ∀ k ∈ PyDict.keys e.parameters, ∃ s : Sym, k = .sym s ∧ s.asm ≠ .real ∧
        ∀ n ∈ ([1, 2, 3] : List ℤ), s ≠ ⟨"sigma" ++ toString n, .nonneg⟩)
    (h : formulate m cl tl add = .ok a) : OrdinaryParameters a := by
  have hreal : ∀ s ∈ PyDict.keys a.angleDefs, s.asm = .real := by
    intro s hs
    obtain ⟨y, hy, rfl⟩ := List.mem_map.1 hs
    rcases serial_angleDefs hm href href' h hy with ⟨c, -, -, h7⟩ | ⟨i, -, k, -, rfl⟩
    · rw [h7]; rfl
    · rfl
  obtain ⟨K, E, P, Θ, ref', ids, zetas, terms, hf⟩ := formulate_inv hm.head hm.kinematics h
  have key : ∀ k ∈ PyDict.keys a.parameterDefaults, ∃ s : Sym, k = .sym s ∧ PlainSym s := by
    intro k hk
    rw [hf.parameters, PyDict.mem_keys_update, PyDict.mem_keys_update] at hk
    rcases hk with (hk | hk) | hk
    · cases hk
    · obtain ⟨x, hx, rfl⟩ := List.mem_map.1 hk
      obtain ⟨y, hy, hx⟩ := List.mem_flatMap.1 hx
      obtain ⟨c, -, hc, -, d, ds, w, h1, h2, -, hP⟩ := pair_chain hm hf hy
      rw [hP] at hx
      rcases PyDict.mem_update hx with hx | hx
      · rw [List.mem_singleton.1 hx]
        exact ⟨_, rfl, plain_of_head (c := 'c') (by simp [weightSymbol]) (by simp [weightSymbol, String.toList_append]) (by decide)⟩
      · refine plain_foldl (plain_dynamics (fun defs hd z hz p R e he y hy => ?_) (htwo c hc) h1) (fun e he => ?_) x hx
        · exact hadd defs hd z hz p R e he _ (List.mem_map.2 ⟨y, hy, rfl⟩)
        · obtain ⟨v, -, hv⟩ := Qrules.forall₂_mem_right h2 he
          exact plain_formFactor hv
    · obtain ⟨x, hx, rfl⟩ := List.mem_map.1 hk
      unfold massParams massDict at hx
      simp only [List.map_cons, List.map_nil, List.mem_cons, List.not_mem_nil, or_false] at hx
      rcases hx with rfl | rfl | rfl | rfl
      · exact ⟨_, rfl, plain_state 0⟩
      · exact ⟨_, rfl, plain_state 1⟩
      · exact ⟨_, rfl, plain_state 2⟩
      · exact ⟨_, rfl, plain_state 3⟩
  refine ⟨fun k hk => ?_, fun s hs hk => ?_, fun n hn hk => ?_⟩
  · obtain ⟨s, hs, -⟩ := key k hk
    exact ⟨s, hs⟩
  · obtain ⟨t, ht, hasm, -⟩ := key _ hk
    injection ht with ht
    subst ht
    exact hasm (hreal s hs)
  · obtain ⟨t, ht, -, hne⟩ := key _ hk
    injection ht with ht
    exact hne n hn ht.symm

/-- C132: for every Mandelstam variable `σk` there is a function without it. Its arguments are at most the other two, so that no
parameter, angle or indexed symbol is left to be given a value. -/
theorem C132_arguments (hm : ReadsModel m D rd) (h0 : NonnegativeSpins D)
    (href : IsSpectator D.referenceTopology ref) (href' : ref ∈ ([1, 2, 3] : List ℤ))
    (hadd : ∀ defs, add = some defs → ∀ x ∈ defs, ∀ p R e, x.2 p R m = .ok e →
      ClosedLineshape e ∧ wigAngles e.expression = [])
    (h : formulate m cl tl add = .ok a) (ho : OrdinaryParameters a) (hijk : IsPerm123 i j k) :
    ∃ f, PyDict.get? (intensityFuncs a) k = some f ∧ f.expression.indexeds = [] ∧
      ∀ s ∈ f.arguments, s = ⟨"sigma" ++ toString i, .nonneg⟩ ∨ s = ⟨"sigma" ++ toString j, .nonneg⟩ := by
  have hr := serialTwoReady (M := fun n => (a.decay.st n).mass) hm h0 href href' hadd (fun d hd => ?_) h ho
  · refine ⟨_, get?_intensityFuncs hr hijk, ?_, fun s hs => two_arguments hr hijk hs⟩
    refine List.eq_nil_iff_forall_not_mem.2 fun x hx => ?_
    exact hr.idx x (hr.closed.indexed x ((Expr.indexeds_insertValues _ x).1 hx).1)
  · have h1 := C58_state_masses hm h hd
    obtain ⟨K, E, P, Θ, ref', ids, zetas, terms, hf⟩ := formulate_inv hm.head hm.kinematics h
    have hn : d.index ∈ ([0, 1, 2, 3] : List ℤ) := by
      rcases List.mem_cons.1 hd with rfl | hd
      · rw [hm.kinematics.initial]; simp
      · exact List.mem_cons_of_mem _ (hm.kinematics.final.mem_iff.1 (List.mem_map.2 ⟨d, hd, rfl⟩))
    rw [mass_value hf hn] at h1
    injection h1 with h1
    injection h1

/-- C132: at every point of the Dalitz plot for the masses of the file, also on its boundary, the angles and `σk` that the function
computes exist. They are those of the model at the default values of its parameters, and the value of the function is the value of
the model there. It is determined by `σi` and `σj`. -/
theorem C132_value (hm : ReadsModel m D rd) (h0 : NonnegativeSpins D)
    (href : IsSpectator D.referenceTopology ref) (href' : ref ∈ ([1, 2, 3] : List ℤ))
    (hadd : ∀ defs, add = some defs → ∀ x ∈ defs, ∀ p R e, x.2 p R m = .ok e →
      ClosedLineshape e ∧ wigAngles e.expression = [])
    (hM : ∀ d ∈ D.kinematics.initialState :: D.kinematics.finalState, M d.index = d.mass)
    (h : formulate m cl tl add = .ok a) (ho : OrdinaryParameters a) (hijk : IsPerm123 i j k)
    {f : NumericIntensity} (hf : PyDict.get? (intensityFuncs a) k = some f) (ι : Interp) :
    ((∀ n ∈ ([0, 1, 2, 3] : List ℤ), ι.sym ⟨"m" ++ toString n, .nonneg⟩ = (M n : ℂ)) →
      (ι.sym ⟨"sigma" ++ toString k, .nonneg⟩).im = 0 → (DalitzRegion fun s => (ι.sym s).re) →
      ∃ ι' : Interp, SameFunctions ι ι' ∧ ι'.idx = ι.idx ∧ (∀ s, s ∉ PyDict.keys a.angleDefs → ι'.sym s = ι.sym s) ∧
        ∀ x ∈ f.definitions, Computes ι' x) ∧
    ((∀ x ∈ f.definitions, Computes ι x) →
      (∀ x ∈ a.angleDefs, Computes (atDefaults a ι) x) ∧ (SumRule fun s => ((atDefaults a ι).sym s).re) ∧
      (∀ η, f.expression.eval ι η = a.fullExpression.eval (atDefaults a ι) η) ∧
      ∀ ι' : Interp, SameFunctions ι ι' → (∀ x ∈ f.definitions, Computes ι' x) →
        ι.sym ⟨"sigma" ++ toString i, .nonneg⟩ = ι'.sym ⟨"sigma" ++ toString i, .nonneg⟩ →
        ι.sym ⟨"sigma" ++ toString j, .nonneg⟩ = ι'.sym ⟨"sigma" ++ toString j, .nonneg⟩ →
        ∀ η η', f.expression.eval ι η = f.expression.eval ι' η') := by
  have hr := serialTwoReady hm h0 href href' hadd hM h ho
  have hp := hr.plot
  rw [get?_intensityFuncs hr hijk] at hf
  obtain rfl := Option.some.inj hf
  obtain ⟨hi, hj, hk⟩ := perm_mem hijk
  have hsum : ∀ ι : Interp, Computes (atDefaults a ι) (sSym k, thirdDef k) → SumRule fun s => ((atDefaults a ι).sym s).re := by
    rintro ι ⟨v, h1, h2⟩
    refine (thirdDef_eval hijk _).1 ?_
    have h2 : (atDefaults a ι).sym (sSym k) = v := h2
    rw [h2, Complex.ofReal_re]
    exact h1
  constructor
  · intro hmass hreal hρ
    obtain ⟨ι', h1, h2, h3, h4⟩ := C75_evaluable hm href href' h hρ
    refine ⟨ι', h1, h2, h3, (twoDefs_data hr hijk ι').2 ?_⟩
    have hsame : ∀ s ∈ providedSymbols, (atDefaults a ι').sym s = ι'.sym s := by
      intro s hs
      rcases provided_cases hs with ⟨n, hn, rfl⟩ | ⟨n, hn, rfl⟩
      · rw [atDefaults_mass hr ι' hn, h3 _ (not_key hp rfl)]
        exact (hmass n hn).symm
      · exact atDefaults_sigma hr ι' hn
    have heval : ∀ e : RExpr, (∀ s ∈ kinematicSymbols e, s ∈ providedSymbols) →
        e.eval (fun s => ((atDefaults a ι').sym s).re) = e.eval fun s => (ι'.sym s).re := by
      intro e he
      rw [← eval_massNums hr ι' e he]
      refine RExpr.eval_xreplace e fun s hs => ?_
      rcases provided_cases (he s hs) with ⟨n, hn, rfl⟩ | ⟨n, hn, rfl⟩
      · rw [get?_massNums hn, ← hsame _ (he _ hs), atDefaults_mass hr ι' hn, Complex.ratCast_re]
        rfl
      · rw [get?_massNums_sigma hn]
        rfl
    refine ⟨fun x hx => ?_, ?_⟩
    · obtain ⟨v, e1, e2⟩ := h4 x hx
      exact ⟨v, by rw [heval _ (hp.symbols x hx)]; exact e1,
        by rw [atDefaults_angle hr ι' (List.mem_map.2 ⟨x, hx, rfl⟩)]; exact e2⟩
    · refine ⟨(ι'.sym (sSym k)).re, ?_, ?_⟩
      · show (thirdDef k).eval _ = _
        rw [heval _ (third_provided hijk)]
        refine (thirdDef_eval hijk fun s => (ι'.sym s).re).2 ?_
        have := hρ.sum
        simp only [SumRule] at this ⊢
        rw [h3 _ (not_key hp rfl), h3 _ (not_key hp rfl), h3 _ (not_key hp rfl), h3 _ (not_key hp rfl),
          h3 _ (not_key hp rfl), h3 _ (not_key hp rfl), h3 _ (not_key hp rfl)]
        exact this
      · show (atDefaults a ι').sym (sSym k) = _
        rw [atDefaults_sigma hr ι' hk]
        refine Complex.ext (by simp) ?_
        rw [h3 _ (not_key hp rfl), Complex.ofReal_im]
        exact hreal
  · intro hdata
    obtain ⟨h1, h2⟩ := (twoDefs_data hr hijk ι).1 hdata
    refine ⟨h1, hsum ι h2, eval_inserted hr ι, fun ι' hfun hdata' ei ej η η' => ?_⟩
    obtain ⟨h1', h2'⟩ := (twoDefs_data hr hijk ι').1 hdata'
    rw [eval_inserted hr, eval_inserted hr]
    refine C72_two_invariants hr.closed (ι := atDefaults a ι) (ι' := atDefaults a ι')
      ⟨hfun.1, hfun.2, hfun.3, hfun.4, hfun.5⟩ ⟨fun s hs => ?_, fun x hx => absurd hx (hr.idx x)⟩
      (third_mem hr hijk) (fun s hs hne => ?_) h2 h2' h1 h1' η η'
    · obtain ⟨v, hv⟩ := PyDict.mem_keys_iff.1 hs
      unfold atDefaults
      simp only [hv]
      rfl
    · rw [hp.invariants] at hs
      have hs' : s = sSym i ∨ s = sSym j := by
        simp only [PyDict.keys, List.map_cons, List.map_nil, List.mem_cons, List.not_mem_nil, or_false] at hs
        rcases Angles.perm_cases hijk with ⟨rfl, rfl, rfl⟩ | ⟨rfl, rfl, rfl⟩ | ⟨rfl, rfl, rfl⟩ |
          ⟨rfl, rfl, rfl⟩ | ⟨rfl, rfl, rfl⟩ | ⟨rfl, rfl, rfl⟩ <;> rcases hs with e | e | e <;>
          first | exact .inl e | exact .inr e | exact absurd e hne
      rcases hs' with rfl | rfl
      · rw [atDefaults_sigma hr ι hi, atDefaults_sigma hr ι' hi]; exact ei
      · rw [atDefaults_sigma hr ι hj, atDefaults_sigma hr ι' hj]; exact ej

/-- C132: the value of a function is real and not negative. -/
theorem C132_nonnegative (hm : ReadsModel m D rd) (h0 : NonnegativeSpins D)
    (href : IsSpectator D.referenceTopology ref) (href' : ref ∈ ([1, 2, 3] : List ℤ))
    (hadd : ∀ defs, add = some defs → ∀ x ∈ defs, ∀ p R e, x.2 p R m = .ok e →
      ClosedLineshape e ∧ wigAngles e.expression = [])
    (hM : ∀ d ∈ D.kinematics.initialState :: D.kinematics.finalState, M d.index = d.mass)
    (h : formulate m cl tl add = .ok a) (ho : OrdinaryParameters a) (hijk : IsPerm123 i j k)
    {f : NumericIntensity} (hf : PyDict.get? (intensityFuncs a) k = some f) (ι : Interp) (η : Sym → ℚ) :
    ∃ x : ℝ, 0 ≤ x ∧ f.expression.eval ι η = x := by
  have hr := serialTwoReady hm h0 href href' hadd hM h ho
  rw [get?_intensityFuncs hr hijk] at hf
  obtain rfl := Option.some.inj hf
  obtain ⟨x, hx, he⟩ := C70_nonnegative hm h0 href href' h (atDefaults a ι) η
  exact ⟨x, hx, (eval_inserted hr ι η).trans he⟩

/-- C132: two of the functions have the same value at the same point of the Dalitz plot, whichever Mandelstam variable each of
them lacks. -/
theorem C132_consistent (hm : ReadsModel m D rd) (h0 : NonnegativeSpins D)
    (href : IsSpectator D.referenceTopology ref) (href' : ref ∈ ([1, 2, 3] : List ℤ))
    (hadd : ∀ defs, add = some defs → ∀ x ∈ defs, ∀ p R e, x.2 p R m = .ok e →
      ClosedLineshape e ∧ wigAngles e.expression = [])
    (hM : ∀ d ∈ D.kinematics.initialState :: D.kinematics.finalState, M d.index = d.mass)
    (h : formulate m cl tl add = .ok a) (ho : OrdinaryParameters a) {k k' : ℤ} (hk : k ∈ ([1, 2, 3] : List ℤ))
    (hk' : k' ∈ ([1, 2, 3] : List ℤ)) {f f' : NumericIntensity} (hf : PyDict.get? (intensityFuncs a) k = some f)
    (hf' : PyDict.get? (intensityFuncs a) k' = some f') {ι ι' : Interp} (hfun : SameFunctions ι ι')
    (hdata : ∀ x ∈ f.definitions, Computes ι x) (hdata' : ∀ x ∈ f'.definitions, Computes ι' x)
    (hσ : ∀ n ∈ ([1, 2, 3] : List ℤ), ι.sym ⟨"sigma" ++ toString n, .nonneg⟩ = ι'.sym ⟨"sigma" ++ toString n, .nonneg⟩)
    (η η' : Sym → ℚ) : f.expression.eval ι η = f'.expression.eval ι' η' := by
  have hr := serialTwoReady hm h0 href href' hadd hM h ho
  have hperm : ∀ n ∈ ([1, 2, 3] : List ℤ), ∃ i j, IsPerm123 i j n := by
    intro n hn
    simp only [List.mem_cons, List.not_mem_nil, or_false] at hn
    rcases hn with rfl | rfl | rfl
    · exact ⟨2, 3, by unfold IsPerm123; decide⟩
    · exact ⟨3, 1, by unfold IsPerm123; decide⟩
    · exact ⟨1, 2, by unfold IsPerm123; decide⟩
  obtain ⟨i, j, hijk⟩ := hperm k hk
  obtain ⟨i', j', hijk'⟩ := hperm k' hk'
  rw [get?_intensityFuncs hr hijk] at hf
  rw [get?_intensityFuncs hr hijk'] at hf'
  obtain rfl := Option.some.inj hf
  obtain rfl := Option.some.inj hf'
  obtain ⟨h1, h2⟩ := (twoDefs_data hr hijk ι).1 hdata
  obtain ⟨h1', v, e1, e2⟩ := (twoDefs_data hr hijk' ι').1 hdata'
  have hsum : SumRule fun s => ((atDefaults a ι').sym s).re := by
    refine (thirdDef_eval hijk' _).1 ?_
    have e2 : (atDefaults a ι').sym (sSym k') = v := e2
    rw [e2, Complex.ofReal_re]
    exact e1
  have h2' : Computes (atDefaults a ι') (sSym k, thirdDef k) := by
    refine ⟨_, (thirdDef_eval hijk _).2 hsum, ?_⟩
    obtain ⟨w, -, e⟩ := h2
    have e : (atDefaults a ι).sym (sSym k) = w := e
    show (atDefaults a ι').sym (sSym k) = _
    rw [atDefaults_sigma hr ι' hk, ← hσ k hk, ← atDefaults_sigma hr ι hk, e, Complex.ofReal_re]
  rw [eval_inserted hr, eval_inserted hr]
  refine C72_two_invariants hr.closed (ι := atDefaults a ι) (ι' := atDefaults a ι')
    ⟨hfun.1, hfun.2, hfun.3, hfun.4, hfun.5⟩ ⟨fun s hs => ?_, fun x hx => absurd hx (hr.idx x)⟩
    (third_mem hr hijk) (fun s hs _ => ?_) h2 h2' h1 h1' η η'
  · obtain ⟨v, hv⟩ := PyDict.mem_keys_iff.1 hs
    unfold atDefaults
    simp only [hv]
    rfl
  · rw [hr.plot.invariants] at hs
    have : ∃ n ∈ ([1, 2, 3] : List ℤ), s = sSym n := by
      simp only [PyDict.keys, List.map_cons, List.map_nil, List.mem_cons, List.not_mem_nil, or_false] at hs
      rcases hs with e | e | e
      · exact ⟨1, by simp, e⟩
      · exact ⟨2, by simp, e⟩
      · exact ⟨3, by simp, e⟩
    obtain ⟨n, hn, rfl⟩ := this
    rw [atDefaults_sigma hr ι hn, atDefaults_sigma hr ι' hn]
    exact hσ n hn

/-- The example model: the function without `σ3` at a point inside the Dalitz plot with `σ2 = 3`. -/
example : ∃ a f ι, formulate exModel true id none = .ok a ∧ OrdinaryParameters a ∧
    PyDict.get? (intensityFuncs a) 3 = some f ∧ (∀ x ∈ f.definitions, Computes ι x) ∧ ι.sym ⟨"sigma2", .nonneg⟩ = 3 ∧
    ∀ η, f.expression.eval ι η = a.fullExpression.eval (atDefaults a ι) η := by
  obtain ⟨a, h⟩ := exModel_ok id true
  have hp : IsPerm123 2 1 3 := by unfold IsPerm123; decide
  have hpos : ∀ n ∈ ([0, 1, 2, 3] : List ℤ), 0 < exFileMass n := by decide +kernel
  have hsum : exFileMass 1 + exFileMass 2 + exFileMass 3 < exFileMass 0 := by decide +kernel
  have href : (1 : ℤ) ∈ ([1, 2, 3] : List ℤ) := by simp
  have ho := C132_parameters exModel_reads exTwoBody exModel_reference href (by intro _ h; cases h) h
  obtain ⟨f, hf, -⟩ := C132_arguments exModel_reads exDistribution_nonneg exModel_reference href
    (by intro _ h; cases h) h ho hp
  obtain ⟨ρ, hm, hin, h3⟩ := (sigma_range (M := exFileMass) hpos hsum hp 3).2 (by
    constructor
    · have : (exFileMass 1 + exFileMass 3) ^ 2 < 3 := by decide +kernel
      exact_mod_cast this
    · have : 3 < (exFileMass 0 - exFileMass 2) ^ 2 := by decide +kernel
      exact_mod_cast this)
  let ι₀ : Interp := { ThreeBody.exInterp ρ with sym := fun s => (ρ s : ℂ) }
  have hmass : ∀ n ∈ ([0, 1, 2, 3] : List ℤ), ι₀.sym ⟨"m" ++ toString n, .nonneg⟩ = (exFileMass n : ℂ) := by
    intro n hn
    show ((ρ (mSym n) : ℝ) : ℂ) = _
    rw [hm n hn]
    norm_cast
  have hval := fun ι => C132_value exModel_reads exDistribution_nonneg exModel_reference href
    (by intro _ h; cases h) exFileMass_eq h ho hp hf ι
  obtain ⟨ι, -, -, hs, hc⟩ := (hval ι₀).1 hmass (Complex.ofReal_im _) hin.region
  have hp' := serialPlotReady exModel_reads exModel_reference href exFileMass_eq h
  refine ⟨a, f, ι, h, ho, hf, hc, ?_, ((hval ι).2 hc).2.2.1⟩
  rw [hs _ (not_key hp' rfl)]
  show ((ρ (sSym 2) : ℝ) : ℂ) = 3
  rw [h3]; norm_cast

/-- The example model: the functions without `σ3` and without `σ1` have the same value at a point with `σ2 = 3`, and it is not
negative. -/
example : ∃ a f f' ι ι', formulate exModel true id none = .ok a ∧ PyDict.get? (intensityFuncs a) 3 = some f ∧
    PyDict.get? (intensityFuncs a) 1 = some f' ∧ (∀ x ∈ f.definitions, Computes ι x) ∧ (∀ x ∈ f'.definitions, Computes ι' x) ∧
    ι.sym ⟨"sigma2", .nonneg⟩ = 3 ∧ (∀ η η', f.expression.eval ι η = f'.expression.eval ι' η') ∧
    ∀ η, ∃ x : ℝ, 0 ≤ x ∧ f.expression.eval ι η = x := by
  obtain ⟨a, h⟩ := exModel_ok id true
  have hp : IsPerm123 2 1 3 := by unfold IsPerm123; decide
  have hq : IsPerm123 2 3 1 := by unfold IsPerm123; decide
  have hpos : ∀ n ∈ ([0, 1, 2, 3] : List ℤ), 0 < exFileMass n := by decide +kernel
  have hsum : exFileMass 1 + exFileMass 2 + exFileMass 3 < exFileMass 0 := by decide +kernel
  have href : (1 : ℤ) ∈ ([1, 2, 3] : List ℤ) := by simp
  have ho := C132_parameters exModel_reads exTwoBody exModel_reference href (by intro _ h; cases h) h
  obtain ⟨f, hf, -⟩ := C132_arguments exModel_reads exDistribution_nonneg exModel_reference href
    (by intro _ h; cases h) h ho hp
  obtain ⟨f', hf', -⟩ := C132_arguments exModel_reads exDistribution_nonneg exModel_reference href
    (by intro _ h; cases h) h ho hq
  obtain ⟨ρ, hm, hin, h3⟩ := (sigma_range (M := exFileMass) hpos hsum hp 3).2 (by
    constructor
    · have : (exFileMass 1 + exFileMass 3) ^ 2 < 3 := by decide +kernel
      exact_mod_cast this
    · have : 3 < (exFileMass 0 - exFileMass 2) ^ 2 := by decide +kernel
      exact_mod_cast this)
  let ι₀ : Interp := { ThreeBody.exInterp ρ with sym := fun s => (ρ s : ℂ) }
  have hmass : ∀ n ∈ ([0, 1, 2, 3] : List ℤ), ι₀.sym ⟨"m" ++ toString n, .nonneg⟩ = (exFileMass n : ℂ) := by
    intro n hn
    show ((ρ (mSym n) : ℝ) : ℂ) = _
    rw [hm n hn]
    norm_cast
  obtain ⟨ι, g1, -, hs, hc⟩ := (C132_value exModel_reads exDistribution_nonneg exModel_reference href
    (by intro _ h; cases h) exFileMass_eq h ho hp hf ι₀).1 hmass (Complex.ofReal_im _) hin.region
  obtain ⟨ι', g1', -, hs', hc'⟩ := (C132_value exModel_reads exDistribution_nonneg exModel_reference href
    (by intro _ h; cases h) exFileMass_eq h ho hq hf' ι₀).1 hmass (Complex.ofReal_im _) hin.region
  have hp' := serialPlotReady exModel_reads exModel_reference href exFileMass_eq h
  refine ⟨a, f, f', ι, ι', h, hf, hf', hc, hc', ?_, fun η η' => ?_, fun η => ?_⟩
  · rw [hs _ (not_key hp' rfl)]
    show ((ρ (sSym 2) : ℝ) : ℂ) = 3
    rw [h3]; norm_cast
  · refine C132_consistent exModel_reads exDistribution_nonneg exModel_reference href (by intro _ h; cases h)
      exFileMass_eq h ho (by simp) (by simp) hf hf' ?_ hc hc' (fun n _ => ?_) η η'
    · exact ⟨g1.1.symm.trans g1'.1, g1.2.symm.trans g1'.2, g1.3.symm.trans g1'.3, g1.4.symm.trans g1'.4,
        g1.5.symm.trans g1'.5⟩
    · rw [hs _ (not_key hp' rfl), hs' _ (not_key hp' rfl)]
  · exact C132_nonnegative exModel_reads exDistribution_nonneg exModel_reference href (by intro _ h; cases h)
      exFileMass_eq h ho hp hf ι η

end Verif.Serialization
