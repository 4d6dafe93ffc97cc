import Verif.Props.SerialAmplitude
import Verif.Props.SerialVertices
import Verif.Props.SerialDynamics
import Verif.Spec.SerialComplete

/-! C114: which serialized models can be formulated. -/
namespace Verif.Serialization
open Verif Verif.ThreeBody Verif.Spec Verif.Spin Verif.Angles

variable {m : ModelDefinition} {tl : String → String} {add : Option (PyDict String PropagatorBuilder)}
  {D : Distribution} {rd : ChainDefinition → Reading} {ref : ℤ} {cl : Bool} {a : AmplitudeModel}

/-- A recoupling is only returned for known vertices. -/
theorem recoupling_known {c : ChainDefinition} {v : Vertex} {n k : ℕ}
    {cs : List ChainDefinition} (hm : getDecayChains m = .ok cs)
    (hc : cs[n]? = some c) (hv : c.vertices[k]? = some v)
    {a b : ℚ} (hh : v.helicities = some [some a, some b]) {i : ℤ} (hi : .id i ∈ v.node) {e : Expr}
    (h : formulateRecoupling m n k = .ok e) : KnownVertex v := by
  have hls : v.type ≠ "ls" := fun ht => ls_fails hm hc hv ht hi e h
  unfold formulateRecoupling at h
  rw [hm] at h
  simp only [bind_ok] at h
  obtain ⟨_, hcs, c', hc', h⟩ := h
  cases hcs
  rw [item_ok, hc] at hc'
  injection hc' with hc'
  subst hc'
  split at h
  · cases h
  · split at h
    · cases h
    · simp only [bind_ok] at h
      obtain ⟨v', hv', ab, hab, h⟩ := h
      rw [item_ok, hv] at hv'
      injection hv' with hv'
      subst hv'
      by_cases ht : v.type ∈ ["helicity", "parity"]
      · rw [if_pos ht, hh] at h
        simp only [List.mapM_cons, List.mapM_nil, toRational, bind, Except.bind, pure, Except.pure,
          unpack2] at h
        by_cases hp : v.type = "parity"
        · rw [if_pos hp] at h
          refine .inr ⟨hp, fun s hs => ?_⟩
          rw [hs] at h
          cases hf : signToValue s with
          | error _ => simp [hf] at h
          | ok f =>
            obtain ⟨h1, h2, h3, -, h5⟩ := C61_sign s
            rcases h5 f hf with rfl | rfl | rfl
            · exact .inr (.inl (h1.1 hf))
            · exact .inr (.inr (h2.1 hf))
            · exact .inl (h3.1 hf)
        · simp only [List.mem_cons, List.not_mem_nil, or_false] at ht
          exact .inl (ht.resolve_right hp)
      · rw [if_neg ht, if_neg hls] at h
        cases h

/-- C114: which models can be formulated: for a well-formed decay with readable vertices, those in which
every chain has vertices of a known type, a weight, a half-integer spin, a topology with one of the final
states as spectator, and a lineshape and form factors that can be built. One defect is enough for an
error. -/
theorem C114_returns_iff (hm : ReadsModel m D rd) (h0 : NonnegativeSpins D)
    (href : IsSpectator D.referenceTopology ref) (href' : ref ∈ ([1, 2, 3] : List ℤ)) (cl : Bool) :
    (∃ a, formulate m cl tl add = .ok a) ↔ ∀ c ∈ D.chains, CompleteChain m tl add c := by
  refine ⟨fun ⟨a, h⟩ c hc => ?_, fun hok => C60_returns hm href href' hok cl⟩
  obtain ⟨K, E, P, Θ, ref, ids, zetas, terms, hf⟩ := formulate_inv hm.head hm.kinematics h
  have hd := (toDecay_standard hm.head hm.kinematics hf.decay).1
  obtain ⟨l, hl⟩ := exists_helicity hd (spins_nonneg hm h0 hf.decay)
  obtain ⟨n, hn, rfl⟩ := List.getElem_of_mem hc
  have ht := hf.table (l, n) (mem_serialPairs.2 ⟨hl, hn⟩)
  have hcs := chains_ok hm.head
  have hcn : D.chains[n]? = some D.chains[n] := List.getElem?_eq_getElem hn
  obtain ⟨hr, hs⟩ := hm.reads _ hc
  generalize D.chains[n] = c at *
  have key := ht.data.1
  unfold formulateChainAmplitude at key
  simp only [bind_ok] at key
  obtain ⟨cs', h1, c', h2, d, h3, d', h4, w, h5, ij, h6, θ, h7, jR, h8, r, h9, k, h10, hp, h11, hdc, h12,
    u, h13, -⟩ := key
  rw [hcs] at h1
  cases h1
  rw [item_ok, hcn] at h2
  cases h2
  obtain ⟨v0, v1, hv⟩ := reads_two hr
  obtain ⟨-, -, -, cs, p0, final, g1, -, -, -, g2⟩ := C53_to_decay hf.decay
  rw [hcs] at g1
  cases g1
  obtain ⟨ch, hch⟩ := g2 c hc
  obtain ⟨s, _, _, _, _, _, _, hs1, hs2, -⟩ := (C52_vertices _ _ _ _ _).1 hch
  have hkn : ∀ (j : ℕ) v e, c.vertices[j]? = some v → formulateRecoupling m n j = .ok e → KnownVertex v := by
    intro j v e hj he
    obtain ⟨-, -, a, b, i, -, hh, hi⟩ := vertex_facts hr hj
    exact recoupling_known hcs hcn hj hh hi he
  refine ⟨?_, ?_, ⟨s, hs1, hs2⟩, ⟨k, ?_, ((C52_spectator _).1 k).1 h10⟩, ⟨d, h3⟩, ?_⟩
  · intro v hv'
    rw [hv] at hv'
    simp only [List.mem_cons, List.not_mem_nil, or_false] at hv'
    rcases hv' with rfl | rfl
    · exact hkn 0 _ _ (by rw [hv]; rfl) h11
    · exact hkn 1 _ _ (by rw [hv]; rfl) h12
  · obtain ⟨w', hw, -⟩ := (weight_ok hr hs _).1 h5
    rw [hw]; rfl
  · unfold amplitudeBase at h13
    by_contra hk
    rw [if_neg hk] at h13
    cases h13
  · intro v hv'
    obtain ⟨ds, hds, -⟩ := formFactors_ok.1 h4
    obtain ⟨d, -, hd⟩ := Qrules.forall₂_mem_left hds hv'
    exact ⟨d, hd⟩

/-- C114: a chain whose topology has no final state as spectator is an error, and so is a chain without
weight, for every other content of the model. -/
theorem C114_defects (hm : ReadsModel m D rd) (h0 : NonnegativeSpins D) {c : ChainDefinition} (hc : c ∈ D.chains)
    (href : IsSpectator D.referenceTopology ref) (href' : ref ∈ ([1, 2, 3] : List ℤ))
    (h : c.weight = none ∨ (¬ ∃ k ∈ ([1, 2, 3] : List ℤ), IsSpectator c.topology k) ∨
      (∃ v ∈ c.vertices, v.type ≠ "helicity" ∧ v.type ≠ "parity")) (cl : Bool) :
    ∃ e, formulate m cl tl add = .error e := by
  cases hf : formulate m cl tl add with
  | error e => exact ⟨e, rfl⟩
  | ok a =>
    have hok := (C114_returns_iff hm h0 href href' cl).1 ⟨a, hf⟩ c hc
    rcases h with h | h | ⟨v, hv, h1, h2⟩
    · have := hok.weight
      rw [h] at this
      cases this
    · exact absurd hok.topology h
    · rcases hok.vertices v hv with h | ⟨h, -⟩
      · exact absurd h h1
      · exact absurd h h2

example (cl : Bool) : (∃ a, formulate exModel cl tl none = .ok a) ↔
    ∀ c ∈ exDistribution.chains, CompleteChain exModel tl none c :=
  C114_returns_iff exModel_reads exDistribution_nonneg (ref := 1) ⟨by simp [exDistribution], by simp [exDistribution]⟩ (by simp) cl

/-- The model with a chain whose topology has state 4 as spectator. -/
def exForeignModel : ModelDefinition :=
  { exModel with distributions := [{ exDistribution with
      chains := [exLambda, { exKstar with topology := [.id 4, .seq [.id 2, .id 3]] }] }] }

example (cl : Bool) : ∃ e, formulate exForeignModel cl tl none = .error e := by
  refine C114_defects (D := { exDistribution with
      chains := [exLambda, { exKstar with topology := [.id 4, .seq [.id 2, .id 3]] }] })
    (rd := exReading)
    (c := { exKstar with topology := [.id 4, .seq [.id 2, .id 3]] }) (ref := 1)
    ⟨⟨_, rfl⟩, exModel_reads.kinematics, ?_⟩ exDistribution_nonneg (by simp)
    ⟨by simp [exDistribution], by simp [exDistribution]⟩ (by simp) (.inr (.inl ?_)) cl
  · intro c hc
    simp only [List.mem_cons, List.not_mem_nil, or_false] at hc
    rcases hc with rfl | rfl
    · exact ⟨exLambda_reads, show [(3 : ℤ), 1, 2].Perm [1, 2, 3] by decide⟩
    · exact ⟨exKstar_reads, show [(2 : ℤ), 3, 1].Perm [1, 2, 3] by decide⟩
  · rintro ⟨k, hk, h, -⟩
    simp only [List.mem_cons, Tree.id.injEq, reduceCtorEq, List.not_mem_nil, or_false] at h
    subst h
    simp at hk

/-! ### Models with the built-in lineshapes -/

theorem channelLoop_returns {R : String} {s mass d : Sym} {n : ℕ} {cs : List (PyDict String ℚ)}
    {ch : List ChannelArguments} {P : PyDict Key Val} :
    (∃ r, channelLoop R s mass d n cs ch P = .ok r) ↔ ∀ c ∈ cs, HasFields c ["gsq", "l", "ma", "mb"] := by
  induction cs generalizing n ch P with
  | nil => simp [channelLoop]
  | cons c t ih =>
    unfold channelLoop
    simp only [bind_ok, get_ok]
    constructor
    · rintro ⟨r, L, hl, ma, hma, mb, hmb, gsq, hg, h⟩
      intro c' hc'
      rcases List.mem_cons.1 hc' with rfl | hc'
      · intro x hx
        simp only [List.mem_cons, List.not_mem_nil, or_false] at hx
        rcases hx with rfl | rfl | rfl | rfl
        · exact ⟨_, hg⟩
        · exact ⟨_, hl⟩
        · exact ⟨_, hma⟩
        · exact ⟨_, hmb⟩
      · exact ih.1 ⟨r, h⟩ c' hc'
    · intro h
      have hc := h c (List.mem_cons_self ..)
      obtain ⟨gsq, hg⟩ := hc "gsq" (by simp)
      obtain ⟨L, hl⟩ := hc "l" (by simp)
      obtain ⟨ma, hma⟩ := hc "ma" (by simp)
      obtain ⟨mb, hmb⟩ := hc "mb" (by simp)
      obtain ⟨r, hr⟩ := ih.2 fun c' hc' => h c' (List.mem_cons_of_mem _ hc')
      exact ⟨r, L, hl, ma, hma, mb, hmb, gsq, hg, hr⟩

/-- C73: the multichannel lineshape of a propagator `[i, j]` is returned iff the function definition has a
mass and at least two channels with their parameters. -/
theorem C73_multichannel_iff {p : Propagator} {R : String} {i j k : ℤ} (hn : p.node = [.id i, .id j])
    (hp : [i, j, k].Perm [1, 2, 3]) :
    (∃ e, formulateMultichannelBreitWigner p R m = .ok e) ↔ ∃ f, FunctionNamed m p.parametrization f ∧
      HasFields f.fields ["mass"] ∧ ∃ c1 c2 cs, f.channels = some (c1 :: c2 :: cs) ∧
      HasFields c1 ["gsq", "l", "ma", "mb", "d"] ∧ ∀ c ∈ c2 :: cs, HasFields c ["gsq", "l", "ma", "mb"] := by
  constructor
  · rintro ⟨e, h⟩
    obtain ⟨f, c1, c2, cs, i', j', s, m1, m2, L', mass, gsq, ma, mb, d, r, h1, hc, h2, h3, h4, h5, h6, h7, h8, h9,
      h10, h11, h12, -⟩ := multichannel_ok h
    refine ⟨f, functionNamed_iff.1 h1, ?_, c1, c2, cs, hc, ?_, channelLoop_returns.1 ⟨r, h12⟩⟩
    · intro x hx
      rw [List.mem_singleton.1 hx]
      exact ⟨_, h7⟩
    · intro x hx
      simp only [List.mem_cons, List.not_mem_nil, or_false] at hx
      rcases hx with rfl | rfl | rfl | rfl | rfl
      · exact ⟨_, h8⟩
      · exact ⟨_, h6⟩
      · exact ⟨_, h9⟩
      · exact ⟨_, h10⟩
      · exact ⟨_, h11⟩
  · rintro ⟨f, hf, hm, c1, c2, cs, hc, h1, h2⟩
    obtain ⟨mass, hm⟩ := hm "mass" (by simp)
    obtain ⟨gsq, hg⟩ := h1 "gsq" (by simp)
    obtain ⟨L, hl⟩ := h1 "l" (by simp)
    obtain ⟨ma, hma⟩ := h1 "ma" (by simp)
    obtain ⟨mb, hmb⟩ := h1 "mb" (by simp)
    obtain ⟨d, hd⟩ := h1 "d" (by simp)
    have h2 := fun s ms R ch P => (channelLoop_returns (R := R) (s := s) (mass := ms) (d := ⟨"R_{" ++ R ++ "}", .nonneg⟩)
      (n := 2) (ch := ch) (P := P)).2 h2
    have hu : unpack2 p.node = .ok (.id i, .id j) := by rw [hn]; rfl
    unfold formulateMultichannelBreitWigner
    simp only [functionNamed_iff.2 hf, bind, Except.bind, hc, hu, mandelstam_of hn hp, toMassSymbol, get_ok.2 hl,
      get_ok.2 hm, get_ok.2 hg, get_ok.2 hma, get_ok.2 hmb, get_ok.2 hd]
    split
    · next x hx =>
      obtain ⟨r, hr⟩ := h2 _ _ _ _ _
      rw [hr] at hx
      cases hx
    · exact ⟨_, rfl⟩

theorem lineshape_iff {p : Propagator} {R : String} {i j k : ℤ} (hn : p.node = [.id i, .id j])
    (hp : [i, j, k].Perm [1, 2, 3]) : CompleteLineshape m p ↔
      ∃ f b e, getFunctionDefinition p.parametrization m = .ok f ∧
        PyDict.get? (dynamicsDefinitions none) f.type = some b ∧ b p R m = .ok e := by
  have perm : ∀ d : PyDict String ℚ, HasFields d ["mass", "width", "l", "ma", "mb", "d"] ↔
      ∀ x ∈ ["l", "mass", "width", "ma", "mb", "d"], ∃ v, PyDict.get? d x = some v := by
    intro d
    unfold HasFields
    refine forall_congr' fun x => imp_congr_left ?_
    simp only [List.mem_cons, List.not_mem_nil, or_false]
    tauto
  constructor
  · rintro ⟨f, hf, ⟨ht, h⟩ | ⟨ht, h⟩⟩
    · obtain ⟨e, he⟩ := (C73_breit_wigner (R := R) hn hp).1.2 ⟨f, hf, (perm _).1 h⟩
      exact ⟨f, _, e, functionNamed_iff.2 hf, by rw [ht]; rfl, he⟩
    · obtain ⟨e, he⟩ := (C73_multichannel_iff (R := R) hn hp).2 ⟨f, hf, h⟩
      exact ⟨f, _, e, functionNamed_iff.2 hf, by rw [ht]; rfl, he⟩
  · rintro ⟨f, b, e, hf, hb, he⟩
    refine ⟨f, functionNamed_iff.1 hf, ?_⟩
    rcases builtin_get hb with ⟨ht, rfl⟩ | ⟨ht, rfl⟩
    · obtain ⟨f', hf', h⟩ := (C73_breit_wigner hn hp).1.1 ⟨e, he⟩
      rw [functionNamed_iff.2 hf'] at hf
      cases hf
      exact .inl ⟨ht, (perm _).2 h⟩
    · obtain ⟨f', hf', h⟩ := (C73_multichannel_iff hn hp).1 ⟨e, he⟩
      rw [functionNamed_iff.2 hf'] at hf
      cases hf
      exact .inr ⟨ht, h⟩

theorem dynamics_iff {c : ChainDefinition} (hn : StandardNodes c) :
    (∃ d, formulateDynamics c m tl none = .ok d) ↔ ∀ p ∈ c.propagators, CompleteLineshape m p := by
  have key : ∀ (ps : List Propagator) (d : DefExpr), (∀ p ∈ ps, p ∈ c.propagators) →
      ((∃ e, dynamicsLoop (dynamicsDefinitions none) (tl c.name) m ps d = .ok e) ↔
        ∀ p ∈ ps, CompleteLineshape m p) := by
    intro ps
    induction ps with
    | nil => intro d _; simp [dynamicsLoop]
    | cons p t ih =>
      intro d hps
      obtain ⟨i, j, k, hp, hnode⟩ := hn.propagators p (hps p (List.mem_cons_self ..))
      have hl := lineshape_iff (m := m) (R := tl c.name) hnode hp
      have ih := fun d => ih d fun p hp => hps p (List.mem_cons_of_mem _ hp)
      rw [List.forall_mem_cons, hl]
      unfold dynamicsLoop
      simp only [bind_ok]
      constructor
      · rintro ⟨e, f, hf, h⟩
        cases hb : PyDict.get? (dynamicsDefinitions none) f.type with
        | none => rw [hb] at h; cases h
        | some b =>
          rw [hb] at h
          simp only [bind_ok] at h
          obtain ⟨x, hx, h⟩ := h
          exact ⟨⟨f, b, x, hf, hb, hx⟩, (ih _).1 ⟨e, h⟩⟩
      · rintro ⟨⟨f, b, x, hf, hb, hx⟩, h⟩
        obtain ⟨e, he⟩ := (ih (d.mul (.defined x))).2 h
        refine ⟨e, f, hf, ?_⟩
        rw [hb]
        simp only [bind_ok]
        exact ⟨x, hx, he⟩
  exact key _ _ fun _ h => h

/-- C59: a form factor is returned iff there is none to be built, or its function definition has the
parameters. -/
theorem C59_returns_iff {v : Vertex} {i j k : ℤ} (hn : v.node = [.id i, .id j] ∨ ProductionNode v.node (.id i) (.id j) k)
    (hp : [i, j, k].Perm [1, 2, 3]) {rest : List Distribution}
    (hD : m.distributions = D :: rest) (hk : WellFormedKinematics D.kinematics) :
    (∃ e, formulateFormFactor v m = .ok e) ↔ CompleteFormFactor m v := by
  constructor
  · rintro ⟨e, he⟩
    rcases formFactor_ok.1 he with ⟨h | h, -⟩ | ⟨name, f, s, x, y, m1, m2, R, L, radius, h1, h2, h3, h4, h5, h6, h7, h8,
      hR, hL, hr, -⟩
    · exact .inl h
    · exact .inr (.inl h)
    · refine .inr (.inr ⟨name, f, h1, functionNamed_iff.1 h3, h4, fun x hx => ?_⟩)
      simp only [List.mem_cons, List.not_mem_nil, or_false] at hx
      rcases hx with rfl | rfl
      · exact ⟨_, hL⟩
      · exact ⟨_, hr⟩
  · rintro (h | h | ⟨name, f, h1, h2, h3, h4⟩)
    · exact ⟨_, formFactor_ok.2 (.inl ⟨.inl h, rfl⟩)⟩
    · exact ⟨_, formFactor_ok.2 (.inl ⟨.inr h, rfl⟩)⟩
    · obtain ⟨L, hL⟩ := h4 "l" (by simp)
      obtain ⟨r, hr⟩ := h4 "radius" (by simp)
      exact C59_returns hn hp hD hk (.inr ⟨name, f, L, r, h1, h2, h3, hL, hr⟩)

/-- C114: which model files can be formulated with the built-in lineshapes: exactly those in which every
chain has vertices of a known type, a weight, a half-integer spin, a spectator, and function definitions
of known types with all parameters for its lineshape and form factors. -/
theorem C114_complete_iff (hm : ReadsModel m D rd) (h0 : NonnegativeSpins D) (hn : ∀ c ∈ D.chains, StandardNodes c)
    (href : IsSpectator D.referenceTopology ref) (href' : ref ∈ ([1, 2, 3] : List ℤ)) (cl : Bool)
    (tl : String → String) :
    (∃ a, formulate m cl tl none = .ok a) ↔ ∀ c ∈ D.chains, CompleteDefinition m c := by
  rw [C114_returns_iff hm h0 href href' cl]
  refine forall₂_congr fun c hc => ?_
  obtain ⟨rest, hD⟩ := hm.head
  have hff : (∀ v ∈ c.vertices, ∃ d, formulateFormFactor v m = .ok d) ↔ ∀ v ∈ c.vertices, CompleteFormFactor m v := by
    refine forall₂_congr fun v hv => ?_
    obtain ⟨i, j, k, hp, hv⟩ := (hn c hc).vertices v hv
    exact C59_returns_iff hv hp hD hm.kinematics
  have hdy := dynamics_iff (m := m) (tl := tl) (hn c hc)
  exact ⟨fun ⟨h1, h2, h3, h4, h5, h6⟩ => ⟨h1, h2, h3, h4, hdy.1 h5, hff.1 h6⟩,
    fun ⟨h1, h2, h3, h4, h5, h6⟩ => ⟨h1, h2, h3, h4, hdy.2 h5, hff.2 h6⟩⟩

/-- C114: whether a model file can be formulated does not depend on the option to clean up, nor on how the
names are translated to LaTeX. -/
theorem C114_options (hm : ReadsModel m D rd) (h0 : NonnegativeSpins D) (hn : ∀ c ∈ D.chains, StandardNodes c)
    (href : IsSpectator D.referenceTopology ref) (href' : ref ∈ ([1, 2, 3] : List ℤ)) (cl cl' : Bool)
    (tl tl' : String → String) :
    (∃ a, formulate m cl tl none = .ok a) ↔ ∃ a, formulate m cl' tl' none = .ok a := by
  rw [C114_complete_iff hm h0 hn href href', C114_complete_iff hm h0 hn href href']

theorem exStandardNodes : ∀ c ∈ exDistribution.chains, StandardNodes c := by
  have h : ∀ c ∈ exDistribution.chains, c = exLambda ∨ c = exKstar := by
    intro c hc
    simp only [exDistribution, List.mem_cons, List.not_mem_nil, or_false] at hc
    tauto
  intro c hc
  rcases h c hc with rfl | rfl
  · constructor
    · intro v hv
      simp only [exLambda, List.mem_cons, List.not_mem_nil, or_false] at hv
      rcases hv with rfl | rfl
      · exact ⟨3, 1, 2, by decide, .inl rfl⟩
      · exact ⟨3, 1, 2, by decide, .inr (.inr rfl)⟩
    · intro p hp
      simp only [exLambda, List.mem_cons, List.not_mem_nil, or_false] at hp
      subst hp
      exact ⟨3, 1, 2, by decide, rfl⟩
  · constructor
    · intro v hv
      simp only [exKstar, List.mem_cons, List.not_mem_nil, or_false] at hv
      rcases hv with rfl | rfl
      · exact ⟨2, 3, 1, by decide, .inr (.inl rfl)⟩
      · exact ⟨2, 3, 1, by decide, .inl rfl⟩
    · intro p hp
      simp only [exKstar, List.mem_cons, List.not_mem_nil, or_false] at hp
      subst hp
      exact ⟨2, 3, 1, by decide, rfl⟩

/-- The example is complete. -/
example : (∀ c ∈ exDistribution.chains, CompleteDefinition exModel c) ∧
    ∀ cl tl, (∃ a, formulate exModel cl tl none = .ok a) ↔ ∃ a, formulate exModel false id none = .ok a :=
  ⟨(C114_complete_iff exModel_reads exDistribution_nonneg exStandardNodes (ref := 1)
      ⟨by simp [exDistribution], by simp [exDistribution]⟩ (by simp) false id).1 (exModel_ok id false),
    fun cl tl => C114_options exModel_reads exDistribution_nonneg exStandardNodes (ref := 1)
      ⟨by simp [exDistribution], by simp [exDistribution]⟩ (by simp) cl false tl id⟩

/-- Without function definitions, the example is not complete. -/
example (cl : Bool) (tl : String → String) : ¬ ∃ a, formulate { exModel with functions := [] } cl tl none = .ok a := by
  rw [C114_complete_iff (m := { exModel with functions := [] }) (D := exDistribution) (rd := exReading)
    ⟨⟨[], rfl⟩, exModel_reads.kinematics, exModel_reads.reads⟩ exDistribution_nonneg exStandardNodes (ref := 1)
    ⟨by simp [exDistribution], by simp [exDistribution]⟩ (by simp)]
  intro h
  obtain ⟨f, ⟨pre, post, hf, -⟩, -⟩ := (h exLambda (by simp [exDistribution])).lineshapes _ (List.mem_cons_self ..)
  simp at hf

/-- The multichannel lineshape of the second example. -/
example : ∃ f, FunctionNamed mcModel "F0" f ∧ HasFields f.fields ["mass"] ∧ ∃ c1 c2 cs,
    f.channels = some (c1 :: c2 :: cs) ∧ HasFields c1 ["gsq", "l", "ma", "mb", "d"] ∧
    ∀ c ∈ c2 :: cs, HasFields c ["gsq", "l", "ma", "mb"] :=
  (C73_multichannel_iff (p := ⟨some 0, [.id 2, .id 3], "F0"⟩) (R := "f0") (k := 1) rfl (by decide)).1 ⟨_, rfl⟩

/-- The form factor of the second example. -/
example : CompleteFormFactor mcModel mcF0.vertices[1] :=
  (C59_returns_iff (i := 2) (j := 3) (k := 1) (.inl rfl) (by decide) rfl mcModel_reads.kinematics).1 ⟨_, rfl⟩

end Verif.Serialization
