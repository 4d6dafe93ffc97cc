import Verif.Proofs.SerialAmplitude
import Verif.Proofs.SerialExample

/-! C54, C55, C57: helicities and recouplings of the vertices of a serialized model. -/
set_option linter.unusedSimpArgs false
namespace Verif.Serialization
open Verif Verif.ThreeBody Verif.Spec Verif.Spin

variable {m : ModelDefinition} {c : ChainDefinition} {r : Reading} {v : Vertex} {n k : ℕ}

/-! ### C54 -/

/-- C54: the helicities are those of the vertices, whatever the order of the vertices and of the
production node. The node of the resonance is the pair in the production vertex. -/
theorem C54_helicities (h : Reads c r) :
    (∃ p ∈ c.vertices, ∃ a b, .seq [a, b] ∈ p.node ∧
      getResonanceHelicity c.vertices = .ok ([a, b], r.lR)) ∧
    getDecayProductHelicities c.vertices = .ok ((r.i, r.li), (r.j, r.lj)) := by
  refine ⟨?_, decayProducts_of h⟩
  obtain ⟨p, q, ho, ⟨a, b, hp⟩, hq, hq'⟩ := h
  refine ⟨p, by rcases ho with ho | ho <;> simp [ho], a, b,
    by rcases hp with ⟨hp, -⟩ | ⟨hp, -⟩ <;> simp [hp], ?_⟩
  rcases ho with ho | ho <;> rcases hp with ⟨hp, hp'⟩ | ⟨hp, hp'⟩ <;>
    simp [ho, getResonanceHelicity, hp, hp', hq, allInt, Tree.isInt, resonanceInVertex, toRational,
      bind, Except.bind, pure, Except.pure]

/-- C54: the helicities of the final states, in ascending order of their IDs. -/
theorem C54_final_states (h : Reads c r) (hn : [r.i, r.j, r.k].Nodup) :
    ∃ d, getFinalStateHelicities c = .ok d ∧ (d.map Prod.fst).Pairwise (· < ·) ∧
      ∀ x, x ∈ d ↔ x = (r.i, r.li) ∨ x = (r.j, r.lj) ∨ x = (r.k, r.lk) := finalHelicities_of h hn

/-- C54: a vertex without helicities is an error. -/
theorem C54_missing_helicities (hv : v ∈ c.vertices) (h : v.helicities = none) :
    ∀ d, getFinalStateHelicities c ≠ .ok d := by
  intro d hd
  unfold getFinalStateHelicities at hd
  simp only [bind_ok] at hd
  obtain ⟨e, he, -⟩ := hd
  obtain ⟨hs, hh⟩ := collect_helicities he v hv
  rw [h] at hh
  cases hh

theorem exKstar_reads : Reads exKstar ⟨2, 3, 1, 0, 1 / 2, 0, 0⟩ :=
  ⟨_, _, .inl rfl, ⟨_, _, .inl ⟨rfl, rfl⟩⟩, rfl, rfl⟩

theorem exLambda_reads : Reads exLambda ⟨3, 1, 2, -1 / 2, 0, 0, 1 / 2⟩ :=
  ⟨_, _, .inr rfl, ⟨_, _, .inr ⟨rfl, rfl⟩⟩, rfl, rfl⟩

/-- Both vertex orders and both node orders occur. -/
example : getDecayProductHelicities exLambda.vertices = .ok ((3, 0), (1, 1 / 2)) ∧
    ∃ d, getFinalStateHelicities exLambda = .ok d :=
  ⟨(C54_helicities exLambda_reads).2, (C54_final_states exLambda_reads (by decide)).imp fun _ h => h.1⟩

example : ∀ d, getFinalStateHelicities { exKstar with vertices := [{ type := "ls", node := [] }] } ≠ .ok d :=
  C54_missing_helicities (List.mem_singleton.2 rfl) rfl

/-! ### C55 -/

/-- C55: the helicity recoupling is 1 at its own helicities and 0 elsewhere. -/
theorem C55_helicity (ι : Interp) (η : Sym → ℚ) (x y : Hel) (a b : ℚ) :
    (x.eval η = a ∧ y.eval η = b →
      (helicityRecoupling x y (.num a) (.num b)).eval ι η = 1) ∧
    (¬ (x.eval η = a ∧ y.eval η = b) →
      (helicityRecoupling x y (.num a) (.num b)).eval ι η = 0) := by
  rw [eval_helicity]
  unfold recouplingValue
  simp only [Hel.eval, add_zero]
  exact ⟨fun h => if_pos h, fun h => if_neg h⟩

/-- C55: the parity recoupling is 1 at its own helicities, `f` at the opposite ones, `1 + f` if both
helicities are zero and 0 elsewhere. -/
theorem C55_parity (ι : Interp) (η : Sym → ℚ) (x y : Hel) (a b : ℚ) (f : ℤ) :
    (¬ (a = 0 ∧ b = 0) → x.eval η = a → y.eval η = b →
      (parityRecoupling x y (.num a) (.num b) f).eval ι η = 1) ∧
    (¬ (a = 0 ∧ b = 0) → x.eval η = -a → y.eval η = -b →
      (parityRecoupling x y (.num a) (.num b) f).eval ι η = f) ∧
    (a = 0 → b = 0 → x.eval η = 0 → y.eval η = 0 →
      (parityRecoupling x y (.num a) (.num b) f).eval ι η = 1 + f) ∧
    (¬ (x.eval η = a ∧ y.eval η = b) → ¬ (x.eval η = -a ∧ y.eval η = -b) →
      (parityRecoupling x y (.num a) (.num b) f).eval ι η = 0) := by
  have key : (parityRecoupling x y (.num a) (.num b) f).eval ι η =
      recouplingValue (some f) a b (x.eval η) (y.eval η) := eval_parity ι η x y (.num a) (.num b) f
  rw [key]
  unfold recouplingValue
  refine ⟨?_, ?_, ?_, ?_⟩
  · intro h h1 h2
    simp only
    rw [if_pos ⟨h1, h2⟩, if_neg, mul_zero, add_zero]
    rintro ⟨h3, h4⟩
    exact h ⟨by linarith, by linarith⟩
  · intro h h1 h2
    simp only
    rw [if_pos (show x.eval η = -a ∧ y.eval η = -b from ⟨h1, h2⟩), if_neg, mul_one, zero_add]
    rintro ⟨h3, h4⟩
    exact h ⟨by linarith, by linarith⟩
  · rintro rfl rfl h1 h2
    simp only
    rw [if_pos ⟨h1, h2⟩, if_pos ⟨by simpa using h1, by simpa using h2⟩, mul_one]
  · intro h1 h2
    simp only
    rw [if_neg h1, if_neg h2, mul_zero, add_zero]

/-- C55: flipping both helicities multiplies the parity recoupling with the parity factor. -/
theorem C55_symmetry (ι : Interp) (η : Sym → ℚ) (x y : Hel) (a b : Hel) (f : ℤ) (hf : f = 1 ∨ f = -1) :
    (parityRecoupling (.neg x) (.neg y) a b f).eval ι η =
      f * (parityRecoupling x y a b f).eval ι η := by
  rw [eval_parity, eval_parity]
  have h1 : (Hel.neg x).eval η = -x.eval η := rfl
  have h2 : (Hel.neg y).eval η = -y.eval η := rfl
  rw [h1, h2]
  generalize x.eval η = x, y.eval η = y, a.eval η = a, b.eval η = b
  unfold recouplingValue
  have e1 : (-x = a ∧ -y = b) ↔ (x = -a ∧ y = -b) := by
    constructor <;> rintro ⟨rfl, rfl⟩ <;> simp
  have e2 : (-x = -a ∧ -y = -b) ↔ (x = a ∧ y = b) := by simp
  simp only [e1, e2]
  rcases hf with rfl | rfl <;> push_cast <;> ring

/-- C55: the recoupling of a helicity or parity vertex of a model has the value that the vertex
specifies, in terms of the helicity symbols of its children. -/
theorem C55_recoupling {cs : List ChainDefinition} (hm : getDecayChains m = .ok cs) (hc : cs[n]? = some c)
    (h2 : c.vertices.length = 2) (hv : c.vertices[k]? = some v) {x y : Tree} (hx : v.node = [x, y])
    {a b : ℚ} (hh : v.helicities = some [some a, some b])
    (ht : v.type = "helicity" ∨ v.type = "parity" ∧
      ∀ s, v.parityFactor = some s → Surrounded s ['+'] ∨ Surrounded s ['-'] ∨ Surrounded s []) :
    ∃ e, formulateRecoupling m n k = .ok e ∧
      ∀ ι η, e.eval ι η = vertexValue v (η lambdaR) fun i => η (lambdaSym i) := by
  have hk : (k : ℤ) ∈ [0, 1] := by
    have : k < 2 := by rw [← h2]; exact (List.getElem?_eq_some_iff.1 hv).1
    simp; omega
  have hsym : ∀ (t : Tree) (η : Sym → ℚ), η (getHelicitySymbol t) =
      childHelicity (η lambdaR) (fun i => η (lambdaSym i)) t := by
    intro t η; cases t <;> rfl
  unfold formulateRecoupling
  rw [hm]
  simp only [bind, Except.bind, item_ok.2 hc, h2, ne_eq, not_true, if_false, hk, item_ok.2 hv, hx,
    List.map_cons, List.map_nil, unpack2]
  rcases ht with ht | ⟨ht, hs⟩
  · rw [if_pos (by simp [ht]), hh]
    simp only [List.mapM_cons, List.mapM_nil, toRational, bind, Except.bind, pure, Except.pure, unpack2]
    rw [if_neg (by simp [ht])]
    refine ⟨_, rfl, fun ι η => ?_⟩
    rw [eval_helicity]
    unfold vertexValue vertexParity
    simp only [hx, hh, ht, Hel.eval, hsym]
    rfl
  · rw [if_pos (by simp [ht]), hh]
    simp only [List.mapM_cons, List.mapM_nil, toRational, bind, Except.bind, pure, Except.pure, unpack2]
    rw [if_pos ht]
    have hf : ∃ f, signToValue (v.parityFactor.getD "+") = .ok f ∧ parityValue v.parityFactor = f := by
      cases hp : v.parityFactor with
      | none => exact ⟨1, rfl, rfl⟩
      | some s =>
        have e1 := strip_iff s (core := ['-']) (by simp [pyIsSpace]) (by simp [pyIsSpace])
        have e2 := strip_iff s (core := ['+']) (by simp [pyIsSpace]) (by simp [pyIsSpace])
        have e3 := strip_iff s (core := []) (by simp) (by simp)
        have : ∃ f, signToValue s = .ok f := by
          unfold signToValue
          rcases hs s hp with h | h | h
          · rw [← e2] at h; simp [h]
          · rw [← e1] at h; simp [h]
          · rw [← e3] at h; simp [h]
        obtain ⟨f, hf⟩ := this
        exact ⟨f, hf, signValue hf⟩
    obtain ⟨f, hf, hpf⟩ := hf
    rw [hf]
    refine ⟨_, rfl, fun ι η => ?_⟩
    rw [eval_parity]
    unfold vertexValue vertexParity
    simp only [hx, hh, ht, Hel.eval, hsym, hpf, if_true]

/-- The decay vertex of the `K*` chain has a parity factor and two zero helicities. -/
example : ∃ e, formulateRecoupling exModel 1 1 = .ok e ∧ ∀ ι η,
    e.eval ι η = vertexValue exKstar.vertices[1] (η lambdaR) fun i => η (lambdaSym i) :=
  C55_recoupling (c := exKstar) rfl rfl rfl rfl rfl rfl
    (.inr ⟨rfl, fun s hs => .inl (by cases hs; exact ⟨[], [], rfl, by simp, by simp⟩)⟩)

/-- The production vertex of the `L` chain. -/
example : ∃ e, formulateRecoupling exModel 0 1 = .ok e ∧ ∀ ι η,
    e.eval ι η = vertexValue exLambda.vertices[1] (η lambdaR) fun i => η (lambdaSym i) :=
  C55_recoupling (c := exLambda) rfl rfl rfl rfl rfl rfl (.inl rfl)

example (ι : Interp) : (parityRecoupling (.num (-1 / 2)) (.num 0) (.num (1 / 2)) (.num 0) (-1)).eval ι
    (fun _ => 0) = (-1 : ℤ) :=
  (C55_parity ι _ _ _ _ _ _).2.1 (by norm_num) (by norm_num [Hel.eval]) (by norm_num [Hel.eval])

/-! ### C57 -/

/-- C57 is false: an LS vertex with a final state among its children cannot be used. -/
theorem C57_ls_vertex_fails {cs : List ChainDefinition} (hm : getDecayChains m = .ok cs)
    (hc : cs[n]? = some c) (hv : c.vertices[k]? = some v) (ht : v.type = "ls") {i : ℤ}
    (hi : .id i ∈ v.node) : ∀ e, formulateRecoupling m n k ≠ .ok e := ls_fails hm hc hv ht hi

/-- C57 is false: a complete LS vertex of a well-formed model is a `TypeError`. -/
theorem C57_ls_vertex_type_error {D : Distribution} (hD : ∃ rest, m.distributions = D :: rest)
    (hk : WellFormedKinematics D.kinematics) (hc : D.chains[n]? = some c) (h2 : c.vertices.length = 2)
    (hp : ∃ p s, c.propagators = [p] ∧ p.spin = some s) (hv : c.vertices[k]? = some v)
    (ht : v.type = "ls") (hl : v.l.isSome) (hs : ∃ q, v.s = some (some q)) {i : ℤ}
    (hi : i ∈ ([1, 2, 3] : List ℤ))
    (hx : (∃ y, v.node = [.id i, y]) ∨ ∃ a, v.node = [.seq a, .id i]) :
    formulateRecoupling m n k = .error .typeError := by
  obtain ⟨rest, hr⟩ := hD
  have hm : getDecayChains m = .ok D.chains := getDecayChains_ok.2 ⟨D, rest, hr, rfl⟩
  obtain ⟨p0, ps, hst, -, hperm⟩ := stages_exist (f := identityFunction) ⟨rest, hr⟩ hk
  have hf := hst.getFinal
  obtain ⟨p, -, -, hget⟩ := finalOf_get hperm hi
  have hget' : PyDict.get (finalOf ps) i = .ok p := get_ok.2 hget
  have hk' : (k : ℤ) ∈ [0, 1] := by
    have : k < 2 := by rw [← h2]; exact (List.getElem?_eq_some_iff.1 hv).1
    simp; omega
  obtain ⟨l, hl⟩ := Option.isSome_iff_exists.1 hl
  obtain ⟨q, hs⟩ := hs
  obtain ⟨pr, s, hp, hps⟩ := hp
  have hspins : getChildSpins m n k = .error .typeError := by
    unfold getChildSpins
    rcases hx with ⟨y, hx⟩ | ⟨a, hx⟩
    · simp [hm, bind, Except.bind, item_ok.2 hc, item_ok.2 hv, hf, hx, List.mapM_cons, hget']
    · simp [hm, bind, Except.bind, item_ok.2 hc, item_ok.2 hv, hf, hx, List.mapM_cons, hget',
        getPropagatorSpin, hp, hps, toRational]
  have hn : ∃ x y, v.node = [x, y] := by
    rcases hx with ⟨y, hx⟩ | ⟨a, hx⟩
    · exact ⟨_, _, hx⟩
    · exact ⟨_, _, hx⟩
  obtain ⟨x, y, hn⟩ := hn
  unfold formulateRecoupling
  rw [hm]
  simp only [bind, Except.bind, item_ok.2 hc, h2, ne_eq, not_true, if_false, hk', item_ok.2 hv, hn,
    List.map_cons, List.map_nil, unpack2]
  rw [if_neg (by simp [ht]), if_pos ht]
  simp [hl, hs, toRational, hspins]

/-- C57: an LS vertex with the resonance as first child needs exactly one propagator; otherwise `ValueError`. -/
theorem C57_propagator_error {D : Distribution} (hD : ∃ rest, m.distributions = D :: rest)
    (hk : WellFormedKinematics D.kinematics) (hc : D.chains[n]? = some c) (h2 : c.vertices.length = 2)
    (hp : c.propagators.length ≠ 1) (hv : c.vertices[k]? = some v)
    (ht : v.type = "ls") (hl : v.l.isSome) (hs : ∃ q, v.s = some (some q))
    (hx : ∃ a y, v.node = [.seq a, y]) :
    formulateRecoupling m n k = .error .valueError := by
  obtain ⟨rest, hr⟩ := hD
  have hm : getDecayChains m = .ok D.chains := getDecayChains_ok.2 ⟨D, rest, hr, rfl⟩
  obtain ⟨p0, ps, hst, -, hperm⟩ := stages_exist (f := identityFunction) ⟨rest, hr⟩ hk
  have hf := hst.getFinal
  have hk' : (k : ℤ) ∈ [0, 1] := by
    have : k < 2 := by rw [← h2]; exact (List.getElem?_eq_some_iff.1 hv).1
    simp; omega
  obtain ⟨l, hl⟩ := Option.isSome_iff_exists.1 hl
  obtain ⟨q, hs⟩ := hs
  have hprop : getPropagatorSpin c = .error .valueError := by
    unfold getPropagatorSpin
    rcases h : c.propagators with _ | ⟨p, _ | ⟨p', l⟩⟩
    · rfl
    · simp [h] at hp
    · rfl
  obtain ⟨a, y, hx⟩ := hx
  have hspins : getChildSpins m n k = .error .valueError := by
    unfold getChildSpins
    simp [hm, bind, Except.bind, item_ok.2 hc, item_ok.2 hv, hf, hx, List.mapM_cons, hprop]
  unfold formulateRecoupling
  rw [hm]
  simp only [bind, Except.bind, item_ok.2 hc, h2, ne_eq, not_true, if_false, hk', item_ok.2 hv, hx,
    List.map_cons, List.map_nil, unpack2]
  rw [if_neg (by simp [ht]), if_pos ht]
  simp [hl, hs, toRational, hspins]

/-- C57, the part that holds: the expression for LS couplings has the value of the LS factor. Missing:
the function that should return it fails (`C57_ls_vertex_fails`). -/
theorem C57_ls_value_partial (ι : Interp) (η : Sym → ℚ) (x y : Hel) (l : ℤ) (s ja jb j : ℚ) :
    (lsRecoupling x y l s ja jb j).eval ι η = lsFactor ι j ja jb ⟨l, s⟩ (x.eval η) (y.eval η) := by
  simp only [lsRecoupling, lsFactor, Expr.eval, Hel.eval]
  push_cast
  ring

/-- `Lc → (K* → pi K) p` with LS couplings at both vertices. -/
def exLs : ChainDefinition :=
  { exKstar with
    vertices := [
      { type := "ls", node := [.seq [.id 2, .id 3], .id 1], l := some 0, s := some (some (1 / 2)) },
      { type := "ls", node := [.id 2, .id 3], l := some 1, s := some (some 0) }] }

/-- A model with this chain. -/
def exLsModel : ModelDefinition :=
  { exModel with distributions := [⟨exKinematics, [.id 1, .seq [.id 2, .id 3]], [exLs]⟩] }

example : formulateRecoupling exLsModel 0 0 = .error .typeError ∧
    formulateRecoupling exLsModel 0 1 = .error .typeError :=
  ⟨C57_ls_vertex_type_error (c := exLs) ⟨_, rfl⟩ exKinematics_wf rfl rfl ⟨_, _, rfl, rfl⟩ rfl rfl rfl
      ⟨_, rfl⟩ (i := 1) (by simp) (.inr ⟨_, rfl⟩),
    C57_ls_vertex_type_error (c := exLs) ⟨_, rfl⟩ exKinematics_wf rfl rfl ⟨_, _, rfl, rfl⟩ rfl rfl rfl
      ⟨_, rfl⟩ (i := 2) (by simp) (.inl ⟨_, rfl⟩)⟩

example : formulateRecoupling { exLsModel with distributions :=
    [⟨exKinematics, [.id 1, .seq [.id 2, .id 3]], [{ exLs with propagators := [] }]⟩] } 0 0 = .error .valueError :=
  C57_propagator_error (c := { exLs with propagators := [] }) ⟨_, rfl⟩ exKinematics_wf rfl rfl (by simp) rfl rfl rfl
    ⟨_, rfl⟩ ⟨_, _, rfl⟩

example : ∀ e, formulateRecoupling exLsModel 0 1 ≠ .ok e :=
  C57_ls_vertex_fails (c := exLs) rfl rfl rfl rfl (i := 3) (by simp)

end Verif.Serialization
