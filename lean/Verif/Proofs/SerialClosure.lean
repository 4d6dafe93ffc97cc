import Verif.Proofs.SerialModel
import Verif.Props.Closure

/-! Free symbols of a model formulated from a serialized model. -/
namespace Verif.Serialization
open Verif Verif.ThreeBody Verif.Spec Verif.Spin Verif.Angles

variable {m : ModelDefinition} {tl : String → String} {add : Option (PyDict String PropagatorBuilder)}
  {D : Distribution} {rd : ChainDefinition → Reading} {cl : Bool} {a : AmplitudeModel}

/-! ### Lineshapes -/

theorem closed_mul {a b : DefExpr} (ha : ClosedLineshape a) (hb : ClosedLineshape b) :
    ClosedLineshape (a.mul (.defined b)) := by
  obtain ⟨a1, a2, a3⟩ := ha
  obtain ⟨b1, b2, b3⟩ := hb
  have he : (a.mul (.defined b)).expression = .mul a.expression b.expression := rfl
  have hk : ∀ k, k ∈ PyDict.keys (a.mul (.defined b)).parameters ↔
      k ∈ PyDict.keys a.parameters ∨ k ∈ PyDict.keys b.parameters := by
    intro k
    simp only [DefExpr.mul, PyDict.mem_keys_update]
    simp only [PyDict.keys, List.map_nil, List.not_mem_nil, false_or]
  refine ⟨?_, ?_, ?_⟩
  · rw [he]; simp only [freeHelicities, a1, b1, List.append_nil]
  · rw [he]; simp only [Expr.indexeds, a2, b2, List.append_nil]
  · intro s hs
    rw [he] at hs
    simp only [Expr.syms, List.mem_append] at hs
    rw [hk]
    rcases hs with hs | hs
    · exact (a3 s hs).imp id .inl
    · exact (b3 s hs).imp id .inr

theorem closed_foldl {ds : List DefExpr} (hds : ∀ x ∈ ds, ClosedLineshape x) {d : DefExpr}
    (hd : ClosedLineshape d) : ClosedLineshape (ds.foldl (fun a x => a.mul (.defined x)) d) := by
  induction ds generalizing d with
  | nil => exact hd
  | cons x t ih =>
    exact ih (fun y hy => hds y (List.mem_cons_of_mem _ hy)) (closed_mul hd (hds x (List.mem_cons_self ..)))

theorem pair_symbol {i j : ℤ} {s : Sym} (h : toMassSymbol (.seq [.id i, .id j]) = .ok s) :
    s ∈ providedSymbols := by
  simp only [toMassSymbol] at h
  split at h
  · rename_i k t hk
    have : k ∈ ([1, 2, 3] : List ℤ) := (List.mem_filter.1 (hk ▸ List.mem_cons_self ..)).1
    cases h
    exact provided_mandelstam this
  · cases h

theorem seq_symbol {l : List Tree} {s : Sym} (h : toMassSymbol (.seq l) = .ok s) :
    s ∈ providedSymbols := by
  by_cases hl : ∃ i j, l = [.id i, .id j]
  · obtain ⟨i, j, rfl⟩ := hl
    exact pair_symbol h
  · unfold toMassSymbol at h
    split at h
    · rename_i h'; cases h'
    · rename_i i j h'
      injection h' with h'
      exact absurd ⟨i, j, h'⟩ hl
    · cases h

theorem mandelstam_provided {node : List Tree} {s : Sym} (h : toMandelstamSymbol node = .ok s) :
    s ∈ providedSymbols := by
  unfold toMandelstamSymbol at h
  split at h
  · exact seq_symbol h
  · cases h
    exact provided_state (i := 0) (by simp)

theorem closed_breitWigner {p : Propagator} {R : String} {e : DefExpr}
    (h : formulateBreitWigner p R m = .ok e) : ClosedLineshape e := by
  obtain ⟨f, i, j, s, m1, m2, L, mass, width, ma, mb, d, -, -, hs, -, -, -, -, -, -, -, -, rfl⟩ :=
    breitWigner_ok.1 h
  have hw : breitWigner (.sym s) (.sym (resonanceMass R)) (.sym (resonanceWidth R)) (.sym m1) (.sym m2)
      (pyInt L) (.sym resRadius) = simpleBreitWigner (.sym s) (.sym (resonanceMass R))
        (.edw (.sym s) (.sym (resonanceMass R)) (.sym (resonanceWidth R)) (.sym m1) (.sym m2) (pyInt L)
          (.sym resRadius) "PhaseSpaceFactor") := by
    unfold breitWigner breitWignerWidth
    rw [if_neg]
    rintro ⟨-, h, -⟩
    cases h
  simp only [hw]
  refine ⟨rfl, rfl, ?_⟩
  intro u hu
  have hu : u ∈ [resonanceMass R, s, resonanceMass R, s, resonanceMass R, resonanceWidth R, m1, m2,
      resRadius] := hu
  simp only [List.mem_cons, List.not_mem_nil, or_false] at hu
  have hk : ∀ k, k ∈ [Key.sym (resonanceMass R), .sym (resonanceWidth R), .sym m1, .sym m2, .sym resRadius] →
      k ∈ PyDict.keys (PyDict.ofItems [(Key.sym (resonanceMass R), Val.real mass),
        (.sym (resonanceWidth R), .real width), (.sym m1, .real ma), (.sym m2, .real mb),
        (.sym resRadius, .real d)]) := by
    intro k hk
    rw [PyDict.ofItems, PyDict.mem_keys_update]
    exact .inr hk
  rcases hu with rfl | rfl | rfl | rfl | rfl | rfl | rfl | rfl | rfl
  all_goals first
    | exact .inl (mandelstam_provided hs)
    | exact .inr (hk _ (by simp))

/-- The symbols of a channel are provided or parameters. -/
def ClosedChannel (P : PyDict Key Val) (c : ChannelArguments) : Prop := ∃ s m0 w m1 m2 L R,
  c = ⟨.sym s, .sym m0, .sym w, .sym m1, .sym m2, L, .sym R⟩ ∧
    ∀ u ∈ [s, m0, w, m1, m2, R], u ∈ providedSymbols ∨ Key.sym u ∈ PyDict.keys P

theorem ClosedChannel.mono {P Q : PyDict Key Val} {c : ChannelArguments} (h : ClosedChannel P c)
    (hPQ : ∀ k ∈ PyDict.keys P, k ∈ PyDict.keys Q) : ClosedChannel Q c := by
  obtain ⟨s, m0, w, m1, m2, L, R, rfl, h⟩ := h
  exact ⟨s, m0, w, m1, m2, L, R, rfl, fun u hu => (h u hu).imp id (hPQ _)⟩

theorem channelLoop_closed {R : String} {s mass d : Sym} (hs : s ∈ providedSymbols) {n : ℕ}
    {cs : List (PyDict String ℚ)} {ch : List ChannelArguments} {P : PyDict Key Val}
    {r : List ChannelArguments × PyDict Key Val} (h : channelLoop R s mass d n cs ch P = .ok r)
    (hm : Key.sym mass ∈ PyDict.keys P) (hd : Key.sym d ∈ PyDict.keys P) (hc : ∀ c ∈ ch, ClosedChannel P c) :
    Key.sym mass ∈ PyDict.keys r.2 ∧ ∀ c ∈ r.1, ClosedChannel r.2 c := by
  induction cs generalizing n ch P with
  | nil => cases h; exact ⟨hm, hc⟩
  | cons c t ih =>
    unfold channelLoop at h
    simp only [bind_ok] at h
    obtain ⟨L, -, ma, -, mb, -, gsq, -, h⟩ := h
    have hk : ∀ k ∈ PyDict.keys P, k ∈ PyDict.keys (PyDict.update P [(.sym (channelMassA n), .real ma),
        (.sym (channelMassB n), .real mb), (.sym (channelWidth R n), .real gsq)]) :=
      fun k hk => (PyDict.mem_keys_update ..).2 (.inl hk)
    have hk' : ∀ k ∈ [Key.sym (channelMassA n), .sym (channelMassB n), .sym (channelWidth R n)],
        k ∈ PyDict.keys (PyDict.update P [(.sym (channelMassA n), .real ma),
          (.sym (channelMassB n), .real mb), (.sym (channelWidth R n), .real gsq)]) :=
      fun k hk => (PyDict.mem_keys_update ..).2 (.inr hk)
    refine ih h (hk _ hm) (hk _ hd) ?_
    intro c hc'
    rcases List.mem_append.1 hc' with hc' | hc'
    · exact (hc c hc').mono hk
    · rw [List.mem_singleton.1 hc']
      refine ⟨_, _, _, _, _, _, _, rfl, ?_⟩
      intro u hu
      simp only [List.mem_cons, List.not_mem_nil, or_false] at hu
      rcases hu with rfl | rfl | rfl | rfl | rfl | rfl
      · exact .inl hs
      · exact .inr (hk _ hm)
      · exact .inr (hk' _ (by simp))
      · exact .inr (hk' _ (by simp))
      · exact .inr (hk' _ (by simp))
      · exact .inr (hk _ hd)

theorem channels_symbols {P : PyDict Key Val} {cs : List ChannelArguments} (hc : ∀ c ∈ cs, ClosedChannel P c)
    {acc : Expr} (ha : freeHelicities acc = [] ∧ acc.indexeds = [] ∧
      ∀ s ∈ acc.syms, s ∈ providedSymbols ∨ Key.sym s ∈ PyDict.keys P) :
    freeHelicities (cs.foldl (fun acc c => acc + c.evaluate) acc) = [] ∧
    (cs.foldl (fun acc c => acc + c.evaluate) acc).indexeds = [] ∧
    ∀ s ∈ (cs.foldl (fun acc c => acc + c.evaluate) acc).syms,
      s ∈ providedSymbols ∨ Key.sym s ∈ PyDict.keys P := by
  induction cs generalizing acc with
  | nil => exact ha
  | cons c t ih =>
    refine ih (fun c hc' => hc c (List.mem_cons_of_mem _ hc')) ?_
    obtain ⟨s, m0, w, m1, m2, L, R, rfl, hsym⟩ := hc c (List.mem_cons_self ..)
    obtain ⟨a1, a2, a3⟩ := ha
    refine ⟨?_, ?_, ?_⟩
    · change freeHelicities acc ++ [] = []
      rw [a1]; rfl
    · change acc.indexeds ++ [] = []
      rw [a2]; rfl
    · intro u hu
      have hu : u ∈ acc.syms ∨ u ∈ [w, m0, s, s, m1, m2, R] := List.mem_append.1 hu
      rcases hu with hu | hu
      · exact a3 u hu
      · apply hsym
        simp only [List.mem_cons, List.not_mem_nil, or_false] at hu ⊢
        tauto

theorem closed_multichannel {p : Propagator} {R : String} {e : DefExpr}
    (h : formulateMultichannelBreitWigner p R m = .ok e) : ClosedLineshape e := by
  obtain ⟨f, c1, c2, cs, i, j, s, m1, m2, L, mass, gsq, ma, mb, d, r, -, -, -, hs, -, -, -, -, -, -, -, -,
    h12, rfl⟩ := multichannel_ok h
  have hs' := mandelstam_provided hs
  have hk : ∀ k, k ∈ [Key.sym (resonanceMass R), .sym (resonanceWidth R), .sym m1, .sym m2,
      .sym ⟨"R_{" ++ R ++ "}", .nonneg⟩] →
      k ∈ PyDict.keys (PyDict.ofItems [(Key.sym (resonanceMass R), Val.real mass),
        (.sym (resonanceWidth R), .real gsq), (.sym m1, .real ma), (.sym m2, .real mb),
        (.sym ⟨"R_{" ++ R ++ "}", .nonneg⟩, .real d)]) := by
    intro k hk
    rw [PyDict.ofItems, PyDict.mem_keys_update]
    exact .inr hk
  obtain ⟨hmass, hch⟩ := channelLoop_closed hs' h12 (hk _ (by simp)) (hk _ (by simp)) (by
    intro c hc
    rw [List.mem_singleton.1 hc]
    refine ⟨_, _, _, _, _, _, _, rfl, ?_⟩
    intro u hu
    simp only [List.mem_cons, List.not_mem_nil, or_false] at hu
    rcases hu with rfl | rfl | rfl | rfl | rfl | rfl
    · exact .inl hs'
    all_goals exact .inr (hk _ (by simp)))
  obtain ⟨w1, w2, w3⟩ := channels_symbols hch (acc := 0) ⟨rfl, rfl, fun u hu => by cases hu⟩
  have hw : multichannelBreitWigner (.sym s) (.sym (resonanceMass R)) r.1 =
      simpleBreitWigner (.sym s) (.sym (resonanceMass R))
        (r.1.foldl (fun acc (c : ChannelArguments) => acc + c.evaluate) (0 : Expr)) := by
    unfold multichannelBreitWigner breitWigner breitWignerWidth multichannelWidth
    rw [if_pos ⟨rfl, rfl, rfl⟩]
  simp only [hw]
  refine ⟨?_, ?_, ?_⟩
  · change freeHelicities (r.1.foldl (fun acc (c : ChannelArguments) => acc + c.evaluate) (0 : Expr)) ++ [] = []
    rw [w1]; rfl
  · change (r.1.foldl (fun acc (c : ChannelArguments) => acc + c.evaluate) (0 : Expr)).indexeds ++ [] = []
    rw [w2]; rfl
  · intro u hu
    have hu : u ∈ resonanceMass R :: s :: resonanceMass R ::
        ((r.1.foldl (fun acc (c : ChannelArguments) => acc + c.evaluate) (0 : Expr)).syms ++ []) := hu
    simp only [List.mem_cons, List.append_nil] at hu
    rcases hu with rfl | rfl | rfl | hu
    · exact .inr hmass
    · exact .inl hs'
    · exact .inr hmass
    · exact w3 u hu

theorem closed_formFactor {v : Vertex} (hv : ∀ i, .id i ∈ v.node → i ∈ ([1, 2, 3] : List ℤ)) {e : DefExpr}
    (h : formulateFormFactor v m = .ok e) : ClosedLineshape e := by
  have hmass : ∀ x ∈ v.node, ∀ u, toMassSymbol x = .ok u → u ∈ providedSymbols := by
    intro x hx u hu
    cases x with
    | id i =>
      cases hu
      exact provided_state (Angles.mem0 (hv i hx))
    | seq l => exact seq_symbol hu
  rcases formFactor_ok.1 h with ⟨-, rfl⟩ | ⟨name, f, s, x, y, m1, m2, R, L, radius, -, -, -, -, hs, hn, h1, h2, -,
    -, -, rfl⟩
  · exact closed_unit
  · refine ⟨rfl, rfl, ?_⟩
    intro u hu
    have hu : u ∈ [s, m1, m2, R] := hu
    simp only [List.mem_cons, List.not_mem_nil, or_false] at hu
    rcases hu with rfl | rfl | rfl | rfl
    · exact .inl (mandelstam_provided hs)
    · exact .inl (hmass x (by rw [hn]; simp) _ h1)
    · exact .inl (hmass y (by rw [hn]; simp) _ h2)
    · exact .inr (by simp [PyDict.keys])

/-- The custom builders return closed lineshapes. -/
def ClosedBuilders (add : Option (PyDict String PropagatorBuilder)) (m : ModelDefinition) : Prop :=
  ∀ defs, add = some defs → ∀ x ∈ defs, ∀ p R e, x.2 p R m = .ok e → ClosedLineshape e

theorem closed_dynamics (hadd : ClosedBuilders add m) {c : ChainDefinition} {e : DefExpr}
    (h : formulateDynamics c m tl add = .ok e) : ClosedLineshape e := by
  have hdefs : ∀ t b, PyDict.get? (dynamicsDefinitions add) t = some b → ∀ p e,
      b p (tl c.name) m = .ok e → ClosedLineshape e := by
    intro t b hb p e he
    have hfin : PyDict.get? (dynamicsDefinitions none) t = some b → ClosedLineshape e := by
      intro hb
      rcases builtin_get hb with ⟨-, rfl⟩ | ⟨-, rfl⟩
      · exact closed_breitWigner he
      · exact closed_multichannel he
    cases hadd' : add with
    | none => rw [hadd'] at hb; exact hfin hb
    | some defs =>
      rw [hadd'] at hb
      unfold dynamicsDefinitions at hb
      simp only at hb
      rw [PyDict.get?_update] at hb
      cases hr : PyDict.get? defs.reverse t with
      | none => rw [hr] at hb; exact hfin hb
      | some b' =>
        rw [hr, Option.some_or] at hb
        cases hb
        exact hadd defs hadd' _ (List.mem_reverse.1 (PyDict.mem_of_get? hr)) p _ e he
  have key : ∀ ps d, ClosedLineshape d →
      dynamicsLoop (dynamicsDefinitions add) (tl c.name) m ps d = .ok e → ClosedLineshape e := by
    intro ps
    induction ps with
    | nil => intro d hd h; cases h; exact hd
    | cons p t ih =>
      intro d hd h
      unfold dynamicsLoop at h
      simp only [bind_ok] at h
      obtain ⟨f, -, h⟩ := h
      cases hb : PyDict.get? (dynamicsDefinitions add) f.type with
      | none => rw [hb] at h; cases h
      | some b =>
        rw [hb] at h
        simp only [bind_ok] at h
        obtain ⟨x, hx, h⟩ := h
        exact ih _ (closed_mul hd (hdefs _ _ hb p x hx)) h
  exact key _ {} closed_unit h

/-! ### The amplitude of a chain -/

theorem recoupling_symbols {n k : ℕ} {cs : List ChainDefinition} (hm : getDecayChains m = .ok cs)
    {c : ChainDefinition} (hc : cs[n]? = some c) {e : Expr} (h : formulateRecoupling m n k = .ok e) :
    e.indexeds = [] ∧ e.syms = [] ∧ ∀ s ∈ freeHelicities e, ∃ v ∈ c.vertices, ∃ t ∈ v.node,
      s = getHelicitySymbol t := by
  unfold formulateRecoupling at h
  rw [hm] at h
  simp only [bind_ok] at h
  obtain ⟨_, hcs, c', hc', h⟩ := h
  cases hcs
  rw [item_ok, hc] at hc'
  injection hc' with hc'
  subst hc'
  split at h
  · cases h
  · split at h
    · cases h
    · simp only [bind_ok] at h
      obtain ⟨v, hv, ⟨x, y⟩, hab, h⟩ := h
      have hmem : v ∈ c.vertices := List.mem_of_getElem? (item_ok.1 hv)
      have hxy := unpack2_ok.1 hab
      have hx : ∃ t ∈ v.node, x = getHelicitySymbol t := by
        have : x ∈ v.node.map getHelicitySymbol := by rw [hxy]; simp
        obtain ⟨t, ht, rfl⟩ := List.mem_map.1 this
        exact ⟨t, ht, rfl⟩
      have hy : ∃ t ∈ v.node, y = getHelicitySymbol t := by
        have : y ∈ v.node.map getHelicitySymbol := by rw [hxy]; simp
        obtain ⟨t, ht, rfl⟩ := List.mem_map.1 this
        exact ⟨t, ht, rfl⟩
      have hfin : ∀ s, s = x ∨ s = y → ∃ v ∈ c.vertices, ∃ t ∈ v.node, s = getHelicitySymbol t := by
        rintro s (rfl | rfl)
        · exact ⟨v, hmem, hx⟩
        · exact ⟨v, hmem, hy⟩
      split at h
      · have h : ∃ a0 b0, (if v.type = "parity" then
              (signToValue (v.parityFactor.getD "+") >>= fun f =>
                .ok (parityRecoupling (.sym x) (.sym y) (.num a0) (.num b0) f))
            else .ok (helicityRecoupling (.sym x) (.sym y) (.num a0) (.num b0))) = Except.ok e := by
          cases hh : v.helicities with
          | none => rw [hh] at h; cases h
          | some l =>
            simp only [hh, bind_ok] at h
            obtain ⟨hs, -, ⟨a0, b0⟩, -, h⟩ := h
            exact ⟨a0, b0, h⟩
        obtain ⟨a0, b0, h⟩ := h
        split at h
        · simp only [bind_ok] at h
          obtain ⟨f, -, h⟩ := h
          cases h
          refine ⟨rfl, rfl, fun s hs => hfin s ?_⟩
          have hs : s ∈ [x, y, x, y] := by simpa [parityRecoupling, freeHelicities, helSymbols] using hs
          simp only [List.mem_cons, List.not_mem_nil, or_false] at hs
          tauto
        · cases h
          refine ⟨rfl, rfl, fun s hs => hfin s ?_⟩
          simpa [helicityRecoupling, freeHelicities, helSymbols] using hs
      · split at h
        · have h : ∃ l s ja jb j, lsRecoupling (.sym x) (.sym y) l s ja jb j = e := by
            cases hl : v.l with
            | none => rw [hl] at h; cases h
            | some l =>
              cases hs : v.s with
              | none => rw [hl, hs] at h; cases h
              | some s =>
                simp only [hl, hs, bind_ok] at h
                obtain ⟨l', -, s', -, cs, -, ⟨ja, jb⟩, -, j, -, h⟩ := h
                injection h with h
                exact ⟨_, _, _, _, _, h⟩
          obtain ⟨l, s, ja, jb, j, rfl⟩ := h
          refine ⟨rfl, rfl, fun s hs => hfin s ?_⟩
          have hs : s ∈ [x, y, x, y, x, y, x, y] := by
            simpa [lsRecoupling, freeHelicities, helSymbols] using hs
          simp only [List.mem_cons, List.not_mem_nil, or_false] at hs
          tauto
        · cases h

theorem vertex_ids {c : ChainDefinition} {r : Reading} (hr : Reads c r) (hs : r.Standard) {v : Vertex}
    (hv : v ∈ c.vertices) {i : ℤ} (hi : .id i ∈ v.node) : i ∈ ([1, 2, 3] : List ℤ) := by
  obtain ⟨h1, h2, h3, -⟩ := standard_mem hs
  obtain ⟨p, q, ho, ⟨a, b, hp⟩, hq, -⟩ := hr
  have : v = p ∨ v = q := by
    rcases ho with ho | ho <;> rw [ho] at hv <;> simp at hv <;> tauto
  rcases this with rfl | rfl
  · rcases hp with ⟨hp, -⟩ | ⟨hp, -⟩ <;> rw [hp] at hi <;> simp at hi <;> rw [hi] <;> exact h3
  · rw [hq] at hi
    simp at hi
    rcases hi with rfl | rfl
    · exact h1
    · exact h2

/-- Nothing but the given symbols is in an unfolded expression. -/
def OnlySymbols (S : Sym → Prop) (e : Expr) : Prop :=
  freeHelicities e = [] ∧ e.indexeds = [] ∧ ∀ s ∈ e.syms, S s

/-- The symbols of the amplitude of a chain. -/
def ChainSymbol (r : Reading) (P : PyDict Key Val) (s : Sym) : Prop :=
  s = thetaSym r.i r.j ∨ s ∈ providedSymbols ∨ Key.sym s ∈ PyDict.keys P

theorem chainData_symbols {cs : List ChainDefinition} (hm : getDecayChains m = .ok cs) {n : ℕ}
    {c : ChainDefinition} (hc : cs[n]? = some c) {r : Reading} (hr : Reads c r) (hs : r.Standard)
    (hadd : ClosedBuilders add m)
    {k : ℤ} {e : Expr} {P : PyDict Key Val} {θ : Sym × RExpr} (h : ChainData m tl add n k e P θ)
    (l : ℚ × ℚ × ℚ × ℚ) :
    OnlySymbols (ChainSymbol r P)
      ((e.substHel (override some (fun _ => none) (helSub l))).doit fun _ => none) := by
  obtain ⟨d, ds, w, hd, hds, hw, -, -, -, hθ, hP, -⟩ := chainData_facts hm hc hr hs h
  have h := h.ok
  unfold formulateChainAmplitude at h
  rw [hm] at h
  simp only [bind_ok] at h
  obtain ⟨cs', hcs', c', hc', d', h3, d'', h4, w', h5, ij, h6, θ', h7, jR, h8, r', h9, k', h10, hp, h11, hdec,
    h12, u, h13, h14⟩ := h
  cases hcs'
  rw [item_ok, hc] at hc'
  injection hc' with hc'
  subst hc'
  rw [hd] at h3
  cases h3
  obtain ⟨ds', hds', rfl⟩ := formFactors_ok.1 h4
  have hdyn : ClosedLineshape (ds'.foldl (fun a x => a.mul (.defined x)) d) := by
    refine closed_foldl (fun x hx => ?_) (closed_dynamics hadd hd)
    obtain ⟨v, hv, hvx⟩ := Qrules.forall₂_mem_right hds' hx
    exact closed_formFactor (fun i hi => vertex_ids hr hs hv hi) hvx
  injection h14 with h14
  injection h14 with e1 e2 e3 e4
  subst e4
  obtain ⟨d1, d2, d3⟩ := hdyn
  obtain ⟨p1, p2, p3⟩ := recoupling_symbols hm hc h11
  obtain ⟨q1, q2, q3⟩ := recoupling_symbols hm hc h12
  subst e2
  rw [Expr.doit_substHel, Expr.doit_substHel]
  have hk : Key.sym w'.1 ∈ PyDict.keys P ∧ ∀ x ∈ PyDict.keys (ds'.foldl (fun a x => a.mul (.defined x)) d).parameters,
      x ∈ PyDict.keys P := by
    rw [← e3]
    exact ⟨(PyDict.mem_keys_update ..).2 (.inl (by simp [PyDict.keys])),
      fun x hx => (PyDict.mem_keys_update ..).2 (.inr hx)⟩
  refine ⟨?_, ?_, ?_⟩
  · rw [List.eq_nil_iff_forall_not_mem]
    intro s hs'
    obtain ⟨h1, h2⟩ := Expr.mem_free_doit _ _ _ hs'
    simp only [Option.or_eq_none_iff] at h2
    obtain ⟨hR, h2, -⟩ := h2
    have hsR : s ≠ lambdaR := by
      rintro rfl
      rw [override_some] at hR
      simp [getHelicitySymbol, look_cons] at hR
    have hsl : ∀ i ∈ ([1, 2, 3] : List ℤ), s ≠ lambdaSym i := by
      rintro i hi rfl
      rw [override_some] at h2
      simp only [List.mem_cons, List.not_mem_nil, or_false] at hi
      rcases hi with rfl | rfl | rfl <;> simp only [helSub, look_cons] at h2 <;> split_ifs at h2 <;>
        simp_all
    have hv : (∃ v ∈ c.vertices, ∃ t ∈ v.node, s = getHelicitySymbol t) → False := by
      rintro ⟨v, hv, t, ht, rfl⟩
      cases t with
      | id i => exact hsl i (vertex_ids hr hs hv ht) rfl
      | seq _ => exact hsR rfl
    simp only [freeHelicities, helSymbols, d1, List.mem_append, List.not_mem_nil, or_false, false_or,
      List.mem_singleton] at h1
    rcases h1 with (h1 | h1) | h1
    · exact hv (p3 s h1)
    · exact hv (q3 s h1)
    · exact hsR h1
  · apply Expr.doit_indexeds_nil
    simp only [Expr.indexeds, p1, q1, d2, List.append_nil]
  · intro s hs'
    have hs' := Expr.mem_syms_doit _ _ _ hs'
    simp only [Expr.syms, p2, q2, List.append_nil, List.mem_append, List.mem_singleton] at hs'
    rcases hs' with (rfl | rfl) | hs'
    · exact .inr (.inr hk.1)
    · exact .inl hθ
    · exact .inr ((d3 s hs').imp id (hk.2 _))

/-! ### The loop -/

theorem stored_invariant {K : ℕ → ℤ} {E : ℕ → Expr} {P : ℕ → PyDict Key Val} {Θ : ℕ → Sym × RExpr}
    {Q : Expr → Prop} (h0 : Q (.num 0)) (hadd : ∀ a b, Q a → Q b → Q (.add a b))
    (ps : List ((ℚ × ℚ × ℚ × ℚ) × ℕ))
    (h : ∀ y ∈ ps, Q ((E y.2).substHel (override some (fun _ => none) (helSub y.1)))) (acc : Acc)
    (hacc : ∀ x e, PyDict.get? acc.amplitudes x = some e → Q e) (x : Indexed) (e : Expr)
    (he : PyDict.get? (ps.foldl (loopStep K E P Θ) acc).amplitudes x = some e) : Q e := by
  induction ps generalizing acc with
  | nil => exact hacc x e he
  | cons y t ih =>
    refine ih (fun z hz => h z (List.mem_cons_of_mem _ hz)) (loopStep K E P Θ acc y) ?_ he
    intro z e hz
    unfold loopStep at hz
    simp only at hz
    rw [PyDict.get?_set] at hz
    split at hz
    · injection hz with hz
      subst hz
      refine hadd _ _ ?_ (h y (List.mem_cons_self ..))
      cases hg : PyDict.get? acc.amplitudes (ampKey (K y.2) y.1) with
      | none => exact h0
      | some v => exact hacc _ v hg
    · exact hacc z e hz

theorem only_add {S : Sym → Prop} {a b : Expr} (ha : OnlySymbols S (a.doit fun _ => none))
    (hb : OnlySymbols S (b.doit fun _ => none)) : OnlySymbols S ((Expr.add a b).doit fun _ => none) := by
  obtain ⟨a1, a2, a3⟩ := ha
  obtain ⟨b1, b2, b3⟩ := hb
  refine ⟨?_, ?_, ?_⟩
  · simp only [Expr.doit, freeHelicities, a1, b1, List.append_nil]
  · simp only [Expr.doit, Expr.indexeds, a2, b2, List.append_nil]
  · intro s hs
    simp only [Expr.doit, Expr.syms, List.mem_append] at hs
    exact hs.elim (a3 s) (b3 s)

/-! ### The intensity -/

theorem free_serialIntensity {d : Decay} (hd : Standard d) (h0 : ∀ i : Fin 4, 0 ≤ d.spin i) {ref : ℤ}
    {ids : List ℤ} {s : Sym} :
    s ∉ freeHelicities ((serialIntensity d (ids.map (alignTerm ref (spins d)
      fun i => .sym (lambdaSym i))) cl).doit fun _ => none) := by
  intro hx
  rw [serialIntensity_eq] at hx
  have hx' : ∃ a ∈ combos (outer d), s ∈ freeHelicities ((Expr.pow (.abs (if cl then
      (serialAligned d (ids.map (alignTerm ref (spins d) fun i => .sym (lambdaSym i)))).cleanup else
      serialAligned d (ids.map (alignTerm ref (spins d) fun i => .sym (lambdaSym i))))) 2).doit
        fun u => (look a u).or none) := by
    cases cl with
    | true =>
      rw [if_pos rfl] at hx
      exact Expr.mem_free_cleanup (outer_nodup d) (outer_ne hd h0) hx
    | false =>
      rw [if_neg (by simp)] at hx
      exact Expr.mem_free_psum hx
  obtain ⟨a, ha, hx⟩ := hx'
  have hne := ranges_ne_of_combo ha
  simp only [Expr.doit, freeHelicities] at hx
  have hx' : ∃ a' ∈ combos (inner d), s ∈ freeHelicities ((Expr.addAll (ids.map
      (alignTerm ref (spins d) fun i => .sym (lambdaSym i)))).doit
        fun u => (look a' u).or ((look a u).or none)) := by
    cases cl with
    | true => rw [if_pos rfl] at hx; exact Expr.mem_free_cleanup (inner_nodup _) hne hx
    | false => rw [if_neg (by simp)] at hx; exact Expr.mem_free_psum hx
  obtain ⟨a', ha', hx⟩ := hx'
  obtain ⟨h1, h2⟩ := Expr.mem_free_doit _ _ _ hx
  rw [Expr.mem_free_addAll] at h1
  obtain ⟨e, he, h1⟩ := h1
  obtain ⟨k, -, rfl⟩ := List.mem_map.1 he
  simp only [Option.or_eq_none_iff] at h2
  obtain ⟨i, hi, rfl | rfl⟩ := free_alignTerm h1
  · have := (look_combos ha' (lambdaPrime i)).2 (by
      simp only [ThreeBody.inner, List.map_map, List.mem_map]; exact ⟨i, hi, rfl⟩)
    rw [h2.1] at this; simp at this
  · have := (look_combos ha (lambdaSym i)).2 (by
      simp only [outer, List.map_map, List.mem_map]; exact ⟨i, hi, rfl⟩)
    rw [h2.2.1] at this; simp at this

theorem syms_serialIntensity {d : Decay} {ref : ℤ} {ids : List ℤ} {s : Sym}
    (hs : s ∈ (serialIntensity d (ids.map (alignTerm ref (spins d) fun i => .sym (lambdaSym i))) cl).syms) :
    ∃ k ∈ ids, ∃ i ∈ ([0, 1, 2, 3] : List ℤ), spins d i ≠ 0 ∧ s = ThreeBody.zetaSym i k ref := by
  have hs' : s ∈ (serialAligned d (ids.map (alignTerm ref (spins d) fun i => .sym (lambdaSym i)))).syms := by
    unfold serialIntensity at hs
    cases cl
    · simpa [Expr.syms] using hs
    · simpa [Expr.syms_cleanup, Expr.syms] using hs
  simp only [serialAligned, Expr.syms] at hs'
  rw [Expr.mem_syms_addAll] at hs'
  obtain ⟨e, he, hs'⟩ := hs'
  obtain ⟨k, hk, rfl⟩ := List.mem_map.1 he
  obtain ⟨i, hi, hj, rfl⟩ := syms_alignTerm hs'
  exact ⟨k, hk, i, hi, hj, rfl⟩

/-- The symbols of the scattering angle. -/
theorem scattering_symbols {i j : ℤ} (hi : i ∈ ([1, 2, 3] : List ℤ)) (hj : j ∈ ([1, 2, 3] : List ℤ))
    {θ : Sym × RExpr} (h : formulateScatteringAngle i j = .ok θ) :
    ∀ s ∈ kinematicSymbols θ.2, s ∈ providedSymbols := by
  have key : ∀ i ∈ ([1, 2, 3] : List ℤ), ∀ j ∈ ([1, 2, 3] : List ℤ), ∀ θ,
      formulateScatteringAngle i j = .ok θ → ∀ s ∈ kinematicSymbols θ.2, s ∈ providedSymbols := by
    intro i hi j hj
    simp only [List.mem_cons, List.not_mem_nil, or_false] at hi hj
    rcases hi with rfl | rfl | rfl <;> rcases hj with rfl | rfl | rfl <;> intro θ h <;>
      first
        | (cases h; decide +kernel)
        | cases h
  exact key i hi j hj θ h

end Verif.Serialization
