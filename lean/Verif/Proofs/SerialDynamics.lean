import Verif.Model.SerialDynamics
import Verif.Spec.Amplitude
import Verif.Spec.SerialAmplitude
import Verif.Proofs.Serialization

/-! Helper lemmas for the dynamics of a serialized model. -/
namespace Verif.Serialization
open Verif Verif.ThreeBody Verif.Spec

variable {m : ModelDefinition}

/-- A field that is needed. -/
def Field (f : FunctionDefinition) (k : String) (v : ℚ) : Prop := PyDict.get? f.fields k = some v

theorem unpack2_ok {α : Type} {l : List α} {a b : α} : unpack2 l = .ok (a, b) ↔ l = [a, b] := by
  unfold unpack2
  split
  · simp
  · rename_i h
    constructor
    · intro h'; cases h'
    · intro h'; exact absurd h' (h a b)

theorem breitWigner_ok {p : Propagator} {R : String} {e : DefExpr} :
    formulateBreitWigner p R m = .ok e ↔ ∃ f i j s m1 m2 L mass width ma mb d,
      getFunctionDefinition p.parametrization m = .ok f ∧ p.node = [i, j] ∧
      toMandelstamSymbol p.node = .ok s ∧ toMassSymbol i = .ok m1 ∧ toMassSymbol j = .ok m2 ∧
      PyDict.get? f.fields "l" = some L ∧ PyDict.get? f.fields "mass" = some mass ∧
      PyDict.get? f.fields "width" = some width ∧ PyDict.get? f.fields "ma" = some ma ∧
      PyDict.get? f.fields "mb" = some mb ∧ PyDict.get? f.fields "d" = some d ∧
      e = ⟨breitWigner (.sym s) (.sym (resonanceMass R)) (.sym (resonanceWidth R)) (.sym m1) (.sym m2)
          (pyInt L) (.sym resRadius),
        PyDict.ofItems [(.sym (resonanceMass R), .real mass), (.sym (resonanceWidth R), .real width),
          (.sym m1, .real ma), (.sym m2, .real mb), (.sym resRadius, .real d)]⟩ := by
  unfold formulateBreitWigner
  simp only [bind_ok]
  constructor
  · rintro ⟨f, h1, ⟨i, j⟩, h2, s, h3, m1, h4, m2, h5, L, h6, mass, h7, width, h8, ma, h9, mb, h10, d, h11, h⟩
    injection h with h
    exact ⟨f, i, j, s, m1, m2, L, mass, width, ma, mb, d, h1, unpack2_ok.1 h2, h3, h4, h5, get_ok.1 h6,
      get_ok.1 h7, get_ok.1 h8, get_ok.1 h9, get_ok.1 h10, get_ok.1 h11, h.symm⟩
  · rintro ⟨f, i, j, s, m1, m2, L, mass, width, ma, mb, d, h1, h2, h3, h4, h5, h6, h7, h8, h9, h10, h11, rfl⟩
    exact ⟨f, h1, (i, j), unpack2_ok.2 h2, s, h3, m1, h4, m2, h5, L, get_ok.2 h6, mass, get_ok.2 h7,
      width, get_ok.2 h8, ma, get_ok.2 h9, mb, get_ok.2 h10, d, get_ok.2 h11, rfl⟩

theorem formFactor_ok {v : Vertex} {e : DefExpr} : formulateFormFactor v m = .ok e ↔
    ((v.formfactor = none ∨ v.formfactor = some "") ∧ e = {}) ∨
    ∃ name f s x y m1 m2 R L radius, v.formfactor = some name ∧ name ≠ "" ∧
      getFunctionDefinition name m = .ok f ∧ f.type = "BlattWeisskopf" ∧
      toMandelstamSymbol v.node = .ok s ∧ v.node = [x, y] ∧ toMassSymbol x = .ok m1 ∧
      toMassSymbol y = .ok m2 ∧
      ((allInt v.node = true ∧ R = resRadius) ∨ allInt v.node = false ∧
        ∃ p0, getInitialState m identityFunction = .ok p0 ∧ R = ⟨"R_{" ++ p0.latex ++ "}", .nonneg⟩) ∧
      PyDict.get? f.fields "l" = some L ∧ PyDict.get? f.fields "radius" = some radius ∧
      e = ⟨.ff (.sym s) (.sym m1) (.sym m2) (pyInt L) (.sym R), [(.sym R, .real radius)]⟩ := by
  have hnode : ∀ {ms : List Sym} {m1 m2 : Sym}, v.node.mapM toMassSymbol = .ok ms → ms = [m1, m2] →
      ∃ x y, v.node = [x, y] ∧ toMassSymbol x = .ok m1 ∧ toMassSymbol y = .ok m2 := by
    rintro ms m1 m2 h3 rfl
    have := (mapM_ok_iff _ _ _).1 h3
    rcases hnode : v.node with _ | ⟨x, _ | ⟨y, _ | ⟨z, t⟩⟩⟩ <;> rw [hnode] at this
    · cases this
    · cases this with | cons a b => cases b
    · cases this with | cons a b => cases b with | cons b c => exact ⟨x, y, rfl, a, b⟩
    · cases this with | cons a b => cases b with | cons b c => cases c
  unfold formulateFormFactor
  cases hff : v.formfactor with
  | none =>
    constructor
    · intro h; exact .inl ⟨.inl rfl, (Except.ok.inj h).symm⟩
    · rintro (⟨-, rfl⟩ | ⟨_, _, _, _, _, _, _, _, _, _, h, -⟩)
      · rfl
      · cases h
  | some name =>
    by_cases hn : name = ""
    · simp only [hn, if_true]
      constructor
      · intro h; exact .inl ⟨.inr trivial, (Except.ok.inj h).symm⟩
      · rintro (⟨-, rfl⟩ | ⟨_, _, _, _, _, _, _, _, _, _, h, h', -⟩)
        · rfl
        · cases h; exact absurd rfl h'
    · simp only [hn, if_false]
      simp only [bind_ok]
      constructor
      · rintro ⟨f, h1, h⟩
        by_cases ht : f.type = "BlattWeisskopf"
        · rw [if_pos ht] at h
          cases ha : allInt v.node with
          | true =>
            simp only [ha, if_true, bind_ok] at h
            obtain ⟨s, h2, ms, h3, ⟨m1, m2⟩, h4, R, h5, L, h6, radius, h7, h⟩ := h
            injection h with h
            injection h5 with h5
            obtain ⟨x, y, hx, hx1, hx2⟩ := hnode h3 (unpack2_ok.1 h4)
            exact .inr ⟨name, f, s, x, y, m1, m2, R, L, radius, rfl, hn, h1, ht, h2, hx, hx1, hx2,
              .inl ⟨rfl, h5.symm⟩, get_ok.1 h6, get_ok.1 h7, h.symm⟩
          | false =>
            simp only [ha, Bool.false_eq_true, if_false, bind_ok] at h
            obtain ⟨s, h2, ms, h3, ⟨m1, m2⟩, h4, p0, h5, R, h5', L, h6, radius, h7, h⟩ := h
            injection h with h
            injection h5' with h5'
            obtain ⟨x, y, hx, hx1, hx2⟩ := hnode h3 (unpack2_ok.1 h4)
            exact .inr ⟨name, f, s, x, y, m1, m2, R, L, radius, rfl, hn, h1, ht, h2, hx, hx1, hx2,
              .inr ⟨rfl, p0, h5, h5'.symm⟩, get_ok.1 h6, get_ok.1 h7, h.symm⟩
        · rw [if_neg ht] at h
          cases h
      · rintro (⟨h | h, -⟩ | ⟨name', f, s, x, y, m1, m2, R, L, radius, he, -, h1, ht, h2, hx, hx1, hx2, hR, hL,
          hr, rfl⟩)
        · cases h
        · cases h; exact absurd rfl hn
        · cases he
          refine ⟨f, h1, ?_⟩
          rw [if_pos ht]
          have h3 : v.node.mapM toMassSymbol = .ok [m1, m2] := by
            rw [hx, mapM_ok_iff]
            exact .cons hx1 (.cons hx2 .nil)
          rcases hR with ⟨ha, rfl⟩ | ⟨ha, p0, hp, rfl⟩
          · simp only [ha, if_true, bind_ok]
            exact ⟨s, h2, [m1, m2], h3, (m1, m2), rfl, _, rfl, L, get_ok.2 hL, radius, get_ok.2 hr, rfl⟩
          · simp only [ha, Bool.false_eq_true, if_false, bind_ok]
            exact ⟨s, h2, [m1, m2], h3, (m1, m2), rfl, p0, hp, _, rfl, L, get_ok.2 hL, radius, get_ok.2 hr,
              rfl⟩

/-! ### No helicity symbols -/

theorem free_sym (s : Sym) : HelicityFree (.sym s) := fun _ _ _ => rfl

theorem free_breitWigner {s m0 g0 m1 m2 d : Expr} {L : ℤ} {ph : String} (hs : HelicityFree s)
    (h0 : HelicityFree m0) (hg : HelicityFree g0) (h1 : HelicityFree m1) (h2 : HelicityFree m2)
    (hd : HelicityFree d) : HelicityFree (breitWigner s m0 g0 m1 m2 L d ph) := by
  intro ι η η'
  have hw : (breitWignerWidth s m0 g0 m1 m2 L d ph).eval ι η =
      (breitWignerWidth s m0 g0 m1 m2 L d ph).eval ι η' := by
    unfold breitWignerWidth
    split
    · exact hg ι η η'
    · simp only [Expr.eval, hs ι η η', h0 ι η η', hg ι η η', h1 ι η η', h2 ι η η', hd ι η η']
  unfold breitWigner simpleBreitWigner
  change (Expr.div _ (.sub (.sub (.pow _ _) _) (.mul (.mul _ _) _))).eval ι η =
    (Expr.div _ (.sub (.sub (.pow _ _) _) (.mul (.mul _ _) _))).eval ι η'
  simp only [Expr.eval, hs ι η η', h0 ι η η', hw]

theorem free_channels {cs : List ChannelArguments} (h : ∀ c ∈ cs, HelicityFree c.evaluate) {acc : Expr}
    (ha : HelicityFree acc) : HelicityFree (cs.foldl (fun acc c => acc + c.evaluate) acc) := by
  induction cs generalizing acc with
  | nil => exact ha
  | cons c t ih =>
    refine ih (fun c hc => h c (List.mem_cons_of_mem _ hc)) ?_
    intro ι η η'
    change (Expr.add _ _).eval ι η = (Expr.add _ _).eval ι η'
    simp only [Expr.eval, ha ι η η', h c (List.mem_cons_self ..) ι η η']

/-- All arguments of the channel are symbols. -/
def SymbolChannel (c : ChannelArguments) : Prop := ∃ s m0 w m1 m2 L R,
  c = ⟨.sym s, .sym m0, .sym w, .sym m1, .sym m2, L, .sym R⟩

theorem free_symbolChannel {c : ChannelArguments} (h : SymbolChannel c) : HelicityFree c.evaluate := by
  obtain ⟨s, m0, w, m1, m2, L, R, rfl⟩ := h
  intro ι η η'
  rfl

theorem channelLoop_symbols {R : String} {s mass d : Sym} {n : ℕ} {cs : List (PyDict String ℚ)}
    {ch : List ChannelArguments} {P : PyDict Key Val} {r : List ChannelArguments × PyDict Key Val}
    (h : channelLoop R s mass d n cs ch P = .ok r) (hc : ∀ c ∈ ch, SymbolChannel c) :
    ∀ c ∈ r.1, SymbolChannel c := by
  induction cs generalizing n ch P with
  | nil => cases h; exact hc
  | cons c t ih =>
    unfold channelLoop at h
    simp only [bind_ok] at h
    obtain ⟨L, -, ma, -, mb, -, gsq, -, h⟩ := h
    refine ih h ?_
    intro c hc'
    rcases List.mem_append.1 hc' with hc' | hc'
    · exact hc c hc'
    · rw [List.mem_singleton.1 hc']
      exact ⟨_, _, _, _, _, _, _, rfl⟩

theorem multichannel_ok {p : Propagator} {R : String} {e : DefExpr}
    (h : formulateMultichannelBreitWigner p R m = .ok e) :
    ∃ f c1 c2 cs i j s m1 m2 L mass gsq ma mb d r,
      getFunctionDefinition p.parametrization m = .ok f ∧ f.channels = some (c1 :: c2 :: cs) ∧
      p.node = [i, j] ∧ toMandelstamSymbol p.node = .ok s ∧ toMassSymbol i = .ok m1 ∧
      toMassSymbol j = .ok m2 ∧ PyDict.get? c1 "l" = some L ∧ PyDict.get? f.fields "mass" = some mass ∧
      PyDict.get? c1 "gsq" = some gsq ∧ PyDict.get? c1 "ma" = some ma ∧ PyDict.get? c1 "mb" = some mb ∧
      PyDict.get? c1 "d" = some d ∧
      channelLoop R s (resonanceMass R) ⟨"R_{" ++ R ++ "}", .nonneg⟩ 2 (c2 :: cs)
        [⟨.sym s, .sym (resonanceMass R), .sym (resonanceWidth R), .sym m1, .sym m2, pyInt L,
          .sym ⟨"R_{" ++ R ++ "}", .nonneg⟩⟩]
        (PyDict.ofItems [(.sym (resonanceMass R), .real mass), (.sym (resonanceWidth R), .real gsq),
          (.sym m1, .real ma), (.sym m2, .real mb), (.sym ⟨"R_{" ++ R ++ "}", .nonneg⟩, .real d)]) = .ok r ∧
      e = ⟨multichannelBreitWigner (.sym s) (.sym (resonanceMass R)) r.1, r.2⟩ := by
  unfold formulateMultichannelBreitWigner at h
  simp only [bind_ok] at h
  obtain ⟨f, h1, h⟩ := h
  rcases hc : f.channels with _ | _ | ⟨c1, _ | ⟨c2, cs⟩⟩ <;> rw [hc] at h
  · cases h
  · cases h
  · cases h
  · simp only [bind_ok] at h
    obtain ⟨⟨i, j⟩, h2, s, h3, m1, h4, m2, h5, L, h6, mass, h7, gsq, h8, ma, h9, mb, h10, d, h11, r, h12, h⟩ := h
    injection h with h
    exact ⟨f, c1, c2, cs, i, j, s, m1, m2, L, mass, gsq, ma, mb, d, r, h1, hc, unpack2_ok.1 h2, h3, h4, h5,
      get_ok.1 h6, get_ok.1 h7, get_ok.1 h8, get_ok.1 h9, get_ok.1 h10, get_ok.1 h11, h12, h.symm⟩

theorem free_builtin {p : Propagator} {R : String} {e : DefExpr} :
    (formulateBreitWigner p R m = .ok e → HelicityFree e.expression) ∧
    (formulateMultichannelBreitWigner p R m = .ok e → HelicityFree e.expression) := by
  constructor
  · intro h
    obtain ⟨f, i, j, s, m1, m2, L, mass, width, ma, mb, d, -, -, -, -, -, -, -, -, -, -, -, rfl⟩ :=
      breitWigner_ok.1 h
    exact free_breitWigner (free_sym _) (free_sym _) (free_sym _) (free_sym _) (free_sym _) (free_sym _)
  · intro h
    obtain ⟨f, c1, c2, cs, i, j, s, m1, m2, L, mass, gsq, ma, mb, d, r, -, -, -, -, -, -, -, -, -, -, -, -,
      h12, rfl⟩ := multichannel_ok h
    have hr := channelLoop_symbols h12 (by
      intro c hc
      rw [List.mem_singleton.1 hc]
      exact ⟨_, _, _, _, _, _, _, rfl⟩)
    refine free_breitWigner (free_sym _) (free_sym _) ?_ (fun _ _ _ => rfl) (fun _ _ _ => rfl)
      (fun _ _ _ => rfl)
    exact free_channels (fun c hc => free_symbolChannel (hr c hc)) fun _ _ _ => rfl

theorem free_formFactor {v : Vertex} {e : DefExpr} (h : formulateFormFactor v m = .ok e) :
    HelicityFree e.expression := by
  rcases formFactor_ok.1 h with ⟨-, rfl⟩ | ⟨name, f, s, x, y, m1, m2, R, L, radius, -, -, -, -, -, -, -, -, -,
    -, -, rfl⟩
  · exact fun _ _ _ => rfl
  · exact fun _ _ _ => rfl

theorem free_dynamicsLoop {defs : PyDict String PropagatorBuilder} {R : String} {ps : List Propagator}
    (hdefs : ∀ t b, PyDict.get? defs t = some b → ∀ p e, b p R m = .ok e → HelicityFree e.expression)
    {d e : DefExpr} (hd : HelicityFree d.expression) (h : dynamicsLoop defs R m ps d = .ok e) :
    HelicityFree e.expression := by
  induction ps generalizing d with
  | nil => cases h; exact hd
  | cons p t ih =>
    unfold dynamicsLoop at h
    simp only [bind_ok] at h
    obtain ⟨f, -, h⟩ := h
    cases hb : PyDict.get? defs f.type with
    | none => rw [hb] at h; cases h
    | some b =>
      rw [hb] at h
      simp only [bind_ok] at h
      obtain ⟨x, hx, h⟩ := h
      refine ih ?_ h
      intro ι η η'
      change (Expr.mul _ _).eval ι η = (Expr.mul _ _).eval ι η'
      simp only [Expr.eval, hd ι η η', hdefs _ _ hb p x hx ι η η']

theorem free_dynamics {add : Option (PyDict String PropagatorBuilder)} (hadd : FreeBuilders add m)
    {c : ChainDefinition} {tl : String → String} {e : DefExpr}
    (h : formulateDynamics c m tl add = .ok e) : HelicityFree e.expression := by
  refine free_dynamicsLoop (fun t b hb p e he => ?_) (fun _ _ _ => rfl) h
  have hbuiltin : ∀ {t b}, PyDict.get? (PyDict.ofItems [("BreitWigner", formulateBreitWigner),
      ("MultichannelBreitWigner", formulateMultichannelBreitWigner)]) t = some b →
      b = formulateBreitWigner ∨ b = formulateMultichannelBreitWigner := by
    intro t b hb
    have hm := PyDict.mem_of_get? hb
    have : PyDict.ofItems [("BreitWigner", formulateBreitWigner),
      ("MultichannelBreitWigner", formulateMultichannelBreitWigner)] = [("BreitWigner",
        formulateBreitWigner), ("MultichannelBreitWigner", formulateMultichannelBreitWigner)] := by
      apply PyDict.ofItems_of_nodup
      simp [PyDict.keys]
    rw [this] at hm
    simp at hm
    tauto
  have hfin : (b = formulateBreitWigner ∨ b = formulateMultichannelBreitWigner) →
      HelicityFree e.expression := by
    rintro (rfl | rfl)
    · exact free_builtin.1 he
    · exact free_builtin.2 he
  unfold dynamicsDefinitions at hb
  cases hadd' : add with
  | none => rw [hadd'] at hb; exact hfin (hbuiltin hb)
  | some defs =>
    rw [hadd'] at hb
    simp only at hb
    rw [PyDict.get?_update] at hb
    cases hr : PyDict.get? defs.reverse t with
    | none => rw [hr] at hb; exact hfin (hbuiltin hb)
    | some b' =>
      rw [hr, Option.some_or] at hb
      cases hb
      have := List.mem_reverse.1 (PyDict.mem_of_get? hr)
      exact hadd defs hadd' _ this p _ e he

/-! ### Keys of the parameters -/

/-- All keys are symbols with the assumption `nonnegative`. -/
def NonnegKeys (P : PyDict Key Val) : Prop := ∀ x ∈ P, ∃ s : Sym, x.1 = .sym s ∧ s.asm = .nonneg

theorem nonneg_update {P Q : PyDict Key Val} (hp : NonnegKeys P) (hq : NonnegKeys Q) :
    NonnegKeys (PyDict.update P Q) := by
  intro x hx
  rcases PyDict.mem_update hx with h | h
  · exact hp x h
  · exact hq x h

theorem nonneg_mul {a b : DefExpr} (ha : NonnegKeys a.parameters) (hb : NonnegKeys b.parameters) :
    NonnegKeys (a.mul (.defined b)).parameters :=
  nonneg_update (nonneg_update (fun _ h => by cases h) ha) hb

theorem massSymbol_nonneg {t : Tree} {s : Sym} (h : toMassSymbol t = .ok s) : s.asm = .nonneg := by
  unfold toMassSymbol at h
  split at h
  · cases h; rfl
  · split at h
    · cases h; rfl
    · cases h
  · cases h

theorem nonneg_breitWigner {p : Propagator} {R : String} {e : DefExpr}
    (h : formulateBreitWigner p R m = .ok e) : NonnegKeys e.parameters := by
  obtain ⟨f, i, j, s, m1, m2, L, mass, width, ma, mb, d, -, -, -, h1, h2, -, -, -, -, -, -, rfl⟩ :=
    breitWigner_ok.1 h
  intro x hx
  have hx := PyDict.mem_ofItems hx
  simp only [List.mem_cons, List.not_mem_nil, or_false] at hx
  rcases hx with rfl | rfl | rfl | rfl | rfl
  · exact ⟨_, rfl, rfl⟩
  · exact ⟨_, rfl, rfl⟩
  · exact ⟨_, rfl, massSymbol_nonneg h1⟩
  · exact ⟨_, rfl, massSymbol_nonneg h2⟩
  · exact ⟨_, rfl, rfl⟩

theorem nonneg_channelLoop {R : String} {s mass d : Sym} {n : ℕ} {cs : List (PyDict String ℚ)}
    {ch : List ChannelArguments} {P : PyDict Key Val} {r : List ChannelArguments × PyDict Key Val}
    (h : channelLoop R s mass d n cs ch P = .ok r) (hp : NonnegKeys P) : NonnegKeys r.2 := by
  induction cs generalizing n ch P with
  | nil => cases h; exact hp
  | cons c t ih =>
    unfold channelLoop at h
    simp only [bind_ok] at h
    obtain ⟨L, -, ma, -, mb, -, gsq, -, h⟩ := h
    refine ih h (nonneg_update hp ?_)
    intro x hx
    simp only [List.mem_cons, List.not_mem_nil, or_false] at hx
    rcases hx with rfl | rfl | rfl <;> exact ⟨_, rfl, rfl⟩

theorem nonneg_multichannel {p : Propagator} {R : String} {e : DefExpr}
    (h : formulateMultichannelBreitWigner p R m = .ok e) : NonnegKeys e.parameters := by
  obtain ⟨f, c1, c2, cs, i, j, s, m1, m2, L, mass, gsq, ma, mb, d, r, -, -, -, -, h1, h2, -, -, -, -, -, -,
    h12, rfl⟩ := multichannel_ok h
  refine nonneg_channelLoop h12 fun x hx => ?_
  have hx := PyDict.mem_ofItems hx
  simp only [List.mem_cons, List.not_mem_nil, or_false] at hx
  rcases hx with rfl | rfl | rfl | rfl | rfl
  · exact ⟨_, rfl, rfl⟩
  · exact ⟨_, rfl, rfl⟩
  · exact ⟨_, rfl, massSymbol_nonneg h1⟩
  · exact ⟨_, rfl, massSymbol_nonneg h2⟩
  · exact ⟨_, rfl, rfl⟩

theorem nonneg_formFactor {v : Vertex} {e : DefExpr} (h : formulateFormFactor v m = .ok e) :
    NonnegKeys e.parameters := by
  rcases formFactor_ok.1 h with ⟨-, rfl⟩ | ⟨name, f, s, x, y, m1, m2, R, L, radius, -, -, -, -, -, -, -, -, hR,
    -, -, rfl⟩
  · intro x hx; cases hx
  · intro x hx
    rw [List.mem_singleton.1 hx]
    refine ⟨_, rfl, ?_⟩
    rcases hR with ⟨-, rfl⟩ | ⟨-, p0, -, rfl⟩ <;> rfl

theorem builtin_get {t : String} {b : PropagatorBuilder}
    (hb : PyDict.get? (dynamicsDefinitions none) t = some b) :
    (t = "BreitWigner" ∧ b = formulateBreitWigner) ∨
      (t = "MultichannelBreitWigner" ∧ b = formulateMultichannelBreitWigner) := by
  have hm := PyDict.mem_of_get? hb
  have : dynamicsDefinitions none = [("BreitWigner", formulateBreitWigner),
      ("MultichannelBreitWigner", formulateMultichannelBreitWigner)] := by
    unfold dynamicsDefinitions
    apply PyDict.ofItems_of_nodup
    simp [PyDict.keys]
  rw [this] at hm
  simp only [List.mem_cons, List.not_mem_nil, or_false, Prod.mk.injEq] at hm
  exact hm

theorem definitions_get {add : Option (PyDict String PropagatorBuilder)} {t : String} {b : PropagatorBuilder}
    (hb : PyDict.get? (dynamicsDefinitions add) t = some b) :
    (b = formulateBreitWigner ∨ b = formulateMultichannelBreitWigner) ∨
      ∃ defs, add = some defs ∧ (t, b) ∈ defs := by
  have hnone : PyDict.get? (dynamicsDefinitions none) t = some b →
      b = formulateBreitWigner ∨ b = formulateMultichannelBreitWigner := fun h => by
    rcases builtin_get h with ⟨-, rfl⟩ | ⟨-, rfl⟩
    · exact .inl rfl
    · exact .inr rfl
  cases add with
  | none => exact .inl (hnone hb)
  | some defs =>
    unfold dynamicsDefinitions at hb
    simp only at hb
    rw [PyDict.get?_update] at hb
    cases hr : PyDict.get? defs.reverse t with
    | none => rw [hr] at hb; exact .inl (hnone hb)
    | some b' =>
      rw [hr, Option.some_or] at hb
      cases hb
      exact .inr ⟨defs, rfl, List.mem_reverse.1 (PyDict.mem_of_get? hr)⟩

theorem nonneg_dynamics {add : Option (PyDict String PropagatorBuilder)} (hadd : NonnegativeParameters add m)
    {c : ChainDefinition} {tl : String → String} {e : DefExpr}
    (h : formulateDynamics c m tl add = .ok e) : NonnegKeys e.parameters := by
  have key : ∀ ps d, NonnegKeys d.parameters →
      dynamicsLoop (dynamicsDefinitions add) (tl c.name) m ps d = .ok e → NonnegKeys e.parameters := by
    intro ps
    induction ps with
    | nil => intro d hd h; cases h; exact hd
    | cons p t ih =>
      intro d hd h
      unfold dynamicsLoop at h
      simp only [bind_ok] at h
      obtain ⟨f, -, h⟩ := h
      cases hb : PyDict.get? (dynamicsDefinitions add) f.type with
      | none => rw [hb] at h; cases h
      | some b =>
        rw [hb] at h
        simp only [bind_ok] at h
        obtain ⟨x, hx, h⟩ := h
        refine ih _ (nonneg_mul hd ?_) h
        rcases definitions_get hb with (rfl | rfl) | ⟨defs, rfl, hd⟩
        · exact nonneg_breitWigner hx
        · exact nonneg_multichannel hx
        · exact hadd defs rfl _ hd p _ x hx
  exact key _ {} (fun x hx => by cases hx) h

end Verif.Serialization
