import Verif.Spec.Relabel
import Verif.Proofs.Superposition
import Verif.Props.Angles

/-! Cyclic renumbering of the final states: decays, angles. -/
namespace Verif.ThreeBody
open Verif Verif.Spec Verif.Spin Verif.Angles

theorem cyc_inj : Function.Injective cyc := by
  intro a b h
  unfold cyc at h
  split_ifs at h <;> omega

theorem cyc_zero {i : ℤ} : cyc i = 0 ↔ i = 0 := by
  unfold cyc
  split_ifs <;> omega

theorem cyc_mem {i : ℤ} : cyc i ∈ ([1, 2, 3] : List ℤ) ↔ i ∈ ([1, 2, 3] : List ℤ) := by
  simp only [List.mem_cons, List.not_mem_nil, or_false]
  unfold cyc
  split_ifs <;> omega

theorem renumberState_inj : Function.Injective renumberState := by
  rintro ⟨p, i⟩ ⟨q, j⟩ h
  injection h with h1 h2
  have h1 : p = q := h1
  have h2 : i = j := cyc_inj h2
  rw [h1, h2]

theorem renumberObj_inj : Function.Injective renumberObj := by
  rintro (p | s) (q | t) h
  · exact h
  · cases h
  · cases h
  · injection h with h
    rw [renumberState_inj h]

theorem renumberObj_toP (o : Obj) : (renumberObj o).toP = o.toP := by cases o <;> rfl

theorem toParticle_renumber (n : Node) : (renumberNode n).toParticle = renumberObj n.toParticle := by
  cases n <;> rfl

theorem chainNew_renumber {n : Node} {c : Chain} (h : Chain.new n = .ok c) :
    Chain.new (renumberNode n) = .ok (renumberChain c) := by
  obtain ⟨p0, R, c1, c2, s, inc, out, hn⟩ := chain_shape_of_ok h
  rw [chainNew_shape p0 R c1 c2 s inc out n hn] at h
  have hn' : renumberNode n = .isobar (renumberObj p0) (.isobar (renumberObj R) (renumberNode c1) (renumberNode c2) out)
        (.leaf (.state (renumberState s))) inc ∨
      renumberNode n = .isobar (renumberObj p0) (.leaf (.state (renumberState s)))
        (.isobar (renumberObj R) (renumberNode c1) (renumberNode c2) out) inc := by
    rcases hn with rfl | rfl
    · exact .inl rfl
    · exact .inr rfl
  rw [chainNew_shape _ _ _ _ _ inc out _ hn', toParticle_renumber, toParticle_renumber]
  cases h1 : c1.toParticle with
  | particle p => rw [h1] at h; cases h
  | state p1 =>
    cases h2 : c2.toParticle with
    | particle p => rw [h1, h2] at h; cases h
    | state p2 =>
      rw [h1, h2] at h
      cases p0 with
      | particle p => cases h
      | state q =>
        dsimp only at h
        split_ifs at h with hnd
        injection h with h
        subst h
        have : [(renumberState q).index, (renumberState p1).index, (renumberState p2).index,
            (renumberState s).index].Nodup := by
          have := List.Nodup.map cyc_inj hnd
          exact this
        dsimp only [renumberObj]
        rw [if_pos this]
        rfl

theorem get?_renumber (l : PyDict ℤ State) (i : ℤ) :
    PyDict.get? (l.map fun x => (cyc x.1, renumberState x.2)) (cyc i) = (PyDict.get? l i).map renumberState := by
  induction l with
  | nil => rfl
  | cons x l ih =>
    obtain ⟨j, s⟩ := x
    by_cases h : j = i
    · subst h
      simp [PyDict.get?]
    · have h' : cyc j ≠ cyc i := fun e => h (cyc_inj e)
      simp only [PyDict.get?, List.map_cons, List.find?_cons, h, h', decide_false, beq_iff_eq] at ih ⊢
      first | exact ih | simpa [h, h'] using ih

theorem last_renumber {s : State} {l : List State} :
    LastWithIndex (renumberState s) (l.map renumberState) ↔ LastWithIndex s l := by
  constructor
  · rintro ⟨pre, post, h, hp⟩
    obtain ⟨l1, l2, rfl, hl1, hl2⟩ := List.map_eq_append_iff.1 h
    obtain ⟨a, l3, rfl, ha, hl3⟩ := List.map_eq_cons_iff.1 hl2
    have := renumberState_inj ha
    subst this
    refine ⟨l1, l3, rfl, fun t ht e => ?_⟩
    refine hp (renumberState t) (by rw [← hl3]; exact List.mem_map.2 ⟨t, ht, rfl⟩) ?_
    exact congrArg cyc e
  · rintro ⟨pre, post, rfl, hp⟩
    refine ⟨pre.map renumberState, post.map renumberState, by simp, fun t ht e => ?_⟩
    obtain ⟨t, ht', rfl⟩ := List.mem_map.1 ht
    exact hp t ht' (cyc_inj e)

theorem valid_renumber {d : Decay} (h : d.Valid) : (renumberDecay d).Valid := by
  refine ⟨?_, ?_⟩
  · obtain ⟨-, s0, h0, hc⟩ := (decayNew_ok _ _ _).1 h.1
    refine (decayNew_ok _ _ _).2 ⟨rfl, renumberState s0, ?_, ?_⟩
    · have := get?_renumber d.states 0
      rw [h0] at this
      exact this
    · intro c' hc'
      obtain ⟨c, hcm, rfl⟩ := List.mem_map.1 hc'
      obtain ⟨h1, h2⟩ := hc c hcm
      refine ⟨congrArg renumberState h1, fun s' => ?_⟩
      have e : (renumberDecay d).states.map Prod.snd = (d.states.map Prod.snd).map renumberState := by
        simp [renumberDecay, List.map_map, Function.comp_def]
      rw [e]
      constructor
      · intro hs
        have : ∃ s, s' = renumberState s ∧ (s = c.spectator ∨ s = c.product1 ∨ s = c.product2) := by
          rcases hs with rfl | rfl | rfl
          · exact ⟨_, rfl, .inl rfl⟩
          · exact ⟨_, rfl, .inr (.inl rfl)⟩
          · exact ⟨_, rfl, .inr (.inr rfl)⟩
        obtain ⟨s, rfl, hs'⟩ := this
        obtain ⟨g1, g2⟩ := (h2 s).1 hs'
        exact ⟨fun e => g1 (cyc_zero.1 e), last_renumber.2 g2⟩
      · rintro ⟨g1, g2⟩
        have : ∃ s, s' = renumberState s := by
          obtain ⟨pre, post, hl, -⟩ := g2
          have : s' ∈ (d.states.map Prod.snd).map renumberState := by rw [hl]; simp
          obtain ⟨s, -, rfl⟩ := List.mem_map.1 this
          exact ⟨s, rfl⟩
        obtain ⟨s, rfl⟩ := this
        rcases (h2 s).2 ⟨fun e => g1 (cyc_zero.2 e), last_renumber.1 g2⟩ with rfl | rfl | rfl
        · exact .inl rfl
        · exact .inr (.inl rfl)
        · exact .inr (.inr rfl)
  · intro c' hc'
    obtain ⟨c, hcm, rfl⟩ := List.mem_map.1 hc'
    exact chainNew_renumber (h.2 c hcm)

theorem standard_renumber {d : Decay} (h : Standard d) : Standard (renumberDecay d) := by
  refine ⟨valid_renumber h.valid, ?_, ?_, ?_, ?_⟩
  · have : PyDict.keys (renumberDecay d).states = (PyDict.keys d.states).map cyc := by
      simp [renumberDecay, PyDict.keys, List.map_map, Function.comp_def]
    rw [this]
    refine (h.keys.map cyc).trans ?_
    decide
  · intro x' hx'
    obtain ⟨x, hx, rfl⟩ := List.mem_map.1 hx'
    exact congrArg cyc (h.index x hx)
  · intro x' hx'
    obtain ⟨x, hx, rfl⟩ := List.mem_map.1 hx'
    exact h.spins x hx
  · intro c' hc'
    obtain ⟨c, hc, rfl⟩ := List.mem_map.1 hc'
    have := h.resonances c hc
    rw [← renumberObj_toP] at this
    exact this

theorem spin_renumber (d : Decay) (i : ℤ) : (renumberDecay d).spin (cyc i) = d.spin i := by
  unfold Decay.spin Decay.st
  rw [show (renumberDecay d).states = d.states.map fun x => (cyc x.1, renumberState x.2) from rfl, get?_renumber]
  cases PyDict.get? d.states i <;> rfl

theorem prodIds_renumber {k : ℤ} (hk : k ∈ ([1, 2, 3] : List ℤ)) :
    prodIds (cyc k) = (cyc (prodIds k).1, cyc (prodIds k).2) := by
  simp only [List.mem_cons, List.not_mem_nil, or_false] at hk
  rcases hk with rfl | rfl | rfl <;> decide

/-- Renaming the symbols of an expression. -/
def renameR (g : Sym → Sym) : RExpr → RExpr
  | .num q => .num q
  | .sym s => .sym (g s)
  | .add a b => .add (renameR g a) (renameR g b)
  | .sub a b => .sub (renameR g a) (renameR g b)
  | .mul a b => .mul (renameR g a) (renameR g b)
  | .div a b => .div (renameR g a) (renameR g b)
  | .neg a => .neg (renameR g a)
  | .pow a n => .pow (renameR g a) n
  | .sqrt a => .sqrt (renameR g a)
  | .acos a => .acos (renameR g a)
  | .kallen a b c => .kallen (renameR g a) (renameR g b) (renameR g c)

theorem eval_renameR (g : Sym → Sym) (ρ : Sym → ℝ) (e : RExpr) :
    (renameR g e).eval ρ = e.eval fun s => ρ (g s) := by
  induction e <;> simp_all [renameR, RExpr.eval]

/-- The symbols with new IDs. -/
def cycSym (s : Sym) : Sym :=
  if s = ⟨"m1", .nonneg⟩ then ⟨"m2", .nonneg⟩ else if s = ⟨"m2", .nonneg⟩ then ⟨"m3", .nonneg⟩
  else if s = ⟨"m3", .nonneg⟩ then ⟨"m1", .nonneg⟩
  else if s = ⟨"sigma1", .nonneg⟩ then ⟨"sigma2", .nonneg⟩
  else if s = ⟨"sigma2", .nonneg⟩ then ⟨"sigma3", .nonneg⟩
  else if s = ⟨"sigma3", .nonneg⟩ then ⟨"sigma1", .nonneg⟩ else s

theorem zeta_renumber {i k r : ℤ} (hi : i ∈ ([0, 1, 2, 3] : List ℤ)) (hk : k ∈ ([1, 2, 3] : List ℤ))
    (hr : r ∈ ([1, 2, 3] : List ℤ)) :
    zetaExpr (cyc i) (cyc k) (cyc r) = renameR cycSym (zetaExpr i k r) := by
  simp only [List.mem_cons, List.not_mem_nil, or_false] at hi hk hr
  rcases hi with rfl | rfl | rfl | rfl <;> rcases hk with rfl | rfl | rfl <;> rcases hr with rfl | rfl | rfl <;>
    decide +kernel

theorem theta_renumber {k : ℤ} (hk : k ∈ ([1, 2, 3] : List ℤ)) :
    thetaExpr (cyc k) = renameR cycSym (thetaExpr k) := by
  simp only [List.mem_cons, List.not_mem_nil, or_false] at hk
  rcases hk with rfl | rfl | rfl <;> decide +kernel

end Verif.ThreeBody
