import Verif.Spec.Pipeline
import Verif.Props.QrulesDecay
import Verif.Props.Registry
import Verif.Props.Closure
import Verif.Props.Relabel

/-! C84: from QRules transitions to an amplitude model. -/
namespace Verif.Qrules
open Verif Verif.ThreeBody Verif.Spec

variable {ts : List (Transition QObj QNode)} {a f1 f2 f3 r : ℤ} {S : ℤ → State} {ls : ℤ → Bool}

/-- Relabelling a three-body transition. -/
theorem ThreeBody.normalize {E N : Type} {t : Transition E N} {a s r i j : ℤ} (h : ThreeBody t a s r i j) :
    ∃ t', normalizeTransition t = .ok t' ∧
      ThreeBody t' (rank [a, s, r, i, j] a) (rank [a, s, r, i, j] s) (rank [a, s, r, i, j] r)
        (rank [a, s, r, i, j] i) (rank [a, s, r, i, j] j) ∧ t'.interactions = t.interactions ∧
      ∀ k ∈ [a, s, r, i, j], PyDict.get? t'.states (rank [a, s, r, i, j] k) = PyDict.get? t.states k := by
  obtain ⟨t', h1, h2, h3, h4, h5, h6, -⟩ := C43_transition t h.valid
  have hk : ∀ k, k ∈ PyDict.keys t.topology.edges ↔ k ∈ [a, s, r, i, j] := by
    intro k; rw [h.ids k]; simp
  have hk' : ∀ k, k ∈ PyDict.keys t.states ↔ k ∈ [a, s, r, i, j] := by
    intro k; rw [← h.valid.sameEdges k, hk]
  rw [funext (rank_congr hk')] at h4 h5
  refine ⟨t', h1, ?_, h6, fun k hk => h5.2 k ((hk' k).2 hk)⟩
  constructor
  · exact h2
  · rw [h3]; exact h.nodes
  · intro k
    rw [h4.1 k]
    simp only [hk, List.mem_cons, List.not_mem_nil, or_false, exists_eq_or_imp, exists_eq_left]
    simp only [eq_comm]
  · have := List.Nodup.map_on (f := rank [a, s, r, i, j]) (fun x hx y hy => rank_inj hx hy) h.distinct
    simpa using this
  · rw [h4.2 a ((hk a).2 (by simp))]; exact h.initial
  · rw [h4.2 s ((hk s).2 (by simp))]; exact h.spectator
  · rw [h4.2 r ((hk r).2 (by simp))]; exact h.resonance
  · rw [h4.2 i ((hk i).2 (by simp))]; exact h.product1
  · rw [h4.2 j ((hk j).2 (by simp))]; exact h.product2
  · exact rank_lt (by simp) h.order

/-- The number of each ID. -/
theorem rank_increasing {a f1 f2 f3 r : ℤ} (h : a < f1 ∧ f1 < f2 ∧ f2 < f3 ∧ f3 < r) :
    rank [a, f1, f2, f3, r] a = 0 ∧ rank [a, f1, f2, f3, r] f1 = 1 ∧ rank [a, f1, f2, f3, r] f2 = 2 ∧
      rank [a, f1, f2, f3, r] f3 = 3 ∧ rank [a, f1, f2, f3, r] r = 4 := by
  obtain ⟨h1, h2, h3, h4⟩ := h
  have hn : [a, f1, f2, f3, r].Nodup := by
    have : [a, f1, f2, f3, r].Pairwise (· < ·) := by
      simp only [List.pairwise_cons, List.mem_cons, List.not_mem_nil, or_false, forall_eq_or_imp,
        forall_eq, IsEmpty.forall_iff, implies_true, and_true, List.Pairwise.nil]
      omega
    exact this.imp ne_of_lt
  have har : a < r := by omega
  have h13 : f1 < f3 := by omega
  have h1r : f1 < r := by omega
  have h2r : f2 < r := by omega
  have ha2 : a < f2 := by omega
  have ha3 : a < f3 := by omega
  unfold rank
  rw [hn.dedup]
  simp only [List.filter_cons, List.filter_nil, lt_irrefl, decide_false, h1, h2, h3, h4, har, h13, h1r,
    h2r, ha2, ha3, not_lt_of_gt h1, not_lt_of_gt h2, not_lt_of_gt h3, not_lt_of_gt h4, not_lt_of_gt har,
    not_lt_of_gt h13, not_lt_of_gt h1r, not_lt_of_gt h2r, not_lt_of_gt ha2, not_lt_of_gt ha3,
    decide_true, Bool.false_eq_true, if_false, if_true, List.length_nil, List.length_cons]
  norm_num

theorem image_three {s i j f1 f2 f3 : ℤ} (h : ∀ k, (k = s ∨ k = i ∨ k = j) ↔ (k = f1 ∨ k = f2 ∨ k = f3))
    (g : ℤ → ℤ) (k : ℤ) : (k = g s ∨ k = g i ∨ k = g j) ↔ (k = g f1 ∨ k = g f2 ∨ k = g f3) := by
  have e : ∀ x y z : ℤ, (k = g x ∨ k = g y ∨ k = g z) ↔ ∃ w, (w = x ∨ w = y ∨ w = z) ∧ k = g w := by
    intro x y z
    constructor
    · rintro (h | h | h)
      · exact ⟨x, .inl rfl, h⟩
      · exact ⟨y, .inr (.inl rfl), h⟩
      · exact ⟨z, .inr (.inr rfl), h⟩
    · rintro ⟨w, rfl | rfl | rfl, h⟩
      · exact .inl h
      · exact .inr (.inl h)
      · exact .inr (.inr h)
  rw [e, e]
  simp only [h]

/-- The transitions of one decay, with IDs 0 and 1, 2, 3. -/
theorem oneDecay_normalized (h : OneDecay ts a f1 f2 f3 r S ls) :
    ∃ r1 ts1, OneDecay ts1 0 1 2 3 r1 S ls ∧
      (∀ m, toThreeBodyDecay ts m = toThreeBodyDecay ts1 m) ∧
      ((a = 0 ∧ f1 = 1 ∧ f2 = 2 ∧ f3 = 3) → r1 = r ∧ ts1 = ts) ∧
      (¬ (a = 0 ∧ f1 = 1 ∧ f2 = 2 ∧ f3 = 3) → r1 = 4 ∧
        List.Forall₂ (fun t t' => normalizeTransition t = .ok t') ts ts1) := by
  have hinc := h.increasing
  by_cases hids : a = 0 ∧ f1 = 1 ∧ f2 = 2 ∧ f3 = 3
  · obtain ⟨rfl, rfl, rfl, rfl⟩ := hids
    exact ⟨r, ts, h, fun _ => rfl, fun _ => ⟨rfl, rfl⟩, fun hn => absurd ⟨rfl, rfl, rfl, rfl⟩ hn⟩
  have hout : ∀ t ∈ ts, t.topology.incoming = [a] ∧ t.topology.outgoing = [f1, f2, f3] := by
    intro t ht
    obtain ⟨s, i, j, hb, hm⟩ := h.body t ht
    exact ⟨hb.incoming, hb.outgoing (by simp; omega) (fun k => by rw [hm]; simp)⟩
  obtain ⟨e0, e1, e2, e3, e4⟩ := rank_increasing hinc
  have hnorm : ∀ t ∈ ts, ∃ t', normalizeTransition t = .ok t' ∧
      (∃ s i j, ThreeBody t' 0 s 4 i j ∧ ∀ k, (k = s ∨ k = i ∨ k = j) ↔ (k = 1 ∨ k = 2 ∨ k = 3)) ∧
      t'.interactions = t.interactions ∧ PyDict.get? t'.states 4 = PyDict.get? t.states r ∧
      PyDict.get? t'.states 0 = PyDict.get? t.states a ∧
      PyDict.get? t'.states 1 = PyDict.get? t.states f1 ∧
      PyDict.get? t'.states 2 = PyDict.get? t.states f2 ∧
      PyDict.get? t'.states 3 = PyDict.get? t.states f3 := by
    intro t ht
    obtain ⟨s, i, j, hb, hm⟩ := h.body t ht
    obtain ⟨t', g1, g2, g3, g4⟩ := hb.normalize
    have hmem : ∀ k, k ∈ [a, s, r, i, j] ↔ k ∈ [a, f1, f2, f3, r] := by
      intro k
      have := hm k
      simp only [List.mem_cons, List.not_mem_nil, or_false]
      omega
    rw [funext (rank_congr hmem)] at g2 g4
    simp only [hmem] at g4
    refine ⟨t', g1, ⟨_, _, _, by rw [e0, e4] at g2; exact g2, ?_⟩, g3, ?_, ?_, ?_, ?_, ?_⟩
    · have := image_three hm (rank [a, f1, f2, f3, r])
      rw [e1, e2, e3] at this
      exact this
    · rw [← g4 r (by simp), e4]
    · rw [← g4 a (by simp), e0]
    · rw [← g4 f1 (by simp), e1]
    · rw [← g4 f2 (by simp), e2]
    · rw [← g4 f3 (by simp), e3]
  obtain ⟨ts1, hts1⟩ := forall₂_exists (R := fun t t' => normalizeTransition t = .ok t' ∧
      (∃ s i j, ThreeBody t' 0 s 4 i j ∧ ∀ k, (k = s ∨ k = i ∨ k = j) ↔ (k = 1 ∨ k = 2 ∨ k = 3)) ∧
      t'.interactions = t.interactions ∧ PyDict.get? t'.states 4 = PyDict.get? t.states r ∧
      PyDict.get? t'.states 0 = PyDict.get? t.states a ∧
      PyDict.get? t'.states 1 = PyDict.get? t.states f1 ∧
      PyDict.get? t'.states 2 = PyDict.get? t.states f2 ∧
      PyDict.get? t'.states 3 = PyDict.get? t.states f3) ts hnorm
  have hback := fun {u} (hu : u ∈ ts1) => forall₂_mem_right hts1 hu
  have key : ∀ m, toThreeBodyDecay ts m = toThreeBodyDecay ts1 m := by
    intro m
    cases hts : ts with
    | nil => exact absurd hts h.nonempty
    | cons t0 tl =>
      have h0 : t0 ∈ ts := by rw [hts]; exact List.mem_cons_self ..
      obtain ⟨s, i, j, hb, -⟩ := h.body t0 h0
      obtain ⟨o1, o2⟩ := hout t0 h0
      refine C49_relabels t0 tl ts1 m hb.valid ?_ ?_ ?_
      · rw [← hts]
        exact (mapM_ok_iff _ _ _).2 (hts1.imp fun x y g => g.1)
      · rw [o1, o2]
        rintro ⟨g1, g2⟩
        simp only [List.cons.injEq, and_true] at g1 g2
        exact hids ⟨g1, g2⟩
      · intro u hu
        obtain ⟨t, -, -, ⟨s, i, j, hb, hm⟩, -⟩ := hback hu
        exact ⟨hb.valid, hb.incoming, hb.outgoing (by decide) (fun k => by rw [hm]; simp)⟩
  refine ⟨4, ts1, ?_, key, fun hn => absurd hn hids, fun _ => ⟨rfl, hts1.imp fun t t' g => g.1⟩⟩
  refine ⟨?_, by decide, h.states, ?_, ?_, ?_, ?_, ?_⟩
  · rintro rfl
    cases hts1
    exact h.nonempty rfl
  · intro u hu
    obtain ⟨t, -, -, g, -⟩ := hback hu
    exact g
  · intro u hu
    obtain ⟨t, ht, -, -, g, -⟩ := hback hu
    rw [g]
    exact h.nodes t ht
  · intro u hu
    obtain ⟨t, ht, -, -, -, g, -⟩ := hback hu
    rw [g]
    exact h.resonance t ht
  · intro u hu k hk
    obtain ⟨t, ht, -, -, -, -, g0, g1, g2, g3⟩ := hback hu
    simp only [List.mem_cons, List.not_mem_nil, or_false] at hk
    rcases hk with rfl | rfl | rfl | rfl
    · rw [g0]; exact h.outer t ht (a, 0) (by simp)
    · rw [g1]; exact h.outer t ht (f1, 1) (by simp)
    · rw [g2]; exact h.outer t ht (f2, 2) (by simp)
    · rw [g3]; exact h.outer t ht (f3, 3) (by simp)
  · intro u hu
    obtain ⟨t, ht, -, -, g, -⟩ := hback hu
    rw [g]
    exact h.couplings t ht

/-- The converted transitions of one decay with IDs 0 and 1, 2, 3. -/
theorem oneDecay_converted (h : OneDecay ts 0 1 2 3 r S ls) :
    ∃ cs rs, List.Forall₂ (fun t c => convertTransition t = .ok c ∧ Good r S ls c) ts cs ∧
      convertTransitions ts = .ok rs ∧ rs ≠ [] ∧ (∀ c ∈ rs, Good r S ls c) ∧
      ∀ m, toThreeBodyDecay ts m = decayOfNormalized ts m := by
  have hinc := h.increasing
  refine good_converted ts h.nonempty r (by omega) S ls h.states h.body h.nodes h.resonance ?_ h.couplings
  intro t ht k hk
  have := h.outer t ht (k, k) (by
    simp only [List.mem_cons, List.not_mem_nil, or_false, Prod.mk.injEq] at hk ⊢
    omega)
  exact this

/-- The decay object that is built from the transitions of one decay. -/
theorem oneDecay_good (h : OneDecay ts a f1 f2 f3 r S ls) (m : MinLsArg) :
    ∃ d, toThreeBodyDecay ts m = .ok d ∧ GoodDecay S ls d := by
  obtain ⟨r1, ts1, h1, h2, -⟩ := oneDecay_normalized h
  obtain ⟨cs, rs, -, g1, g2, g3, g4⟩ := oneDecay_converted h1
  rw [h2, g4]
  exact Good.decayOfNormalized h.states ts1 rs g1 g2 g3 m

theorem goodDecay_standard {d : Decay} (hS : ∀ k, k ∈ ([0, 1, 2, 3] : List ℤ) →
      (S k).index = k ∧ (S k).parity ≠ none ∧ IsHalfInteger (S k).spin)
    (hv : d.Valid) (h : GoodDecay S ls d) : Standard d where
  valid := hv
  keys := by rw [h.states]; exact List.Perm.refl [0, 1, 2, 3]
  index := by
    rw [h.states]
    intro x hx
    simp only [List.mem_cons, List.not_mem_nil, or_false] at hx
    rcases hx with rfl | rfl | rfl | rfl
    · exact (hS 0 (by simp)).1
    · exact (hS 1 (by simp)).1
    · exact (hS 2 (by simp)).1
    · exact (hS 3 (by simp)).1
  spins := by
    rw [h.states]
    intro x hx
    simp only [List.mem_cons, List.not_mem_nil, or_false] at hx
    rcases hx with rfl | rfl | rfl | rfl
    · exact (hS 0 (by simp)).2.2
    · exact (hS 1 (by simp)).2.2
    · exact (hS 2 (by simp)).2.2
    · exact (hS 3 (by simp)).2.2
  resonances := by
    intro c hc
    obtain ⟨s, i, j, p, -, -, -, -, -, h1, -, -, -, h2, -⟩ := h.chain c hc
    rw [h1]
    exact h2

/-- C84: from the transitions of one decay, whatever their IDs are and for each `min_ls`, a valid decay
object with chains is built, whose states are the outer states of the transitions, whose resonances
have valid spins and whose chains have LS couplings where the transitions do. -/
theorem C84_decay (h : OneDecay ts a f1 f2 f3 r S ls) (m : MinLsArg) :
    ∃ d, toThreeBodyDecay ts m = .ok d ∧ Standard d ∧ d.chains ≠ [] ∧
      (∀ k, k ∈ ([0, 1, 2, 3] : List ℤ) → PyDict.get? d.states k = some (S k)) ∧
      ∀ c ∈ d.chains, c.incomingLs.isSome = ls 0 ∧ c.outgoingLs.isSome = ls 1 ∧
        NumberedFinalState c ∧ ∃ R, PlainChain c R true := by
  obtain ⟨d, h1, h2⟩ := oneDecay_good h m
  have hv : d.Valid := (C49_result_partial ts m d (fun t ht => by
    obtain ⟨s, i, j, hb, -⟩ := h.body t ht
    exact ⟨hb.wellFormed, h.nodes t ht⟩) h1).1
  refine ⟨d, h1, goodDecay_standard h.states hv h2, h2.chains, ?_, ?_⟩
  · rw [h2.states]
    intro k hk
    simp only [List.mem_cons, List.not_mem_nil, or_false] at hk
    rcases hk with rfl | rfl | rfl | rfl <;> rfl
  · intro c hc
    obtain ⟨s, i, j, p, hsij, -, g1, g2, g3, -, -, g4, g5, -, g6⟩ := h2.chain c hc
    refine ⟨g4, g5, ?_, p, g6⟩
    unfold NumberedFinalState
    rw [g1, g2, g3]
    rcases hsij with ⟨rfl, rfl, rfl⟩ | ⟨rfl, rfl, rfl⟩ | ⟨rfl, rfl, rfl⟩ <;>
      rw [(h.states 1 (by simp)).1, (h.states 2 (by simp)).1, (h.states 3 (by simp)).1] <;> decide

/-- After registration of the same lineshape builder for each chain, each name finds that builder. -/
theorem registered_lineshapes (d : Decay) (p q al : Bool) (bw : DynBuilder) (dyn : Chain → DefExpr)
    (hdyn : ∀ c ∈ d.chains, bw c = .ok (dyn c)) :
    Lineshapes ⟨d, (Configurator.init d).run (d.chains.map fun c => (Ident.chain c, bw)), p, q, al⟩ dyn := by
  intro c hc
  refine ⟨bw, ?_, hdyn c hc⟩
  show ((Configurator.init d).run (d.chains.map fun c => (Ident.chain c, bw))).getBuilder unitDynamics
    (.name c.resonance.toP.name) = _
  have hfind : ∃ c', d.findChain c.resonance.toP.name = .ok c' := by
    unfold Decay.findChain
    cases hf : d.chains.find? fun c' => c'.resonance.toP.name = c.resonance.toP.name with
    | some c' => exact ⟨c', rfl⟩
    | none =>
      rw [List.find?_eq_none] at hf
      exact absurd (by simp) (hf c hc)
  obtain ⟨c', hc'⟩ := hfind
  have hden : Denotes d (.name c.resonance.toP.name) c' := by
    have := (getChain_iff (Configurator.init d : Configurator DynBuilder) (.name c.resonance.toP.name) c').1 hc'
    exact this
  have hmem : c' ∈ d.chains := by
    obtain ⟨pre, post, h1, -⟩ := (ThreeBody.C19_find_chain d _).1 c' |>.1 hc'
    rw [h1]; simp
  refine (C22_registry d _ unitDynamics _ c' hden).1 bw ?_
  rw [← run_builders]
  have hall : ∀ (l : List Chain) (cfg : Configurator DynBuilder), cfg.decay = d →
      (∀ x ∈ l, x ∈ d.chains) → (c' ∈ l ∨ PyDict.get? cfg.builders c' = some bw) →
      PyDict.get? (cfg.run (l.map fun c => (Ident.chain c, bw))).builders c' = some bw := by
    intro l
    induction l with
    | nil =>
      rintro cfg - - (h | h)
      · cases h
      · exact h
    | cons x l ih =>
      intro cfg hd hl h
      have hx : x ∈ cfg.decay.chains := by rw [hd]; exact hl x (List.mem_cons_self ..)
      have hreg : (cfg.registerBuilder (.chain x) bw).2 = { cfg with builders := cfg.builders.set x bw } := by
        simp [Configurator.registerBuilder, Configurator.getChain, hx]
      show PyDict.get? (Configurator.run (cfg.registerBuilder (.chain x) bw).2 _).builders c' = some bw
      rw [hreg]
      refine ih _ hd (fun y hy => hl y (List.mem_cons_of_mem _ hy)) ?_
      by_cases hxc : x = c'
      · right
        show PyDict.get? (cfg.builders.set x bw) c' = some bw
        rw [PyDict.get?_set, if_pos hxc]
      · rcases h with h | h
        · rcases List.mem_cons.1 h with h | h
          · exact absurd h.symm hxc
          · exact .inl h
        · right
          show PyDict.get? (cfg.builders.set x bw) c' = some bw
          rw [PyDict.get?_set, if_neg hxc]
          exact h
  exact hall d.chains _ rfl (fun x hx => hx) (.inl hmem)

/-- The builder that a user formulates with, and its lineshapes. -/
theorem pipeline_builder (h : OneDecay ts a f1 f2 f3 r S ls) (m : MinLsArg) {helicity : MinLs} {p q : Bool}
    (hh : helicityBases helicity = some (p, q)) (al : Bool) {lineshape : Option BreitWignerBuilder}
    (hl : ∀ bw, lineshape = some bw → LineshapeOk ls bw) (reference : Option ℤ) (cl uc : Bool) :
    ∃ b dyn, amplitudeModel ts m helicity al lineshape reference cl uc = b.formulate reference cl uc ∧
      Standard b.decay ∧ b.decay.chains ≠ [] ∧ Lineshapes b dyn ∧ b.useProdHel = p ∧ b.useDecHel = q ∧
      (∀ k, k ∈ ([0, 1, 2, 3] : List ℤ) → PyDict.get? b.decay.states k = some (S k)) ∧
      (∀ c ∈ b.decay.chains, c.incomingLs.isSome = ls 0 ∧ c.outgoingLs.isSome = ls 1) ∧
      ∀ c ∈ b.decay.chains, dyn c = {} ∨ ∃ bw R first, PlainChain c R first ∧
        NumberedFinalState c ∧ BreitWignerBuilder.call bw c = .ok (dyn c) := by
  obtain ⟨d, h1, h2, h3, h4, h5⟩ := C84_decay h m
  have hnew : ∃ b, Builder.new d helicity al = .ok b ∧ b = ⟨d, Configurator.init d, p, q, al⟩ := by
    cases helicity with
    | bool x => cases hh; exact ⟨_, rfl, rfl⟩
    | pair x y => cases hh; exact ⟨_, rfl, rfl⟩
    | other => cases hh
  obtain ⟨b, hb, rfl⟩ := hnew
  have hmodel : amplitudeModel ts m helicity al lineshape reference cl uc =
      Builder.formulate ⟨d, (Configurator.init d).run
        ((lineshape.map fun bw => d.chains.map fun c => (Ident.chain c, bw.call)).getD []), p, q, al⟩
        reference cl uc := by
    unfold amplitudeModel
    rw [h1]
    simp only [bind, Except.bind]
    rw [hb]
  rw [hmodel]
  cases lineshape with
  | none =>
    exact ⟨_, fun _ => {}, rfl, h2, h3, unit_lineshapes d p q al, rfl, rfl, h4,
      fun c hc => ⟨(h5 c hc).1, (h5 c hc).2.1⟩, fun c hc => .inl rfl⟩
  | some bw =>
    obtain ⟨o1, o2⟩ := hl bw rfl
    have hcall : ∀ c ∈ d.chains, ∃ e, bw.call c = .ok e := by
      intro c hc
      obtain ⟨g1, g2, g3, R, g4⟩ := h5 c hc
      refine (C42_missing_ls bw g4 g3).2 ?_
      rw [ne_eq, (C42_missing_ls bw g4 g3).1]
      rintro (⟨e1, e2⟩ | ⟨e1, e2⟩)
      · rw [e2, o1 e1] at g2; cases g2
      · rw [e2, o2 e1] at g1; cases g1
    classical
    let dyn : Chain → DefExpr := fun c => if hc : c ∈ d.chains then (hcall c hc).choose else {}
    have hdyn : ∀ c ∈ d.chains, bw.call c = .ok (dyn c) := by
      intro c hc
      simp only [dyn, hc, dite_true]
      exact (hcall c hc).choose_spec
    refine ⟨_, dyn, rfl, h2, h3, registered_lineshapes d p q al bw.call dyn hdyn, rfl, rfl, h4,
      fun c hc => ⟨(h5 c hc).1, (h5 c hc).2.1⟩, fun c hc => .inr ⟨bw, ?_⟩⟩
    obtain ⟨g1, g2, g3, R, g4⟩ := h5 c hc
    exact ⟨R, true, g4, g3, hdyn c hc⟩

/-- C84: from the transitions of one decay to a model. Whatever the IDs are, and for all options, the
steps do not fail if LS couplings are defined at the nodes where they are used: at the nodes that are
not formulated with helicity couplings and in the Breit-Wigner functions. The model is complete: all
that it contains is defined or has a default value, its value is a non-negative real number, and its
angles can be computed on the whole Dalitz plot. -/
theorem C84_pipeline (h : OneDecay ts a f1 f2 f3 r S ls) (m : MinLsArg) {helicity : MinLs} {p q : Bool}
    (hh : helicityBases helicity = some (p, q)) (hp : p = false → ls 0 = true) (hq : q = false → ls 1 = true)
    (al : Bool) {lineshape : Option BreitWignerBuilder}
    (hl : ∀ bw, lineshape = some bw → LineshapeOk ls bw)
    {reference : Option ℤ} (hr : RefOk reference) (cl uc : Bool) :
    ∃ model, amplitudeModel ts m helicity al lineshape reference cl uc = .ok model ∧ Closed model ∧
      (∀ ι η, ∃ x : ℝ, 0 ≤ x ∧ model.fullExpression.eval ι η = x) ∧
      ∀ ι : Interp, (DalitzRegion fun s => (ι.sym s).re) →
        ∃ ι' : Interp, SameFunctions ι ι' ∧ ι'.idx = ι.idx ∧
          (∀ s, s ∉ PyDict.keys model.angleDefs → ι'.sym s = ι.sym s) ∧
          ∀ x ∈ model.angleDefs, Computes ι' x := by
  obtain ⟨b, dyn, h1, h2, h3, h4, h5, h6, h7, h8, h9⟩ := pipeline_builder h m hh al hl reference cl uc
  rw [h1]
  have hok : ∃ model, b.formulate reference cl uc = .ok model := by
    have hm := C36_missing_ls h2 h4 hr (fun _ => h3) cl uc
    refine hm.2 ?_
    rw [ne_eq, hm.1]
    rintro ⟨-, c, hc, hls⟩
    obtain ⟨g1, g2⟩ := h8 c hc
    refine hls ⟨fun e => ?_, fun e => ?_⟩
    · rw [h5] at e
      rw [hp e] at g1
      intro hn; rw [hn] at g1; cases g1
    · rw [h6] at e
      rw [hq e] at g2
      intro hn; rw [hn] at g2; cases g2
  obtain ⟨model, hm⟩ := hok
  exact ⟨model, hm, C72_closed_breit_wigner h2 h4 hr hm h9,
    fun ι η => (C30_nonnegative h2 h4 hr hm ι η).2, fun ι hι => C72_evaluable h2 h4 hr hm hι⟩

/-- C84: without LS couplings at a node that is not formulated with helicity couplings, a `ValueError` is
raised. -/
theorem C84_needs_couplings (h : OneDecay ts a f1 f2 f3 r S ls) (m : MinLsArg) {helicity : MinLs} {p q : Bool}
    (hh : helicityBases helicity = some (p, q)) (hpq : (p = false ∧ ls 0 = false) ∨ (q = false ∧ ls 1 = false))
    (hspin : ∀ k, k ∈ ([0, 1, 2, 3] : List ℤ) → 0 ≤ (S k).spin) (al : Bool) {reference : Option ℤ}
    (hr : RefOk reference) (cl uc : Bool) :
    amplitudeModel ts m helicity al none reference cl uc = .error .valueError := by
  obtain ⟨b, dyn, h1, h2, h3, h4, h5, h6, h7, h8, h9⟩ :=
    pipeline_builder h m hh al (lineshape := none) (by simp) reference cl uc
  rw [h1, (C36_missing_ls h2 h4 hr (fun _ => h3) cl uc).1]
  refine ⟨⟨fun k => (S k).spin, fun k hk => ?_⟩, ?_⟩
  · have hsp : b.decay.spin k = (S k).spin := by
      unfold Decay.spin Decay.st
      rw [h7 k hk]
      rfl
    rw [hsp]
    have := hspin k hk
    exact ⟨by linarith, le_refl _, 0, by simp⟩
  · obtain ⟨c, hc⟩ := List.exists_mem_of_ne_nil _ h3
    obtain ⟨g1, g2⟩ := h8 c hc
    refine ⟨c, hc, ?_⟩
    rintro ⟨e1, e2⟩
    rcases hpq with ⟨i1, i2⟩ | ⟨i1, i2⟩
    · have := e1 (by rw [h5]; exact i1)
      rw [i2] at g1
      cases hc : c.incomingLs with
      | none => exact this hc
      | some v => rw [hc] at g1; cases g1
    · have := e2 (by rw [h6]; exact i1)
      rw [i2] at g2
      cases hc : c.outgoingLs with
      | none => exact this hc
      | some v => rw [hc] at g2; cases g2

/-- A transition without LS couplings. -/
theorem exBare_oneDecay : OneDecay [exTransition .none .none] (-1) 0 1 2 3 exOuter (fun _ => false) where
  nonempty := by simp
  increasing := by decide
  states := exOuter_good
  body := by
    intro t ht
    simp only [List.mem_cons, List.not_mem_nil, or_false] at ht
    subst ht
    exact ⟨0, 1, 2, exTransition_threeBody _ _, fun k => Iff.rfl⟩
  nodes := by
    intro t ht
    simp only [List.mem_cons, List.not_mem_nil, or_false] at ht
    subst ht
    rfl
  resonance := by
    intro t ht
    simp only [List.mem_cons, List.not_mem_nil, or_false] at ht
    subst ht
    exact ⟨_, _, rfl, rfl, by simp [exQ], 3, by norm_num [exQ]⟩
  outer := by
    intro t ht k hk
    simp only [List.mem_cons, List.not_mem_nil, or_false] at ht hk
    subst ht
    rcases hk with rfl | rfl | rfl | rfl <;>
      exact ⟨_, rfl, ⟨_, rfl, rfl, rfl, rfl, rfl, rfl, rfl⟩, by simp⟩
  couplings := by
    intro t ht n w hw
    have hmem := PyDict.mem_of_get? hw
    simp only [List.mem_cons, List.not_mem_nil, or_false] at ht
    subst ht
    simp only [exTransition, List.mem_cons, List.not_mem_nil, or_false, Prod.mk.injEq] at hmem
    rcases hmem with ⟨-, rfl⟩ | ⟨-, rfl⟩ <;> exact ⟨none, rfl, rfl, by rintro _ ⟨⟩⟩

/-- It can be formulated with helicity couplings at both nodes only. -/
example : (∃ model, amplitudeModel [exTransition .none .none] (.bool false) (.bool true) false none none
      true false = .ok model) ∧
    amplitudeModel [exTransition .none .none] (.bool false) (.pair true false) false none none true false =
      .error .valueError := by
  refine ⟨?_, C84_needs_couplings exBare_oneDecay _ (helicity := .pair true false) rfl (.inr ⟨rfl, rfl⟩) ?_
    _ (by intro r h; cases h) _ _⟩
  · obtain ⟨model, h1, -⟩ := C84_pipeline exBare_oneDecay (.bool false) (helicity := .bool true) rfl
      (fun h => by cases h) (fun h => by cases h) false (lineshape := none) (fun _ h => by cases h)
      (reference := none) (by intro r h; cases h) true false
    exact ⟨model, h1⟩
  · intro k hk
    simp only [List.mem_cons, List.not_mem_nil, or_false] at hk
    rcases hk with rfl | rfl | rfl | rfl <;> norm_num [exOuter]

/-- C84: with helicity couplings other than a `bool` or a pair, `NotImplementedError` is raised. -/
theorem C84_other (h : OneDecay ts a f1 f2 f3 r S ls) (m : MinLsArg) (al : Bool)
    (lineshape : Option BreitWignerBuilder) (reference : Option ℤ) (cl uc : Bool) :
    amplitudeModel ts m .other al lineshape reference cl uc = .error .notImplementedError := by
  obtain ⟨d, h1, -⟩ := C84_decay h m
  unfold amplitudeModel
  rw [h1]
  rfl

/-- Two transitions with the IDs of QRules, -1 → 0, 1, 2 with resonance 3, and all LS couplings. -/
theorem exQrules_oneDecay (x y z : LS) (hx : IsHalfInteger x.S) (hy : IsHalfInteger y.S)
    (hz : IsHalfInteger z.S) :
    OneDecay [exTransition (.ls x) (.ls z), exTransition (.props (some y.L) (some y.S)) (.ls z)]
      (-1) 0 1 2 3 exOuter (fun _ => true) where
  nonempty := by simp
  increasing := by decide
  states := exOuter_good
  body := by
    intro t ht
    simp only [List.mem_cons, List.not_mem_nil, or_false] at ht
    rcases ht with rfl | rfl <;> exact ⟨0, 1, 2, exTransition_threeBody _ _, fun k => Iff.rfl⟩
  nodes := by
    intro t ht
    simp only [List.mem_cons, List.not_mem_nil, or_false] at ht
    rcases ht with rfl | rfl <;> rfl
  resonance := by
    intro t ht
    simp only [List.mem_cons, List.not_mem_nil, or_false] at ht
    rcases ht with rfl | rfl <;> exact ⟨_, _, rfl, rfl, by simp [exQ], 3, by norm_num [exQ]⟩
  outer := by
    intro t ht k hk
    simp only [List.mem_cons, List.not_mem_nil, or_false] at ht hk
    rcases ht with rfl | rfl <;> rcases hk with rfl | rfl | rfl | rfl <;>
      exact ⟨_, rfl, ⟨_, rfl, rfl, rfl, rfl, rfl, rfl, rfl⟩, by simp⟩
  couplings := by
    intro t ht n w hw
    have hmem := PyDict.mem_of_get? hw
    simp only [List.mem_cons, List.not_mem_nil, or_false] at ht
    rcases ht with rfl | rfl <;>
      simp only [exTransition, List.mem_cons, List.not_mem_nil, or_false, Prod.mk.injEq] at hmem <;>
      rcases hmem with ⟨-, rfl⟩ | ⟨-, rfl⟩
    · exact ⟨some x, rfl, rfl, by rintro _ ⟨⟩; exact hx⟩
    · exact ⟨some z, rfl, rfl, by rintro _ ⟨⟩; exact hz⟩
    · exact ⟨some y, rfl, rfl, by rintro _ ⟨⟩; exact hy⟩
    · exact ⟨some z, rfl, rfl, by rintro _ ⟨⟩; exact hz⟩

/-- The example gives a model with Breit-Wigner lineshapes for each choice of couplings. -/
example (m : MinLsArg) (p q : Bool) : ∃ model, amplitudeModel
    [exTransition (.ls ⟨0, 1⟩) (.ls ⟨2, 1⟩), exTransition (.props (some 2) (some 1)) (.ls ⟨2, 1⟩)]
    m (.pair p q) false (some {}) none true false = .ok model ∧ Closed model := by
  obtain ⟨model, h1, h2, -⟩ := C84_pipeline (exQrules_oneDecay ⟨0, 1⟩ ⟨2, 1⟩ ⟨2, 1⟩ ⟨2, by norm_num⟩ ⟨2, by norm_num⟩
    ⟨2, by norm_num⟩) m (helicity := .pair p q) rfl (fun _ => rfl) (fun _ => rfl) false
    (lineshape := some {}) (fun bw _ => ⟨fun _ => rfl, fun _ => rfl⟩) (reference := none)
    (by intro r h; cases h) true false
  exact ⟨model, h1, h2⟩

end Verif.Qrules
