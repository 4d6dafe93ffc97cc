import Verif.Spec.PyOrder
import Verif.Proofs.Order
import Mathlib.Data.List.Lex

/-! The keys and comparability tests of the model agree with Python's `<`. -/
namespace Verif
open Verif.ThreeBody Verif.Spec Verif.Qrules

/-- Different values: `<` raises exactly if they are not comparable, and is the order of the keys otherwise. -/
def Agrees {α β : Type} [LinearOrder β] (p : α → PyVal) (k : α → β) (c : α → α → Bool) : Prop :=
  ∀ a b, (p a = p b ↔ k a = k b) ∧
    (k a ≠ k b → pyLt (p a) (p b) = if c a b then some (decide (k a < k b)) else none)

theorem pyLt_self_tuple (l : List PyVal) : pyLt (.tuple l) (.tuple l) = some false := by
  induction l with
  | nil => rfl
  | cons a l ih => simp [PyVal.tuple, pyLt, ih]

theorem tuple_inj {l m : List PyVal} : PyVal.tuple l = .tuple m ↔ l = m := by
  induction l generalizing m with
  | nil => cases m <;> simp [PyVal.tuple]
  | cons a l ih => cases m <;> simp [PyVal.tuple, ih]

theorem pyLt_append {l m : List PyVal} (h : l.length = m.length) (x y : PyVal) (hxy : x ≠ y) :
    pyLt (.tuple (l ++ [x])) (.tuple (m ++ [y])) = if l = m then pyLt x y else pyLt (.tuple l) (.tuple m) := by
  induction l generalizing m with
  | nil =>
    cases m with
    | nil => simp [PyVal.tuple, pyLt, hxy]
    | cons b m => simp at h
  | cons a l ih =>
    cases m with
    | nil => simp at h
    | cons b m =>
      have := ih (m := m) (by simpa using h)
      simp only [List.cons_append, PyVal.tuple, pyLt, List.cons.injEq, this]
      by_cases hab : a = b <;> simp [hab]

theorem pyLt_append_eq {l m : List PyVal} (h : l.length = m.length) (x : PyVal) :
    pyLt (.tuple (l ++ [x])) (.tuple (m ++ [x])) = pyLt (.tuple l) (.tuple m) := by
  induction l generalizing m with
  | nil =>
    cases m with
    | nil => simp [PyVal.tuple, pyLt]
    | cons b m => simp at h
  | cons a l ih =>
    cases m with
    | nil => simp at h
    | cons b m =>
      have := ih (m := m) (by simpa using h)
      simp only [List.cons_append, PyVal.tuple, pyLt, this]

namespace Agrees
variable {α β γ : Type} [LinearOrder β] [LinearOrder γ]

theorem num (f : α → ℤ) : Agrees (fun x => .num (f x)) f (fun _ _ => true) := by
  intro a b
  refine ⟨by simp, fun _ => by simp [pyLt]⟩

theorem rat (f : α → ℚ) : Agrees (fun x => .num (f x)) f (fun _ _ => true) := by
  intro a b
  refine ⟨by simp, fun _ => by simp [pyLt]⟩

theorem str (f : α → String) : Agrees (fun x => .str (f x)) f (fun _ _ => true) := by
  intro a b
  refine ⟨by simp, fun _ => by simp [pyLt]⟩

theorem optional' : Agrees (β := WithBot ℤ) pyOptional (fun x => x) optComparable := by
  intro a b
  cases a with
  | none =>
    cases b with
    | none => exact ⟨⟨fun _ => rfl, fun _ => rfl⟩, fun h => (h rfl).elim⟩
    | some y => exact ⟨⟨fun h => (nomatch h), fun h => (nomatch (h : (none : Option ℤ) = some y))⟩, fun _ => rfl⟩
  | some x =>
    cases b with
    | none => exact ⟨⟨fun h => (nomatch h), fun h => (nomatch (h : some x = (none : Option ℤ)))⟩, fun _ => rfl⟩
    | some y =>
      have e : ∀ z : ℤ, (some z : WithBot ℤ) = (z : WithBot ℤ) := fun _ => rfl
      refine ⟨by simp [pyOptional, e], fun _ => ?_⟩
      have h : optComparable (some x) (some y) = true := rfl
      rw [h]
      simp [pyOptional, pyLt, e]

/-- A tuple with at least two elements. -/
theorem cons {p q : α → PyVal} {k : α → β} {l : α → γ} {c d e : α → α → Bool} (h1 : Agrees p k c) (h2 : Agrees q l d)
    (he : ∀ a b, e a b = if k a = k b then d a b else c a b) :
    Agrees (fun x => .cons (p x) (q x)) (fun x => toLex (k x, l x)) e := by
  intro a b
  obtain ⟨e1, f1⟩ := h1 a b
  obtain ⟨e2, f2⟩ := h2 a b
  constructor
  · rw [PyVal.cons.injEq, e1, e2, EmbeddingLike.apply_eq_iff_eq, Prod.mk.injEq]
  · intro hne
    rw [ne_eq, EmbeddingLike.apply_eq_iff_eq, Prod.mk.injEq] at hne
    rw [he, pyLt]
    by_cases hk : k a = k b
    · rw [if_pos (e1.2 hk), if_pos hk, f2 fun h => hne ⟨hk, h⟩]
      simp [Prod.Lex.toLex_lt_toLex, hk]
    · rw [if_neg fun h => hk (e1.1 h), if_neg hk, f1 hk]
      simp [Prod.Lex.toLex_lt_toLex, hk]

/-- A tuple with one element. -/
theorem single {p : α → PyVal} {k : α → β} {c : α → α → Bool} (h : Agrees p k c) :
    Agrees (fun x => .cons (p x) .nil) k c := by
  intro a b
  obtain ⟨e1, f1⟩ := h a b
  refine ⟨by rw [← e1]; simp, fun hne => ?_⟩
  rw [pyLt, if_neg fun h => hne (e1.1 h), f1 hne]

/-- A tuple with one more element. -/
theorem append {f : α → List PyVal} {p : α → PyVal} {k : α → β} {l : α → γ} {c d e : α → α → Bool}
    (hlen : ∀ a b, (f a).length = (f b).length) (h1 : Agrees (fun x => .tuple (f x)) k c) (h2 : Agrees p l d)
    (he : ∀ a b, e a b = if k a = k b then d a b else c a b) :
    Agrees (fun x => .tuple (f x ++ [p x])) (fun x => toLex (k x, l x)) e := by
  intro a b
  obtain ⟨e1, f1⟩ := h1 a b
  obtain ⟨e2, f2⟩ := h2 a b
  rw [tuple_inj] at e1
  constructor
  · rw [tuple_inj, EmbeddingLike.apply_eq_iff_eq, Prod.mk.injEq, ← e1, ← e2]
    constructor
    · intro h
      obtain ⟨g1, g2⟩ := List.append_inj h (hlen a b)
      exact ⟨g1, by simpa using g2⟩
    · rintro ⟨g1, g2⟩
      rw [g1, g2]
  · intro hne
    rw [ne_eq, EmbeddingLike.apply_eq_iff_eq, Prod.mk.injEq] at hne
    rw [he]
    simp only at f1 ⊢
    by_cases hl : l a = l b
    · have hk : k a ≠ k b := fun h => hne ⟨h, hl⟩
      rw [e2.2 hl, pyLt_append_eq (hlen a b), f1 hk, if_neg hk]
      simp [Prod.Lex.toLex_lt_toLex, hk]
    · rw [pyLt_append (hlen a b) _ _ fun h => hl (e2.1 h)]
      by_cases hk : k a = k b
      · rw [if_pos (e1.2 hk), if_pos hk, f2 hl]
        simp [Prod.Lex.toLex_lt_toLex, hk]
      · rw [if_neg fun h => hk (e1.1 h), if_neg hk, f1 hk]
        simp [Prod.Lex.toLex_lt_toLex, hk]

theorem obj {p : α → PyVal} {k : α → β} {c : α → α → Bool} (n : String) (h : Agrees p k c) :
    Agrees (fun x => .obj n (p x)) k c := by
  intro a b
  obtain ⟨e1, f1⟩ := h a b
  refine ⟨by rw [← e1]; simp, fun hne => ?_⟩
  rw [pyLt, if_pos rfl, f1 hne]

theorem comap {δ : Type} {p : α → PyVal} {k : α → β} {c : α → α → Bool} (h : Agrees p k c) (f : δ → α) :
    Agrees (fun x => p (f x)) (fun x => k (f x)) (fun a b => c (f a) (f b)) := fun _ _ => h _ _

theorem congr {p : α → PyVal} {k : α → β} {c d : α → α → Bool} (h : Agrees p k c)
    (hd : ∀ a b, k a ≠ k b → d a b = c a b) : Agrees p k d := by
  intro a b
  refine ⟨(h a b).1, fun hne => ?_⟩
  rw [hd a b hne, (h a b).2 hne]

theorem list [DecidableEq α] {p : α → PyVal} {k : α → β} {c : α → α → Bool} (h : Agrees p k c) (hk : Function.Injective k) :
    Agrees (fun l : List α => .tuple (l.map p)) (fun l => l.map k) (listComparable c) := by
  intro l
  induction l with
  | nil =>
    intro m
    cases m with
    | nil => simp
    | cons b m => refine ⟨by simp [PyVal.tuple], fun _ => by simp [PyVal.tuple, pyLt, listComparable]⟩
  | cons a l ih =>
    intro m
    cases m with
    | nil => refine ⟨by simp [PyVal.tuple], fun _ => by simp [PyVal.tuple, pyLt, listComparable]⟩
    | cons b m =>
      obtain ⟨e1, f1⟩ := h a b
      obtain ⟨e2, f2⟩ := ih m
      constructor
      · simp only [List.map_cons, PyVal.tuple, PyVal.cons.injEq, List.cons.injEq, e1, e2]
      · intro hne
        simp only [List.map_cons, ne_eq, List.cons.injEq] at hne
        simp only [List.map_cons, PyVal.tuple, pyLt, listComparable]
        by_cases hab : a = b
        · subst hab
          rw [if_pos rfl, if_pos rfl, f2 fun h => hne ⟨rfl, h⟩]
          have : (k a :: l.map k < k a :: m.map k) ↔ l.map k < m.map k := by simp
          by_cases hc : listComparable c l m = true <;> simp [hc]
        · have hk' : k a ≠ k b := fun h => hab (hk h)
          rw [if_neg fun h => hk' (e1.1 h), if_neg hab, f1 hk']
          simp [List.cons_lt_cons_iff, hk']

end Agrees

theorem agrees_optional {α : Type} (f : α → Option ℤ) :
    Agrees (β := WithBot ℤ) (fun x => pyOptional (f x)) f (fun a b => optComparable (f a) (f b)) :=
  Agrees.optional'.comap f

theorem agrees_particle : Agrees (fun p => .tuple (particleFields p)) pkey particleComparable := by
  refine Agrees.congr ((Agrees.str Particle.name).cons ((Agrees.str Particle.latex).cons ((Agrees.rat Particle.spin).cons
    ((agrees_optional Particle.parity).cons ((Agrees.rat Particle.mass).cons (Agrees.rat Particle.width).single
      fun _ _ => rfl) fun _ _ => rfl) fun _ _ => rfl) fun _ _ => rfl) fun _ _ => rfl) ?_
  intro a b hne
  unfold particleComparable
  simp only [ite_self, ne_eq, Prod.mk.injEq]
  by_cases h1 : a.name = b.name <;> by_cases h2 : a.latex = b.latex <;> by_cases h3 : a.spin = b.spin <;>
    simp [h1, h2, h3, optComparable]
  intro h
  rw [show a.parity = b.parity from h]

theorem agrees_obj : Agrees pyObj objKey objComparable := by
  intro a b
  cases a with
  | particle p =>
    cases b with
    | particle q =>
      obtain ⟨h1, h2⟩ := (agrees_particle.obj "Particle") p q
      have e : objKey (.particle p) = objKey (.particle q) ↔ pkey p = pkey q := by
        simp [objKey]
      refine ⟨h1.trans e.symm, fun h => ?_⟩
      have := h2 fun h' => h (e.2 h')
      have e' : objKey (.particle p) < objKey (.particle q) ↔ pkey p < pkey q := by
        simp [objKey, Prod.Lex.toLex_lt_toLex]
      simp only [e']
      exact this
    | state q =>
      refine ⟨⟨fun h => ?_, fun h => ?_⟩, fun _ => ?_⟩
      · simp [pyObj] at h
      · simp [objKey] at h
      · simp [pyObj, pyLt, objComparable]
  | state p =>
    cases b with
    | particle q =>
      refine ⟨⟨fun h => ?_, fun h => ?_⟩, fun _ => ?_⟩
      · simp [pyObj] at h
      · simp [objKey] at h
      · simp [pyObj, pyLt, objComparable]
    | state q =>
      have hs : Agrees (fun s : State => .tuple (particleFields s.toParticle ++ [.num s.index]))
          (fun s => toLex (pkey s.toParticle, s.index)) (fun a b => particleComparable a.toParticle b.toParticle) := by
        refine (agrees_particle.comap State.toParticle).append (fun _ _ => rfl) (Agrees.num State.index) fun a b => ?_
        by_cases h : pkey a.toParticle = pkey b.toParticle
        · rw [if_pos h, pkey_inj h]
          simp [particleComparable, optComparable]
        · rw [if_neg h]
      obtain ⟨h1, h2⟩ := (hs.obj "State") p q
      have e : objKey (.state p) = objKey (.state q) ↔
          toLex (pkey p.toParticle, p.index) = toLex (pkey q.toParticle, q.index) := by
        simp [objKey]
      refine ⟨h1.trans e.symm, fun h => ?_⟩
      have := h2 fun h' => h (e.2 h')
      have e' : objKey (.state p) < objKey (.state q) ↔
          toLex (pkey p.toParticle, p.index) < toLex (pkey q.toParticle, q.index) := by
        simp [objKey, Prod.Lex.toLex_lt_toLex]
      simp only [e']
      exact this

theorem agrees_ls : Agrees pyLs optLsKey optComparable := by
  intro a b
  cases a with
  | none =>
    cases b with
    | none => exact ⟨⟨fun _ => rfl, fun _ => rfl⟩, fun h => (h rfl).elim⟩
    | some y => exact ⟨⟨fun h => (nomatch h), fun h => (nomatch optLsKey_inj h)⟩, fun _ => rfl⟩
  | some x =>
    cases b with
    | none => exact ⟨⟨fun h => (nomatch h), fun h => (nomatch optLsKey_inj h)⟩, fun _ => rfl⟩
    | some y =>
      obtain ⟨h1, h2⟩ := ((Agrees.num LS.L).cons (Agrees.rat LS.S).single (e := fun _ _ => true)
        fun _ _ => by simp).obj "LSCoupling" x y
      have e : optLsKey (some x) = optLsKey (some y) ↔ lsKey x = lsKey y :=
        ⟨fun h => by rw [Option.some.inj (optLsKey_inj h)], fun h => by rw [lsKey_inj h]⟩
      have e' : optLsKey (some x) < optLsKey (some y) ↔ lsKey x < lsKey y := WithBot.coe_lt_coe
      refine ⟨h1.trans e.symm, fun h => ?_⟩
      have := h2 fun h' => h (e.2 h')
      have h3 : optComparable (some x) (some y) = true := rfl
      simp only [e', h3]
      exact this

theorem agrees_decay : Agrees (fun c : Chain => .obj "ThreeBodyDecayChain" (.tuple [pyNode (decayOf c)])) chainKey
    chainComparable := by
  have hobj (f : Chain → Obj) : Agrees (fun c => pyObj (f c)) (fun c => objKey (f c)) (fun a b => objComparable (f a) (f b)) :=
    agrees_obj.comap f
  have hls (f : Chain → Option LS) : Agrees (fun c => pyLs (f c)) (fun c => optLsKey (f c))
      (fun a b => optComparable (f a) (f b)) := agrees_ls.comap f
  refine Agrees.congr (((((hobj fun c => .state c.parent).cons
    ((((hobj Chain.resonance).cons ((hobj fun c => .state c.product1).cons ((hobj fun c => .state c.product2).cons
      (hls Chain.outgoingLs).single fun _ _ => rfl) fun _ _ => rfl) fun _ _ => rfl).obj "IsobarNode").cons
    ((hobj fun c => .state c.spectator).cons (hls Chain.incomingLs).single fun _ _ => rfl) fun _ _ => rfl)
    fun _ _ => rfl).obj "IsobarNode").single).obj "ThreeBodyDecayChain") ?_
  intro a b hne
  have hs (x y : State) : objKey (.state x) = objKey (.state y) ↔ x = y :=
    ⟨fun h => by injection objKey_inj h, fun h => by rw [h]⟩
  have ho (x y : Obj) : objKey x = objKey y ↔ x = y := ⟨objKey_inj, fun h => by rw [h]⟩
  have hl (x y : Option LS) : optLsKey x = optLsKey y ↔ x = y := ⟨optLsKey_inj, fun h => by rw [h]⟩
  unfold chainComparable
  simp only [hs, ho, hl, EmbeddingLike.apply_eq_iff_eq, Prod.mk.injEq]
  by_cases h1 : a.parent = b.parent <;> by_cases h2 : a.resonance = b.resonance <;>
    by_cases h3 : a.product1 = b.product1 <;> by_cases h4 : a.product2 = b.product2 <;>
    by_cases h5 : a.outgoingLs = b.outgoingLs <;> by_cases h6 : a.spectator = b.spectator <;>
    simp [h1, h2, h3, h4, h5, h6]

theorem agrees_items {α β : Type} [DecidableEq α] [LinearOrder β] {p : α → PyVal} {k : α → β} {c : α → α → Bool}
    (h : Agrees p k c) (hk : Function.Injective k) :
    Agrees (fun l : List (ℤ × α) => .tuple (l.map fun x => .tuple [.num x.1, p x.2]))
      (fun l => l.map fun x => toLex (x.1, k x.2)) (listComparable (itemComparable c)) := by
  refine Agrees.list (p := fun x : ℤ × α => .tuple [.num x.1, p x.2]) (k := fun x : ℤ × α => toLex (x.1, k x.2))
    ((Agrees.num Prod.fst).cons (h.comap Prod.snd).single fun a b => ?_) ?_
  · unfold itemComparable
    by_cases h : a.1 = b.1 <;> simp [h]
  · rintro ⟨i, a⟩ ⟨j, b⟩ h
    rw [EmbeddingLike.apply_eq_iff_eq, Prod.mk.injEq] at h
    exact Prod.ext h.1 (hk h.2)

/-- The two nodes of an edge. -/
def edgeKey (e : Edge) : WithBot ℤ ×ₗ WithBot ℤ := toLex (e.orig, e.dest)

theorem edgeKey_inj : Function.Injective edgeKey := fun a b h => by
  unfold edgeKey at h
  have h := Prod.mk.inj (toLex_inj' h)
  exact edge_inj h.1 h.2

theorem agrees_edge : Agrees (fun e : Edge => .obj "Edge" (.tuple [pyOptional e.orig, pyOptional e.dest]))
    edgeKey edgeComparable :=
  ((agrees_optional Edge.orig).cons (agrees_optional Edge.dest).single fun _ _ => rfl).obj "Edge"

theorem agrees_topology : Agrees pyTopology Topology.key Topology.comparable := by
  have h1 : Agrees (fun t : Topology => .tuple (t.nodes.map fun n : ℤ => .num n)) Topology.nodes (fun _ _ => true) := by
    have := (Agrees.num (α := ℤ) id).list Function.injective_id
    intro a b
    obtain ⟨h1, h2⟩ := this a.nodes b.nodes
    simp only [List.map_id, id_eq] at h1 h2
    refine ⟨h1, fun h => ?_⟩
    have hc : ∀ l m : List ℤ, listComparable (fun _ _ => true) l m = true := by
      intro l
      induction l with
      | nil => intro m; cases m <;> rfl
      | cons a l ih => intro m; cases m <;> simp [listComparable, ih]
    rw [h2 h, hc]
    simp
  have h2 := ((agrees_items agrees_edge edgeKey_inj).obj "FrozenDict").comap fun t : Topology => dictItems t.edges
  refine (h1.cons h2.single fun a b => ?_).obj "Topology"
  unfold Topology.comparable
  by_cases h : a.nodes = b.nodes <;> simp [h]

theorem agrees_transition : Agrees pyTransition tkey tcomparable := by
  have h2 := ((agrees_items agrees_obj fun a b h => objKey_inj h).obj "FrozenDict").comap
    fun t : Transition Obj (Option LS) => dictItems t.states
  have h3 := ((agrees_items agrees_ls fun a b h => optLsKey_inj h).obj "FrozenDict").comap
    fun t : Transition Obj (Option LS) => dictItems t.interactions
  refine Agrees.congr (((agrees_topology.comap Transition.topology).cons (h2.cons h3.single fun _ _ => rfl)
    fun _ _ => rfl).obj "FrozenTransition") fun a b _ => ?_
  unfold tcomparable
  have e : (dictItems a.states).map (fun x => toLex (x.1, objKey x.2)) =
      (dictItems b.states).map (fun x => toLex (x.1, objKey x.2)) ↔ dictItems a.states = dictItems b.states := by
    refine ⟨fun h => List.map_injective_iff.2 ?_ h, fun h => by rw [h]⟩
    rintro ⟨i, e⟩ ⟨j, e'⟩ h
    rw [EmbeddingLike.apply_eq_iff_eq, Prod.mk.injEq] at h
    exact Prod.ext h.1 (objKey_inj h.2)
  simp only [e]
  by_cases h : a.topology.key = b.topology.key <;> by_cases h' : dictItems a.states = dictItems b.states <;> simp [h, h']

end Verif
