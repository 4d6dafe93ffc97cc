import Verif.Model.Dynamics
import Verif.Spec.Dynamics
import Verif.Proofs.Names
import Verif.Proofs.PyDict
import Verif.Proofs.Decay
import Mathlib.Data.List.FinRange

/-! The expression that `BreitWignerBuilder` builds for a chain. -/
set_option linter.unusedSimpArgs false

namespace Verif.ThreeBody
open Verif Verif.Spec

theorem plain_of_new {n : Node} {c : Chain} {R : Particle} (h : Chain.new n = .ok c)
    (hR : c.resonance = .particle R)
    (hp : ∀ d, n.decayNode = .ok d → ∃ a b, d.children = [.leaf a, .leaf b]) :
    ∃ first, PlainChain c R first := by
  obtain ⟨p0, R', c1, c2, s, inc, out, hn⟩ := chain_shape_of_ok h
  have hd : n.decayNode = .ok (.isobar R' c1 c2 out) := by rcases hn with rfl | rfl <;> rfl
  obtain ⟨a, b, hab⟩ := hp _ hd
  simp only [Node.children, List.cons.injEq, and_true] at hab
  obtain ⟨rfl, rfl⟩ := hab
  rw [chainNew_shape p0 R' _ _ s inc out n hn] at h
  cases a with
  | particle a => cases b <;> cases h
  | state a =>
    cases b with
    | particle b => cases h
    | state b =>
      cases p0 with
      | particle q => cases h
      | state q =>
        simp only [Node.toParticle] at h
        split at h
        · cases h
          simp only at hR
          subst hR
          rcases hn with rfl | rfl
          · exact ⟨true, rfl⟩
          · exact ⟨false, rfl⟩
        · cases h

theorem mandelstam_of_ids {R : Obj} {a b : State} {out : Option LS} {k : ℤ}
    (h : [a.index, b.index, k].Perm [1, 2, 3]) :
    getMandelstamS (.isobar R (.leaf (.state a)) (.leaf (.state b)) out) = .ok (mandelstam k) := by
  have hk : k ∈ ([1, 2, 3] : List ℤ) := h.subset (by simp)
  have hnd : [a.index, b.index, k].Nodup := h.symm.nodup (by decide)
  have e : ([1, 2, 3] : List ℤ).filter (fun x => x ∉ [a.index, b.index]) = [k] := by
    have : ∀ x ∈ ([1, 2, 3] : List ℤ), (decide (x ∉ [a.index, b.index]) = decide (x = k)) := by
      intro x hx
      have h1 := (h.mem_iff (a := x)).2 hx
      simp only [List.mem_cons, List.not_mem_nil, or_false] at h1
      simp only [List.nodup_cons, List.mem_cons, List.not_mem_nil, or_false, not_or] at hnd
      by_cases hxk : x = k
      · subst hxk; simp; exact ⟨fun e => hnd.1.2 e.symm, fun e => hnd.2.1 e.symm⟩
      · simp [hxk]; intro hxa; rcases h1 with h1 | h1 | h1
        · exact absurd h1 hxa
        · exact h1
        · exact absurd h1 hxk
    rw [List.filter_congr this]
    simp only [List.mem_cons, List.not_mem_nil, or_false] at hk
    rcases hk with rfl | rfl | rfl <;> rfl
  unfold getMandelstamS
  simp only [Node.children, List.mapM_cons, List.mapM_nil, bind, Except.bind, pure, Except.pure, e]
  rfl

/-- Lineshape without form factors. -/
def bareExpr (bw : BreitWignerBuilder) (c : Chain) (R : Particle) : Expr :=
  if bw.energyDependentWidth then
    relativisticBreitWigner (.sym (mandelstam c.spectator.index)) (.sym (massOfResonance R))
      (.sym (widthOfResonance R)) (.sym (massOfState c.product1.index))
      (.sym (massOfState c.product2.index)) (angularMomentum c.outgoingLs) (.sym resonanceRadius) bw.phsp
  else simpleBreitWigner (.sym (mandelstam c.spectator.index)) (.sym (massOfResonance R))
      (.sym (widthOfResonance R))

def decFFExpr (c : Chain) : Expr :=
  .ff ((Expr.sym (mandelstam c.spectator.index)) ^ 2) (.sym (massOfState c.product1.index))
    (.sym (massOfState c.product2.index)) (angularMomentum c.outgoingLs) (.sym resonanceRadius)

def prodA (c : Chain) (R : Particle) (first : Bool) : Sym :=
  if first then massOfResonance R else massOfState c.spectator.index

def prodB (c : Chain) (R : Particle) (first : Bool) : Sym :=
  if first then massOfState c.spectator.index else massOfResonance R

def prodFFExpr (c : Chain) (R : Particle) (first : Bool) : Expr :=
  .ff ((Expr.sym (massOfState 0)) ^ 2) (.sym (prodA c R first)) (.sym (prodB c R first))
    (angularMomentum c.incomingLs) (.sym (parentRadius c.parent))

/-- The expression that is built. -/
def builtExpr (bw : BreitWignerBuilder) (c : Chain) (R : Particle) (first : Bool) : Expr :=
  let e := bareExpr bw c R
  let e := if bw.decayFormFactor then e * decFFExpr c else e
  if bw.productionFormFactor then e * prodFFExpr c R first else e

/-- A needed LS coupling is missing. -/
def LSMissing (bw : BreitWignerBuilder) (c : Chain) : Prop :=
  ((bw.energyDependentWidth = true ∨ bw.decayFormFactor = true) ∧ c.outgoingLs = none) ∨
    (bw.productionFormFactor = true ∧ c.incomingLs = none)

/-- The items put into the parameters, in order. -/
def builtItems (bw : BreitWignerBuilder) (c : Chain) (R : Particle) (first : Bool) :
    List (Key × Val) :=
  [(.sym (massOfResonance R), .real R.mass), (.sym (widthOfResonance R), .real R.width),
    (.sym resonanceRadius, .real 1)] ++
  (if bw.decayFormFactor then [(.sym resonanceRadius, .real 1),
    (.sym (massOfState c.product1.index), .real c.product1.mass),
    (.sym (massOfState c.product2.index), .real c.product2.mass)] else []) ++
  (if bw.productionFormFactor then
    (if first then [(.sym (parentRadius c.parent), .real 1), (.sym (massOfResonance R), .real R.mass),
      (.sym (massOfState c.spectator.index), .real c.spectator.mass),
      (.sym (massOfState 0), .real c.parent.mass)]
    else [(.sym (parentRadius c.parent), .real 1),
      (.sym (massOfState c.spectator.index), .real c.spectator.mass),
      (.sym (massOfResonance R), .real R.mass), (.sym (massOfState 0), .real c.parent.mass)]) else [])

/-- `*=` of lineshapes merges the items. -/
theorem mul_items (a b : DefExpr) (i j : List (Key × Val))
    (ha : ∀ k, PyDict.get? a.parameters k = PyDict.get? i.reverse k)
    (hna : (PyDict.keys a.parameters).Nodup)
    (hb : ∀ k, PyDict.get? b.parameters k = PyDict.get? j.reverse k)
    (hnb : (PyDict.keys b.parameters).Nodup) :
    (∀ k, PyDict.get? (a.mul (.defined b)).parameters k = PyDict.get? (i ++ j).reverse k) ∧
    (PyDict.keys (a.mul (.defined b)).parameters).Nodup := by
  have rev : ∀ (d : PyDict Key Val), (PyDict.keys d).Nodup → ∀ k,
      PyDict.get? d.reverse k = PyDict.get? d k := by
    intro d hd k
    cases hg : PyDict.get? d k with
    | none =>
      rw [PyDict.get?_eq_none] at hg ⊢
      simpa [PyDict.keys] using hg
    | some v =>
      apply PyDict.get?_of_mem
      · simpa [PyDict.keys] using hd
      · simpa using PyDict.mem_of_get? hg
  constructor
  · intro k
    rw [List.reverse_append, PyDict.get?_append, ← ha, ← hb]
    simp only [DefExpr.mul]
    rw [PyDict.get?_update, PyDict.get?_update, rev _ hna, rev _ hnb]
    simp
  · exact PyDict.nodup_update (PyDict.nodup_update (by simp [PyDict.keys]) _) _

/-- A result with parameters made of items. -/
def Res (r : Py DefExpr) (e : Expr) (i : List (Key × Val)) : Prop :=
  ∃ P, r = .ok ⟨e, P⟩ ∧ (∀ k, PyDict.get? P k = PyDict.get? i.reverse k) ∧ (PyDict.keys P).Nodup

theorem Res.base (e : Expr) (i : List (Key × Val)) : Res (.ok ⟨e, PyDict.ofItems i⟩) e i :=
  ⟨_, rfl, PyDict.get?_ofItems i, PyDict.nodup_ofItems i⟩

theorem Res.mul {a b : DefExpr} {e f : Expr} {i j : List (Key × Val)} (ha : Res (.ok a) e i)
    (hb : Res (.ok b) f j) : Res (.ok (a.mul (.defined b))) (e * f) (i ++ j) := by
  obtain ⟨P, h1, h2, h3⟩ := ha
  obtain ⟨Q, h4, h5, h6⟩ := hb
  cases h1; cases h4
  exact ⟨_, rfl, mul_items ⟨e, P⟩ ⟨f, Q⟩ i j h2 h3 h5 h6⟩

theorem head_mandelstam (k : ℤ) : (mandelstam k).name.toList.head? = some 's' := by
  simp [mandelstam, String.toList_append]

theorem head_m0 : (massOfState 0).name.toList.head? ≠ some 's' := by decide

/-- What the call returns. -/
theorem call_eq (bw : BreitWignerBuilder) {c : Chain} {R : Particle} {first : Bool}
    (hc : PlainChain c R first) (hid : NumberedFinalState c) :
    (LSMissing bw c → bw.call c = .error .valueError) ∧
    (¬ LSMissing bw c → Res (bw.call c) (builtExpr bw c R first) (builtItems bw c R first)) := by
  have hdn : c.decay.decayNode = .ok (.isobar (.particle R) (.leaf (.state c.product1))
      (.leaf (.state c.product2)) c.outgoingLs) := by
    rw [hc]; cases first <;> rfl
  have hs := mandelstam_of_ids (R := .particle R) (out := c.outgoingLs) hid
  set node := Node.isobar (.particle R) (.leaf (.state c.product1)) (.leaf (.state c.product2))
    c.outgoingLs with hnode
  -- the bare Breit-Wigner
  have hbare : ∀ e : Py DefExpr, e = (if bw.energyDependentWidth then
      createBreitWigner (mandelstam c.spectator.index) node bw.phsp
      else createSimpleBreitWigner (mandelstam c.spectator.index) node) →
      e = if bw.energyDependentWidth = true ∧ c.outgoingLs = none then .error .valueError
        else .ok ⟨bareExpr bw c R, PyDict.ofItems [(.sym (massOfResonance R), .real R.mass),
          (.sym (widthOfResonance R), .real R.width), (.sym resonanceRadius, .real 1)]⟩ := by
    intro e he
    rw [he]
    cases h1 : bw.energyDependentWidth with
    | false => simp [bareExpr, h1, hnode, createSimpleBreitWigner]; exact ⟨rfl, rfl⟩
    | true =>
      cases h2 : c.outgoingLs with
      | none => simp [hnode, createBreitWigner, getAngularMomentum, Node.interaction, h2, bind, Except.bind]
      | some ls =>
        simp [hnode, createBreitWigner, getAngularMomentum, Node.interaction, h2, bind, Except.bind,
          pure, Except.pure, bareExpr, h1, angularMomentum]
        exact ⟨rfl, rfl⟩
  have hdec : createFormFactor node = if c.outgoingLs = none then .error .valueError
      else .ok ⟨decFFExpr c, PyDict.ofItems [(.sym resonanceRadius, .real 1),
        (.sym (massOfState c.product1.index), .real c.product1.mass),
        (.sym (massOfState c.product2.index), .real c.product2.mass)]⟩ := by
    have hs' := hs
    rw [hnode] at hs' ⊢
    unfold createFormFactor
    simp only [hs', bind, Except.bind, getAngularMomentum, Node.interaction]
    cases h2 : c.outgoingLs with
    | none => simp
    | some ls =>
      simp only [pure, Except.pure, head_mandelstam, if_true, reduceCtorEq, if_false, decFFExpr, h2,
        angularMomentum]
      rfl
  have hprod : createFormFactor c.decay = if c.incomingLs = none then .error .valueError
      else .ok ⟨prodFFExpr c R first, PyDict.ofItems
        (if first then [(.sym (parentRadius c.parent), .real 1), (.sym (massOfResonance R), .real R.mass),
          (.sym (massOfState c.spectator.index), .real c.spectator.mass),
          (.sym (massOfState 0), .real c.parent.mass)]
        else [(.sym (parentRadius c.parent), .real 1),
          (.sym (massOfState c.spectator.index), .real c.spectator.mass),
          (.sym (massOfResonance R), .real R.mass), (.sym (massOfState 0), .real c.parent.mass)])⟩ := by
    rw [hc]
    cases first
    all_goals
      simp only [if_true, Bool.false_eq_true, if_false, createFormFactor, bind, Except.bind,
        getAngularMomentum, Node.interaction]
      cases h2 : c.incomingLs with
      | none => simp
      | some ls =>
        simp only [pure, Except.pure, reduceCtorEq, if_false, prodFFExpr, h2, angularMomentum]
        rfl
  have hcall : bw.call c = Except.bind
      (if bw.energyDependentWidth = true ∧ c.outgoingLs = none then .error .valueError
        else .ok ⟨bareExpr bw c R, PyDict.ofItems [(.sym (massOfResonance R), .real R.mass),
          (.sym (widthOfResonance R), .real R.width), (.sym resonanceRadius, .real 1)]⟩)
      fun e => Except.bind
        (if bw.decayFormFactor then (createFormFactor node).bind fun f => .ok (e.mul (.defined f))
          else .ok e)
        fun e => if bw.productionFormFactor then
            (createFormFactor c.decay).bind fun f => .ok (e.mul (.defined f))
          else .ok e := by
    rw [← hbare _ rfl]
    unfold BreitWignerBuilder.call
    rw [hdn]
    simp only [bind, Except.bind, hs, pure, Except.pure]
    rcases bw.energyDependentWidth with _ | _ <;> rcases bw.decayFormFactor with _ | _ <;>
    simp only [Bool.false_eq_true, if_true, if_false]
    · generalize createFormFactor node = f
      generalize createSimpleBreitWigner _ _ = g
      cases g <;> cases f <;> rfl
    · generalize createFormFactor node = f
      generalize createBreitWigner _ _ _ = g
      cases g <;> cases f <;> rfl
  rw [hcall, hdec, hprod]
  clear hcall hdec hprod hbare
  unfold LSMissing builtExpr builtItems
  rcases he : bw.energyDependentWidth with _ | _ <;> rcases hd : bw.decayFormFactor with _ | _ <;>
    rcases hp : bw.productionFormFactor with _ | _ <;> rcases ho : c.outgoingLs with _ | _ <;>
    rcases hi : c.incomingLs with _ | _ <;>
  simp only [bind, Except.bind, pure, Except.pure, true_or, or_true, or_false, false_or, true_and,
    and_true, and_false, false_and, reduceCtorEq, if_true, if_false, not_true, not_false_eq_true,
    false_implies, true_implies, Bool.false_eq_true, or_self, List.append_nil] <;>
  first
  | exact ⟨trivial, trivial⟩
  | exact Res.base _ _
  | exact Res.mul (Res.base _ _) (Res.base _ _)
  | exact Res.mul (Res.mul (Res.base _ _) (Res.base _ _)) (Res.base _ _)

end Verif.ThreeBody
