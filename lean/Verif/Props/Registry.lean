import Verif.Spec.Registry
import Verif.Proofs.Example
import Verif.Proofs.PyDict
import Verif.Model.ExprEval
import Verif.Props.Decay

/-! Properties C22 (`DynamicsConfigurator`) and C24 (`DefinedExpression`). -/
namespace Verif.ThreeBody
open Verif Verif.Spec

variable {B : Type}

/-! ### C22 -/

/-- An identifier is resolved iff it denotes a chain; otherwise the exception tells why. -/
theorem getChain_iff (cfg : Configurator B) (i : Ident) (c : Chain) :
    cfg.getChain i = .ok c ↔ Denotes cfg.decay i c := by
  cases i with
  | chain c' =>
    unfold Configurator.getChain
    constructor
    · intro h
      simp only at h
      split at h
      · rename_i hc; cases h; exact .chain _ hc
      · cases h
    · rintro (⟨_, h⟩); simp [h]
  | name s =>
    unfold Configurator.getChain
    rw [(C19_find_chain cfg.decay s).1 c]
    constructor
    · rintro ⟨pre, post, h1, rfl, h2⟩; exact .name pre c post h1 h2
    · rintro (_ | ⟨pre, _, post, h1, h2⟩); exact ⟨pre, post, h1, rfl, h2⟩
  | other =>
    constructor
    · intro h; cases h
    · intro h; cases h

theorem run_decay (cfg : Configurator B) (history : List (Ident × B)) :
    (cfg.run history).decay = cfg.decay := by
  induction history generalizing cfg with
  | nil => rfl
  | cons x t ih =>
    rw [Configurator.run, List.foldl_cons, ← Configurator.run, ih]
    unfold Configurator.registerBuilder
    split <;> rfl

/-- Each chain has at most one builder, that of the last successful registration. -/
theorem run_builders (d : Decay) (history : List (Ident × B)) (c : Chain) (b : B) :
    PyDict.get? ((Configurator.init d).run history).builders c = some b ↔
      LastRegistered d history c b := by
  induction history using List.reverseRecOn with
  | nil =>
    constructor
    · intro h; cases h
    · rintro ⟨p, i, q, h, -⟩; simp at h
  | append_singleton t x ih =>
    obtain ⟨i, b'⟩ := x
    have hrun : (Configurator.init d).run (t ++ [(i, b')]) =
        (((Configurator.init d).run t).registerBuilder i b').2 := by
      simp [Configurator.run]
    rw [hrun]
    have hd : ((Configurator.init d : Configurator B).run t).decay = d := run_decay _ _
    have hlast : LastRegistered d (t ++ [(i, b')]) c b ↔
        (Denotes d i c ∧ b = b') ∨ (¬ Denotes d i c ∧ LastRegistered d t c b) := by
      constructor
      · rintro ⟨p, i', q, h, h1, h2⟩
        rcases List.eq_nil_or_concat q with rfl | ⟨q, y, rfl⟩
        · obtain ⟨-, h⟩ := List.append_inj' h rfl
          cases h
          exact .inl ⟨h1, rfl⟩
        · have h' : t ++ [(i, b')] = (p ++ (i', b) :: q) ++ [y] := by simpa using h
          obtain ⟨h3, h4⟩ := List.append_inj' h' rfl
          cases h4
          refine .inr ⟨h2 (i, b') (by simp), p, i', q, h3, h1, fun x hx => h2 x (by simp [hx])⟩
      · rintro (⟨h, rfl⟩ | ⟨h, p, i', q, h1, h2, h3⟩)
        · exact ⟨t, i, [], rfl, h, by simp⟩
        · refine ⟨p, i', q ++ [(i, b')], by simp [h1], h2, ?_⟩
          intro x hx
          rcases List.mem_append.1 hx with hx | hx
          · exact h3 x hx
          · simp at hx; subst hx; exact h
    rw [hlast, ← ih]
    unfold Configurator.registerBuilder
    cases hg : ((Configurator.init d).run t).getChain i with
    | ok c' =>
      have hc' := (getChain_iff _ _ _).1 hg
      rw [hd] at hc'
      simp only [PyDict.get?_set]
      by_cases h : c' = c
      · subst h; simp only [if_true, hc', not_true, true_and, false_and, or_false,
          Option.some.injEq]; exact eq_comm
      · have : ¬ Denotes d i c := by
          intro h2
          rw [← hd] at h2
          have := (getChain_iff _ _ _).2 h2
          rw [hg] at this; cases this; exact h rfl
        simp [h, this]
    | error e =>
      have : ¬ Denotes d i c := by
        intro h2
        rw [← hd] at h2
        have := (getChain_iff _ _ _).2 h2
        rw [hg] at this; cases this
      simp [this]

/-- **C22** After any history of `register_builder` calls (by chain or by name, succeeding or
failing), `get_builder` with any identifier that denotes the chain `c` returns the builder last
registered for `c`, and the unit builder if there is none. -/
theorem C22_registry (d : Decay) (history : List (Ident × B)) (unit : B) (i : Ident) (c : Chain)
    (hi : Denotes d i c) :
    (∀ b, LastRegistered d history c b →
      ((Configurator.init d).run history).getBuilder unit i = .ok b) ∧
    ((∀ x ∈ history, ¬ Denotes d x.1 c) →
      ((Configurator.init d).run history).getBuilder unit i = .ok unit) := by
  have hd : ((Configurator.init d : Configurator B).run history).decay = d := run_decay _ _
  have hg : ((Configurator.init d : Configurator B).run history).getChain i = .ok c :=
    (getChain_iff _ _ _).2 (by rw [hd]; exact hi)
  unfold Configurator.getBuilder
  rw [hg]
  refine ⟨fun b hb => ?_, fun h => ?_⟩
  · have := (run_builders d history c b).2 hb
    simp [this, bind, Except.bind, pure, Except.pure]
  · cases hb : PyDict.get? ((Configurator.init d).run history).builders c with
    | none => simp [hb, bind, Except.bind, pure, Except.pure]
    | some b =>
      obtain ⟨p, i', q, h1, h2, -⟩ := (run_builders d history c b).1 hb
      exact absurd h2 (h (i', b) (by simp [h1]))

/-- **C22** Calls fail exactly when the identifier denotes no chain, with `ValueError` for a chain
of another decay, `KeyError` for an unknown name and `NotImplementedError` for other types; a
failing registration leaves the object as it was, a succeeding one changes only the entry of the
denoted chain. -/
theorem C22_errors (d : Decay) (history : List (Ident × B)) (unit b : B) (i : Ident) :
    let cfg := (Configurator.init d).run history
    ((∃ c, Denotes d i c) → (cfg.registerBuilder i b).1 = .ok () ∧
      ∃ b', cfg.getBuilder unit i = .ok b') ∧
    ((¬ ∃ c, Denotes d i c) → ∃ e, cfg.registerBuilder i b = (.error e, cfg) ∧
      cfg.getBuilder unit i = .error e ∧
      e = (match i with
        | .chain _ => .valueError
        | .name _ => .keyError
        | .other => .notImplementedError)) ∧
    (∀ c c', Denotes d i c → Denotes d (.chain c') c' → c' ≠ c →
      (cfg.registerBuilder i b).2.getBuilder unit (.chain c') = cfg.getBuilder unit (.chain c')) := by
  intro cfg
  have hd : cfg.decay = d := run_decay _ _
  refine ⟨?_, ?_, ?_⟩
  · rintro ⟨c, hc⟩
    have hg : cfg.getChain i = .ok c := (getChain_iff _ _ _).2 (by rw [hd]; exact hc)
    refine ⟨by unfold Configurator.registerBuilder; rw [hg], ?_⟩
    unfold Configurator.getBuilder
    rw [hg]; exact ⟨_, rfl⟩
  · intro h
    cases hg : cfg.getChain i with
    | ok c => exact absurd ⟨c, hd ▸ (getChain_iff _ _ _).1 hg⟩ h
    | error e =>
      refine ⟨e, by unfold Configurator.registerBuilder; rw [hg], ?_, ?_⟩
      · unfold Configurator.getBuilder; rw [hg]; rfl
      · cases i with
        | chain c =>
          unfold Configurator.getChain at hg
          simp only at hg
          split at hg <;> cases hg
          rfl
        | name s => exact (C19_find_chain _ _).2.2 e hg
        | other => cases hg; rfl
  · intro c c' hc hc' hne
    have hg : cfg.getChain i = .ok c := (getChain_iff _ _ _).2 (by rw [hd]; exact hc)
    unfold Configurator.registerBuilder Configurator.getBuilder
    rw [hg]
    have hg' : cfg.getChain (.chain c') = .ok c' := (getChain_iff _ _ _).2 (by rw [hd]; exact hc')
    have hg'' : ({ cfg with builders := PyDict.set cfg.builders c b } : Configurator B).getChain
        (.chain c') = .ok c' := (getChain_iff _ _ _).2 (by rw [← hd] at hc'; exact hc')
    simp only [hg', hg'', PyDict.get?_set, if_neg (Ne.symm hne), bind, Except.bind]

/-- The hypotheses are met: in the example decay both kinds of identifiers denote chains, and a
later registration by name replaces an earlier one by chain. -/
example : Denotes exDecay (.name "K*") exChainK ∧ Denotes exDecay (.chain exChainL) exChainL ∧
    ¬ (∃ c, Denotes exDecay (.name "nothing") c) ∧
    LastRegistered exDecay [(.chain exChainK, 1), (.chain exChainL, 2), (.name "K*", 3)]
      exChainK 3 := by
  have h1 : Denotes exDecay (.name "K*") exChainK := .name [] exChainK [exChainL] rfl (by simp)
  refine ⟨h1, .chain _ (by simp [exDecay]), ?_, [(.chain exChainK, 1), (.chain exChainL, 2)], _, [],
    rfl, h1, by simp⟩
  rintro ⟨c, hc⟩
  have := (getChain_iff (Configurator.init (B := ℕ) exDecay) _ _).2 hc
  cases this

/-! ### C24 -/

namespace DefExpr
open Verif.DefExpr

/-- Same value under every interpretation and same parameter lookups. -/
def Same (a b : DefExpr) : Prop :=
  (∀ ι η, a.expression.eval ι η = b.expression.eval ι η) ∧
  ∀ k, PyDict.get? a.parameters k = PyDict.get? b.parameters k

end DefExpr

/-- **C24** `a * b` multiplies the values and merges the parameters, those of the right operand
winning; a pair behaves like the `DefinedExpression` with these fields; a plain expression
multiplies the value only. (`parameters` is a `dict`, so its keys are unique.) -/
theorem C24_mul (a : DefExpr) (ha : (PyDict.keys a.parameters).Nodup) :
    (∀ b : DefExpr, (PyDict.keys b.parameters).Nodup →
      (∀ ι η, (a.mul (.defined b)).expression.eval ι η =
        a.expression.eval ι η * b.expression.eval ι η) ∧
      (∀ k v, PyDict.get? (a.mul (.defined b)).parameters k = some v ↔
        (k, v) ∈ b.parameters ∨ (k ∉ PyDict.keys b.parameters ∧ (k, v) ∈ a.parameters)) ∧
      (PyDict.keys (a.mul (.defined b)).parameters).Nodup ∧
      a.mul (.pair b.expression b.parameters) = a.mul (.defined b)) ∧
    (∀ e : Expr, (∀ ι η, (a.mul (.expr e)).expression.eval ι η =
        a.expression.eval ι η * e.eval ι η) ∧
      (a.mul (.expr e)).parameters = a.parameters) := by
  refine ⟨fun b hb => ⟨fun _ _ => rfl, ?_, ?_, rfl⟩, fun e => ⟨fun _ _ => rfl, rfl⟩⟩
  · intro k v
    have hget : PyDict.get? (a.mul (.defined b)).parameters k =
        (PyDict.get? b.parameters k).or (PyDict.get? a.parameters k) := by
      change PyDict.get? (PyDict.update (PyDict.update [] a.parameters) b.parameters) k = _
      rw [PyDict.get?_update, PyDict.get?_update]
      have hrev : ∀ d : PyDict Key Val, (PyDict.keys d).Nodup →
          PyDict.get? d.reverse k = PyDict.get? d k := by
        intro d hd
        have hd' : (PyDict.keys d.reverse).Nodup := by
          rw [PyDict.keys, List.map_reverse, List.nodup_reverse]; exact hd
        ext v
        rw [← PyDict.mem_iff_get? hd', ← PyDict.mem_iff_get? hd, List.mem_reverse]
      rw [hrev _ hb, hrev _ ha]; simp
    rw [hget, PyDict.mem_iff_get? hb, PyDict.mem_iff_get? ha, ← PyDict.get?_eq_none]
    cases PyDict.get? b.parameters k <;> simp
  · exact PyDict.nodup_update (PyDict.nodup_update (by simp [PyDict.keys]) _) _

/-- **C24** The product is associative and `DefinedExpression()` is a unit, up to value and
parameter lookup. -/
theorem C24_monoid (a b c : DefExpr) (ha : (PyDict.keys a.parameters).Nodup)
    (hb : (PyDict.keys b.parameters).Nodup) (hc : (PyDict.keys c.parameters).Nodup) :
    DefExpr.Same ((a.mul (.defined b)).mul (.defined c)) (a.mul (.defined (b.mul (.defined c)))) ∧
    DefExpr.Same (a.mul (.defined {})) a ∧ DefExpr.Same (DefExpr.mul {} (.defined a)) a := by
  have hu : (PyDict.keys ({} : DefExpr).parameters).Nodup := by simp [PyDict.keys]
  have hab := ((C24_mul a ha).1 b hb)
  have hbc := ((C24_mul b hb).1 c hc)
  have ext : ∀ {x y : Option Val}, (∀ v, x = some v ↔ y = some v) → x = y :=
    fun h => Option.ext h
  refine ⟨⟨fun ι η => mul_assoc _ _ _, fun k => ext fun v => ?_⟩,
    ⟨fun ι η => ?_, fun k => ext fun v => ?_⟩, ⟨fun ι η => ?_, fun k => ext fun v => ?_⟩⟩
  · rw [((C24_mul _ hab.2.2.1).1 c hc).2.1, ((C24_mul a ha).1 _ hbc.2.2.1).2.1,
      PyDict.mem_iff_get? hab.2.2.1, hab.2.1, PyDict.mem_iff_get? hbc.2.2.1, hbc.2.1,
      ← PyDict.get?_eq_none (d := (b.mul (.defined c)).parameters),
      Option.eq_none_iff_forall_ne_some]
    simp only [ne_eq, hbc.2.1, not_or, not_and]
    have h1 : k ∈ PyDict.keys c.parameters ↔ ∃ v, (k, v) ∈ c.parameters := by
      simp [PyDict.keys]
    have h2 : k ∈ PyDict.keys b.parameters ↔ ∃ v, (k, v) ∈ b.parameters := by
      simp [PyDict.keys]
    constructor
    · rintro (h | ⟨h, h' | ⟨h3, h4⟩⟩)
      · exact .inl (.inl h)
      · exact .inl (.inr ⟨h, h'⟩)
      · exact .inr ⟨fun w => ⟨fun hw => h (h1.2 ⟨w, hw⟩), fun _ hw => h3 (h2.2 ⟨w, hw⟩)⟩, h4⟩
    · rintro ((h | ⟨h, h'⟩) | ⟨h, h4⟩)
      · exact .inl h
      · exact .inr ⟨h, .inl h'⟩
      · have hk : k ∉ PyDict.keys c.parameters := fun hk => (h1.1 hk).elim fun w hw => (h w).1 hw
        exact .inr ⟨hk, .inr ⟨fun hb => (h2.1 hb).elim fun w hw => (h w).2 hk hw, h4⟩⟩
  · change _ * ((1 : ℚ) : ℂ) = _; simp
  · rw [((C24_mul a ha).1 _ hu).2.1, ← PyDict.mem_iff_get? ha]; simp [PyDict.keys]
  · change ((1 : ℚ) : ℂ) * _ = _; simp
  · rw [((C24_mul _ hu).1 a ha).2.1, ← PyDict.mem_iff_get? ha]; simp

example : (PyDict.keys (DefExpr.parameters ⟨.sym ⟨"x", .none⟩,
    [(.sym ⟨"x", .none⟩, .real 1), (.sym ⟨"y", .none⟩, .cplx 1 0)]⟩)).Nodup := by decide

end Verif.ThreeBody
