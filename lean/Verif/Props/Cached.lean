import Verif.Proofs.Cached

/-! C66: caching of `lambdify`. -/
namespace Verif.Cached
open Verif

variable {E F H : Type} [DecidableEq E] [DecidableEq H]

/-! An instance for the examples: expressions are names, a function is a text that shows how it was
created, and the hash is all arguments, with the values of the parameters. -/

def exCreate (e b : String) : Py String := if e = "x/0" then .error .valueError else .ok (e ++ "|" ++ b)

def exImports : Imports String (String × Option (List (Sym × ℚ × ℚ))) (Key String) where
  createFunction e b := do return (← exCreate e b, none)
  createParametrizedFunction e p b := do
    return (← exCreate e b, some ((PyDict.get? p ⟨"a", .real⟩).toList.map fun v => (⟨"a", .real⟩, v.value)))
  hash := id
  jaxInstalled := true

def exStart : Store String (String × Option (List (Sym × ℚ × ℚ))) (Key String) := ⟨[], [], false, []⟩

theorem exImports_equal : EqualArguments exImports := by
  intro e p q b h
  have h := h ⟨"a", .real⟩
  unfold exImports
  simp only
  cases hp : PyDict.get? p ⟨"a", .real⟩ <;> cases hq : PyDict.get? q ⟨"a", .real⟩ <;>
    rw [hp, hq, ← map_value_eq_iff] at h <;> simp_all

theorem exImports_hash : FaithfulHash exImports := by
  intro e e' p p' b b' h
  injection (show (⟨e, p, b⟩ : Key String) = ⟨e', p', b'⟩ from h) with h1 h2 h3
  rw [h1, h2, h3]

theorem exStart_fresh : Fresh exImports exStart := ⟨rfl, rfl, rfl, fun _ _ h => by cases h⟩

/-- Caching is transparent: in any history of calls and restarts of the process, every call returns
or raises what it would without any caching, if equal arguments create the same function, and
arguments with the same hash as well. -/
theorem C66_transparent (w : Imports E F H) (he : EqualArguments w) (hh : FaithfulHash w)
    (st : Store E F H) (hst : Fresh w st) (history : List (Event E)) :
    (run w st history).1 = uncachedResults w history :=
  run_spec he hh history st (consistent_of_fresh hst)

/-- A string as second argument is the backend, whatever the keyword argument says. -/
theorem C66_string_argument (w : Imports E F H) (st : Store E F H) (e : E) (s b : String) :
    lambdify w st e (.str s) b = lambdify w st e .none s := by
  rw [lambdify_eq, lambdify_eq]
  rfl

/-- A mapping, even the empty one, asks for a parametrized function; no mapping asks for a function
without parameters. This is so after any history of calls and restarts. -/
theorem C66_parametrized (w : Imports E F H) (he : EqualArguments w) (hh : FaithfulHash w)
    (hj : w.jaxInstalled = true) (st : Store E F H) (hst : Fresh w st) (history : List (Event E))
    (e : E) (p : Parameters) (b : String) :
    (lambdify w (run w st history).2 e (.mapping p) b).1 = w.createParametrizedFunction e p b ∧
    (lambdify w (run w st history).2 e .none b).1 = w.createFunction e b := by
  have hc := run_consistent he hh history st (consistent_of_fresh hst)
  rw [(lambdify_spec he hh hc e (.mapping p) b).1, (lambdify_spec he hh hc e .none b).1]
  unfold uncached
  simp [hj]

/-- If JAX is not installed, calls that use it raise `ImportError` and change nothing. -/
theorem C66_jax (w : Imports E F H) (st : Store E F H) (e : E) (p : SecondArg) (b : String)
    (hj : w.jaxInstalled = false) (hb : usedBackend p b = "jax") :
    lambdify w st e p b = (.error .importError, st) := by
  rw [lambdify_eq, if_pos ⟨hb, hj⟩]

/-- In one process, functions are successfully created at most once for equal arguments. -/
theorem C66_once (w : Imports E F H) (st : Store E F H) (hst : Fresh w st)
    (history : List (Event E)) (hnr : ∀ ev ∈ history, ev ≠ .restart) :
    ((run w st history).2.created.filter fun k => (create w k).isOk).Pairwise
      fun k k' => ¬ (k.expr = k'.expr ∧ k.backend = k'.backend ∧
        (k.parameters = none ∧ k'.parameters = none ∨
          ∃ p p', k.parameters = some p ∧ k'.parameters = some p' ∧ SameParameters p' p)) := by
  have hin := run_inMemory history hnr st
    ⟨by rw [hst.2.1]; simp, by rw [hst.2.1]; exact .nil⟩ (w := w)
  rw [List.pairwise_filter]
  refine hin.2.imp ?_
  intro k k' h h1 h2 h3
  have ok : ∀ k : Key E, (create w k).isOk = true → ∃ f, create w k = .ok f := by
    intro k hk
    cases hc : create w k with
    | error e => rw [hc] at hk; cases hk
    | ok f => exact ⟨f, rfl⟩
  have := h (ok k h1) (ok k' h2)
  obtain ⟨h4, h5, h6⟩ := h3
  unfold Key.beq at this
  rw [h4, h5] at this
  rcases h6 with ⟨h6, h7⟩ | ⟨p, p', h6, h7, h8⟩
  · rw [h6, h7] at this; simp at this
  · rw [h6, h7] at this; simp [beq_iff.2 h8] at this

/-- Over any number of processes, functions are successfully created at most once for every hash. -/
theorem C66_once_on_disk (w : Imports E F H) (st : Store E F H) (hst : Fresh w st)
    (history : List (Event E)) :
    ((run w st history).2.created.filter fun k => (create w k).isOk).Pairwise
      fun k k' => w.hash k ≠ w.hash k' := by
  have hin := run_onDisk history st ⟨by rw [hst.2.1]; simp, by rw [hst.2.1]; exact .nil⟩ (w := w)
  rw [List.pairwise_filter]
  refine hin.2.imp ?_
  intro k k' h h1 h2
  have ok : ∀ k : Key E, (create w k).isOk = true → ∃ f, create w k = .ok f := by
    intro k hk
    cases hc : create w k with
    | error e => rw [hc] at hk; cases hk
    | ok f => exact ⟨f, rfl⟩
  exact h (ok k h1) (ok k' h2)

/-- Double precision is enabled exactly if, since the process started, a call used the backend
`"jax"`; it does not matter whether the result was cached, or whether the call raised later. -/
theorem C66_double_precision (w : Imports E F H) (st : Store E F H) (hst : Fresh w st)
    (history : List (Event E)) :
    (run w st history).2.x64 = true ↔
      ∃ pre e p b post, history = pre ++ .call e p b :: post ∧ usedBackend p b = "jax" ∧
        w.jaxInstalled = true ∧ ∀ ev ∈ post, ev ≠ .restart := by
  rw [run_x64, hst.2.2.1]
  simp

/-- The condition on equal arguments is needed: `1` and `True` are equal, so if a function shows
the values it was created with, the second call returns the function of the first. -/
theorem C66_equal_values_fails : ∃ (w : Imports String Parameters (Key String))
    (st : Store String Parameters (Key String)) (history : List (Event String)), Fresh w st ∧
    FaithfulHash w ∧ (run w st history).1 ≠ uncachedResults w history := by
  let a : Sym := ⟨"a", .real⟩
  let w : Imports String Parameters (Key String) :=
    ⟨fun _ _ => .ok [], fun _ p _ => .ok p, id, true⟩
  refine ⟨w, ⟨[], [], false, []⟩, [.call "a" (.mapping [(a, .int 1)]) "jax",
    .call "a" (.mapping [(a, .bool true)]) "jax"], ⟨rfl, rfl, rfl, fun _ _ h => by cases h⟩, ?_, ?_⟩
  · intro e e' p p' b b' h
    injection (show (⟨e, p, b⟩ : Key String) = ⟨e', p', b'⟩ from h) with h1 h2 h3
    rw [h1, h2, h3]
  · decide

/-- A history in which everything happens: a created function, the same one from memory, another
backend by position, an empty mapping, a mapping, an equal one in another order of types, an
exception, a restart, and the first one from disk. Only five functions are created. -/
example : (run exImports exStart [.call "x" .none "jax", .call "x" .none "jax",
      .call "x" (.str "numpy") "jax", .call "x" (.mapping []) "jax",
      .call "x" (.mapping [(⟨"a", .real⟩, .int 1)]) "jax",
      .call "x" (.mapping [(⟨"a", .real⟩, .float 1)]) "jax",
      .call "x/0" .none "numpy", .restart, .call "x" .none "numpy"]).1 =
    [.ok ("x|jax", none), .ok ("x|jax", none), .ok ("x|numpy", none), .ok ("x|jax", some []),
      .ok ("x|jax", some [(⟨"a", .real⟩, 1, 0)]), .ok ("x|jax", some [(⟨"a", .real⟩, 1, 0)]),
      .error .valueError, .ok ("x|numpy", none)] := by
  rw [C66_transparent _ exImports_equal exImports_hash _ exStart_fresh]
  rfl

/-- After calls with and without parameters, and for an empty mapping. -/
example : (lambdify exImports (run exImports exStart [.call "x" .none "jax", .restart,
      .call "x" (.mapping [(⟨"a", .real⟩, .int 1)]) "jax"]).2 "x" (.mapping []) "jax").1 =
    .ok ("x|jax", some []) := by
  rw [(C66_parametrized _ exImports_equal exImports_hash rfl _ exStart_fresh _ _ _ _).1]
  rfl

example (e : String) (p : SecondArg) (b : String) (hb : usedBackend p b = "jax") :
    lambdify { exImports with jaxInstalled := false } exStart e p b = (.error .importError, exStart) :=
  C66_jax _ _ e p b rfl hb

/-- Two equal calls create one function, also in two processes. -/
example : (run exImports exStart [.call "x" .none "jax", .call "x" .none "jax"]).2.created =
    [⟨"x", none, "jax"⟩] ∧ ∀ ev ∈ [Event.call "x" .none "jax", .call "x" .none "jax"], ev ≠ .restart :=
  ⟨rfl, by simp⟩

example : (run exImports exStart [.call "x" .none "jax", .restart, .call "x" .none "jax"]).2.created =
    [⟨"x", none, "jax"⟩] := rfl

/-- The setting is there after a call for JAX, and is lost when the process ends. -/
example : (run exImports exStart [.call "x" (.str "jax") "numpy", .call "x" .none "numpy"]).2.x64 = true ∧
    (run exImports exStart [.call "x" (.str "jax") "numpy", .restart]).2.x64 = false := by
  constructor
  · rw [C66_double_precision _ _ exStart_fresh]
    exact ⟨[], _, _, _, _, rfl, rfl, rfl, by simp⟩
  · rfl

end Verif.Cached
