import Verif.Model.Py
import Verif.Model.Sym
import Mathlib.Data.Rat.Defs

/-!
Model of `/repo/src/ampform_dpd/io/cached.py`.

The functions that create numerical functions (TensorWaves) and the file names of the disk cache
(AmpForm) are parameters of the model. The disk cache is modelled as what its docstring says
(cached.py:52-53): a store that maps the hash of the arguments to the pickled result. Pickling
is the identity, and writing a file is atomic.
-/
namespace Verif.Cached
open Verif

/-- A parameter value: Python `bool`, `int`, `float` or `complex`. `ParameterValue` of TensorWaves
(io/cached.py:22, 46). -/
inductive Number where
  | bool (b : Bool)
  | int (z : ℤ)
  | float (q : ℚ)
  | complex (re im : ℚ)
  deriving DecidableEq, Repr

/-- The number that Python's `==` compares. Used by `frozendict.__eq__` in the caches (io/cached.py:76,
79-80). -/
def Number.value : Number → ℚ × ℚ
  | .bool b => (if b then 1 else 0, 0)
  | .int z => (z, 0)
  | .float q => (q, 0)
  | .complex re im => (re, im)

/-- `parameters`: a mapping from symbols to values (io/cached.py:46, 87). -/
abbrev Parameters := PyDict Sym Number

/-- `==` of two mappings: the same keys with equal values, in any order. Equality of the `frozendict`s that
are keys of the in-memory cache (io/cached.py:76, 79). -/
def Parameters.beq (a b : Parameters) : Bool :=
  (PyDict.keys a ++ PyDict.keys b).all fun s =>
    decide ((PyDict.get? a s).map Number.value = (PyDict.get? b s).map Number.value)

/-- The arguments of `_lambdify_impl` (cached.py:85-90), for an expression type `E` whose decidable
equality is `==`. -/
structure Key (E : Type) where
  expr : E
  parameters : Option Parameters
  backend : String
  deriving DecidableEq

/-- Equality of the keys of `functools.cache` (cached.py:79): `==` of all arguments. A call without
`parameters` has another number of positional arguments (cached.py:75-76). -/
def Key.beq {E : Type} [DecidableEq E] (a b : Key E) : Bool :=
  decide (a.expr = b.expr) && decide (a.backend = b.backend) &&
  match a.parameters, b.parameters with
  | none, none => true
  | some p, some q => p.beq q
  | _, _ => false

/-- What the code imports: `create_function`, `create_parametrized_function`, the hash in the file
names of the disk cache, and whether `jax` can be imported (io/cached.py:79-84, 92-93). -/
structure Imports (E F H : Type) where
  createFunction : E → String → Py F
  createParametrizedFunction : E → Parameters → String → Py F
  hash : Key E → H
  jaxInstalled : Bool

/-- The state of a process and of the disk: the dictionary of `functools.cache`, the files of the
disk cache, the setting `jax_enable_x64`, and the arguments for which a function was created so
far, most recent first. -/
structure Store (E F H : Type) where
  memory : List (Key E × F)
  disk : List (H × F)
  x64 : Bool
  created : List (Key E)

variable {E F H : Type} [DecidableEq E] [DecidableEq H]

/-- The body of `_lambdify_impl` (cached.py:91-93). -/
def create (w : Imports E F H) (k : Key E) : Py F :=
  match k.parameters with
  | none => w.createFunction k.expr k.backend
  | some p => w.createParametrizedFunction k.expr p k.backend

/-- `_lambdify_impl` with `cache_to_disk` (cached.py:80-93): load the file if it exists, otherwise
call the body and write the file. An exception leaves no file. -/
def throughDisk (w : Imports E F H) (st : Store E F H) (k : Key E) : Py F × Store E F H :=
  match st.disk.find? (fun x => x.1 = w.hash k) with
  | some x => (.ok x.2, st)
  | none =>
    match create w k with
    | .error e => (.error e, { st with created := k :: st.created })
    | .ok f => (.ok f, { st with disk := (w.hash k, f) :: st.disk, created := k :: st.created })

/-- `_lambdify_impl` with both decorators (cached.py:79-93). An exception is not stored. -/
def lambdifyImpl (w : Imports E F H) (st : Store E F H) (k : Key E) : Py F × Store E F H :=
  match st.memory.find? (fun x => x.1.beq k) with
  | some x => (.ok x.2, st)
  | none =>
    match throughDisk w st k with
    | (.error e, st') => (.error e, st')
    | (.ok f, st') => (.ok f, { st' with memory := (k, f) :: st'.memory })

/-- The second argument of `lambdify`: missing or `None`, a string, or a mapping (io/cached.py:46, 67-69,
74). -/
inductive SecondArg where
  | none
  | str (s : String)
  | mapping (p : Parameters)

/-- `lambdify` (cached.py:44-76). `backend` is `"jax"` if it is not given. -/
def lambdify (w : Imports E F H) (st : Store E F H) (expr : E) (parameters : SecondArg)
    (backend : String := "jax") : Py F × Store E F H :=
  let (parameters, backend) : Option Parameters × String :=
    match parameters with
    | .none => (none, backend)
    | .str s => (none, s)
    | .mapping p => (some p, backend)
  if backend = "jax" ∧ ¬ w.jaxInstalled then (.error .importError, st)
  else
    let st := if backend = "jax" then { st with x64 := true } else st
    lambdifyImpl w st ⟨expr, parameters, backend⟩

/-- What a user does: call `lambdify`, or end the process and start another one, which loses
everything but the disk (io/cached.py:44-76, and the caches of lines 79-84). -/
inductive Event (E : Type) where
  | call (expr : E) (parameters : SecondArg) (backend : String)
  | restart

/-- One step of a history: the result of a call, if it is one, and the next state (io/cached.py:44-76). -/
def step (w : Imports E F H) (st : Store E F H) : Event E → Option (Py F) × Store E F H
  | .call e p b => ((some (lambdify w st e p b).1), (lambdify w st e p b).2)
  | .restart => (none, { st with memory := [], x64 := false })

/-- The results of the calls of a history, and the state after it (io/cached.py:44-76, called repeatedly). -/
def run (w : Imports E F H) (st : Store E F H) : List (Event E) → List (Py F) × Store E F H
  | [] => ([], st)
  | ev :: evs =>
    let (r, st') := step w st ev
    let (rs, st'') := run w st' evs
    (r.toList ++ rs, st'')

end Verif.Cached
