import Verif.Model.Cached
import Mathlib.Data.Complex.Basic

/-! What `lambdify` returns if nothing is cached. -/
namespace Verif.Cached
open Verif

variable {E F H : Type}

/-- The backend that a call uses: a string as second argument takes precedence. -/
def usedBackend : SecondArg → String → String
  | .str s, _ => s
  | _, b => b

/-- What a call returns if nothing is cached: `create_function` without a mapping of parameters,
`create_parametrized_function` with one, even if it is empty. The backend `"jax"` has to be
installed. -/
def uncached (w : Imports E F H) (expr : E) (parameters : SecondArg) (backend : String) : Py F :=
  if usedBackend parameters backend = "jax" ∧ w.jaxInstalled = false then .error .importError
  else match parameters with
    | .none => w.createFunction expr backend
    | .str s => w.createFunction expr s
    | .mapping p => w.createParametrizedFunction expr p backend

/-- The results of the calls of a history if nothing is cached. -/
def uncachedResults (w : Imports E F H) : List (Event E) → List (Py F)
  | [] => []
  | .call e p b :: t => uncached w e p b :: uncachedResults w t
  | .restart :: t => uncachedResults w t

/-- The call of the body of `_lambdify_impl` with the given arguments. -/
def body (w : Imports E F H) (expr : E) (parameters : Option Parameters) (backend : String) : Py F :=
  match parameters with
  | none => w.createFunction expr backend
  | some p => w.createParametrizedFunction expr p backend

/-- The complex number that a Python number stands for: `True` is 1 and `False` is 0. -/
noncomputable def asComplex : Number → ℂ
  | .bool true => 1
  | .bool false => 0
  | .int z => z
  | .float q => q
  | .complex re im => re + im * Complex.I

/-- Two mappings are equal: the same symbols with equal numbers. -/
def SameParameters (p q : Parameters) : Prop :=
  ∀ s : Sym, (PyDict.get? p s).map asComplex = (PyDict.get? q s).map asComplex

/-- Equal arguments create the same function. -/
def EqualArguments (w : Imports E F H) : Prop :=
  ∀ (e : E) (p q : Parameters) (b : String), SameParameters p q →
    w.createParametrizedFunction e p b = w.createParametrizedFunction e q b

/-- Arguments with the same hash create the same function. -/
def FaithfulHash (w : Imports E F H) : Prop :=
  ∀ (e e' : E) (p p' : Option Parameters) (b b' : String), w.hash ⟨e, p, b⟩ = w.hash ⟨e', p', b'⟩ →
    body w e p b = body w e' p' b'

/-- A process that just started, with files on the disk that were written for the same versions of
the imported functions. -/
def Fresh (w : Imports E F H) (st : Store E F H) : Prop :=
  st.memory = [] ∧ st.created = [] ∧ st.x64 = false ∧
    ∀ h f, (h, f) ∈ st.disk → ∀ e p b, w.hash ⟨e, p, b⟩ = h → body w e p b = .ok f

end Verif.Cached
