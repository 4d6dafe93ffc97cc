import Mathlib.Data.List.Dedup

/-
Python primitives used by the model: exceptions as values, insertion-ordered
dictionaries, sets as duplicate-free lists.
-/
namespace Verif

/-- The exception classes raised by the modelled code. The message text is not modelled (the `raise`
statements of /repo/src/ampform_dpd, and what Python raises for indexing, unpacking and attribute access in
it). -/
inductive PyErr where
  | valueError
  | keyError
  | typeError
  | attributeError
  | notImplementedError
  | indexError
  | recursionError
  | stopIteration
  | importError
  | zeroDivisionError
  deriving DecidableEq, Repr

/-- A Python computation that either returns or raises (all functions of /repo/src/ampform_dpd). -/
abbrev Py (α : Type _) := Except PyErr α

/-- A Python `dict`: association list in insertion order. Keys are unique as long as it is
built with `PyDict.set` (for example __init__.py:46-50). -/
abbrev PyDict (κ ν : Type _) := List (κ × ν)

namespace PyDict

variable {κ ν : Type _} [DecidableEq κ]

/-- `d.get(k)`; `None` if the key is missing. Used at __init__.py:460, io/serialization/amplitude.py:85, 169,
236, 254, 285, io/serialization/dynamics.py:61, 74. -/
def get? (d : PyDict κ ν) (k : κ) : Option ν :=
  match d with
  | [] => none
  | (k', v) :: t => if k' = k then some v else get? t k

/-- `d[k]`; raises `KeyError`. Used at decay.py:106, io/serialization/decay.py:71-74,
adapter/qrules.py:234-238. -/
def get (d : PyDict κ ν) (k : κ) : Py ν :=
  match get? d k with
  | some v => .ok v
  | none => .error .keyError

/-- `d[k] = v`: an existing key keeps its position, a new key goes to the end. Used at __init__.py:445, 456,
io/serialization/amplitude.py:261. -/
def set (d : PyDict κ ν) (k : κ) (v : ν) : PyDict κ ν :=
  match d with
  | [] => [(k, v)]
  | (k', v') :: t => if k' = k then (k, v) :: t else (k', v') :: set t k v

/-- `d.update(e)`, also `{**d, **e}`. Used at __init__.py:133-141, io/serialization/decay.py:106. -/
def update (d e : PyDict κ ν) : PyDict κ ν :=
  e.foldl (fun acc kv => set acc kv.1 kv.2) d

/-- `{k: v for k, v in items}`. Used at adapter/qrules.py:74, 124-133, __init__.py:507-510. -/
def ofItems (items : List (κ × ν)) : PyDict κ ν := update [] items

/-- `list(d)`. Used at __init__.py:127, 509. -/
def keys (d : PyDict κ ν) : List κ := d.map Prod.fst

end PyDict

/-- Iterating over a Python `set` of small non-negative `int`s visits them in ascending order
in CPython, and `sorted(set(...))` does so by definition; this is the ascending duplicate-free
list of the elements. Used only for sets of state IDs. Used for __init__.py:127, adapter/qrules.py:194, 397,
400 and decay.py:136. -/
def sortedSet (l : List Int) : List Int := l.dedup.mergeSort (fun a b => decide (a ≤ b))

end Verif
