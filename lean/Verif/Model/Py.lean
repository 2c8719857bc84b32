/-!
# Python values used throughout the model

Exceptions are values; only the exception class is kept, messages are not modelled.
-/

namespace DG

/-- Python exception classes raised by the modelled code (messages dropped).
`diverges` marks a loop that did not stop within its fuel; theorems show that it is never produced. -/
inductive Err
  | valueError | indexError | keyError | typeError | attributeError | runtimeError
  | notImplementedError | stopIteration | overflowError
  | circuitError | registerError
  | diverges
  /-- not a Python exception: undefined behaviour of the generated C code -/
  | undefinedBehaviour
  deriving DecidableEq, Repr

/-- A Python `dict`: key/value pairs in insertion order. -/
abbrev PyDict (K V : Type) := List (K × V)

namespace PyDict
variable {K V : Type} [DecidableEq K]

/-- `d.get(k)` (first pair with that key). -/
def get? (d : PyDict K V) (k : K) : Option V :=
  match d with
  | [] => none
  | (k', v) :: d => if k' = k then some v else get? d k

/-- `k in d`. -/
def contains (d : PyDict K V) (k : K) : Bool := (d.get? k).isSome

/-- `d[k] = v`: keeps the position of an existing key, else appends at the end. -/
def set (d : PyDict K V) (k : K) (v : V) : PyDict K V :=
  match d with
  | [] => [(k, v)]
  | (k', v') :: d => if k' = k then (k', v) :: d else (k', v') :: set d k v

/-- `d.pop(k, _)` / `del d[k]`, the remaining dictionary. -/
def erase (d : PyDict K V) (k : K) : PyDict K V :=
  match d with
  | [] => []
  | (k', v') :: d => if k' = k then erase d k else (k', v') :: erase d k

/-- `d.keys()`. -/
def keys (d : PyDict K V) : List K := d.map Prod.fst

/-- `d.values()`. -/
def values (d : PyDict K V) : List V := d.map Prod.snd

/-- `{k: v for (k, v) in pairs}` / `dict(pairs)`. -/
def ofPairs (ps : List (K × V)) : PyDict K V :=
  ps.foldl (fun d p => d.set p.1 p.2) []

end PyDict

end DG
