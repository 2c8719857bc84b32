import Verif.Model.Py

/-!
# `dwave/gate/tools/counters.py`

`IDCounter` is a class with class-level state.  An id is the list of its characters (`"".join(t)` is injective on tuples
of characters).  `set.pop()` removes an arbitrary element: the model removes the element number `pick` (modulo the size),
and theorems quantify over all `pick`s.  The warning (counters.py 64-68) has no effect on the state and is not modelled.
-/

namespace DG

/-- `itertools.combinations(pool, r)`: all length-`r` subsequences in lexicographic order of positions. -/
def combinations {α : Type} : List α → Nat → List (List α)
  | _, 0 => [[]]
  | [], _ + 1 => []
  | a :: l, r + 1 => (combinations l r).map (a :: ·) ++ combinations l (r + 1)

/-- The class attributes of `IDCounter` (counters.py 33-41): `length`, `batch`, the rest of the generator `_id_gen`
and `id_set`. -/
structure IdCounter where
  length : Nat
  batch : Nat
  gen : List (List Char)
  idSet : List (List Char)
  deriving Repr, DecidableEq

namespace IdCounter

/-- `_alphanum` (counters.py 38). -/
def alphanum : List Char := "q0a1b2c3d4e5f6g7h8i9jklmnoprstuvwxyz".toList

/-- `reset(length, batch)` (counters.py 76-91): `x or default` also replaces 0. The class is initialised with the same
values as `reset()` (counters.py 33-41). Negative lengths and batches are in `Model/IdCalls.lean`. -/
def reset (alpha : List Char) (length batch : Option Nat) : IdCounter :=
  let length := match length with
    | none | some 0 => 4
    | some n => n
  let batch := match batch with
    | none | some 0 => 1000
    | some n => n
  { length := length, batch := batch, gen := combinations alpha length, idSet := [] }

/-- `set.add`. -/
def setAdd (s : List (List Char)) (x : List Char) : List (List Char) := if x ∈ s then s else s ++ [x]

/-- The loop of `refresh` (counters.py 53-74); the first argument counts the remaining iterations. -/
def refreshLoop (alpha : List Char) : Nat → IdCounter → Except Err Unit × IdCounter
  | 0, s => (.ok (), s)
  | n + 1, s =>
    match s.gen with
    | id :: rest => refreshLoop alpha n { s with gen := rest, idSet := setAdd s.idSet id }
    | [] =>
      -- except StopIteration
      let s := { s with length := s.length + 1 }
      if s.length > alpha.length then
        if s.idSet.isEmpty then (.error .valueError, s)
        else (.ok (), s)   -- warn and break
      else
        match combinations alpha s.length with
        | [] => (.error .stopIteration, { s with gen := [] })
        | id :: rest => refreshLoop alpha n { s with gen := rest, idSet := setAdd s.idSet id }

/-- `refresh()` (counters.py 50-74). -/
def refresh (alpha : List Char) (s : IdCounter) : Except Err Unit × IdCounter := refreshLoop alpha s.batch s

/-- `id_set.pop()`; `KeyError` on the empty set. -/
def popAny (pick : Nat) (s : IdCounter) : Except Err (List Char) × IdCounter :=
  match s.idSet[pick % s.idSet.length]? with
  | none => (.error .keyError, s)
  | some id => (.ok id, { s with idSet := s.idSet.eraseIdx (pick % s.idSet.length) })

/-- `next()` (counters.py 43-48). -/
def next (alpha : List Char) (pick : Nat) (s : IdCounter) : Except Err (List Char) × IdCounter :=
  if s.idSet.isEmpty then
    match refresh alpha s with
    | (.error e, s) => (.error e, s)
    | (.ok _, s) => popAny pick s
  else popAny pick s

/-- A sequence of calls of `next()`, with the choices made by `set.pop`. -/
def draws (alpha : List Char) : List Nat → IdCounter → List (Except Err (List Char)) × IdCounter
  | [], s => ([], s)
  | p :: ps, s =>
    let r := next alpha p s
    let rest := draws alpha ps r.2
    (r.1 :: rest.1, rest.2)

end IdCounter
end DG
