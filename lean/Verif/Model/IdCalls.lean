import Verif.Model.IdCounter

/-!
# `dwave/gate/tools/counters.py`, all calls

`IDCounter` with all three class methods in any order, and with arguments of `reset` that may be negative.  As in `Model/IdCounter.lean` an id is the list of its
characters, and `set.pop()` removes the element number `pick` (modulo the size).  Arguments that are not integers are not modelled.
-/

namespace DG.IdCounter

/-- The class attributes (counters.py 33-41). Length and batch are integers, as given to `reset`. -/
structure IdState where
  length : Int
  batch : Int
  gen : List (List Char)
  idSet : List (List Char)
  deriving Repr, DecidableEq

/-- `itertools.combinations(alpha, r)`: `ValueError` if `r` is negative. -/
def combinationsZ (alpha : List Char) (r : Int) : Except Err (List (List Char)) :=
  if r < 0 then .error .valueError else .ok (combinations alpha r.toNat)

/-- The loop of `refresh` (counters.py 53-74); the first argument counts the remaining iterations. -/
def refreshLoopZ (alpha : List Char) : Nat → IdState → Except Err Unit × IdState
  | 0, s => (.ok (), s)
  | n + 1, s =>
    match s.gen with
    | id :: rest => refreshLoopZ alpha n { s with gen := rest, idSet := setAdd s.idSet id }
    | [] =>
      -- except StopIteration
      let s := { s with length := s.length + 1 }
      if s.length > (alpha.length : Int) then
        if s.idSet.isEmpty then (.error .valueError, s)
        else (.ok (), s)   -- warn and break
      else
        match combinationsZ alpha s.length with
        | .error e => (.error e, s)
        | .ok [] => (.error .stopIteration, { s with gen := [] })
        | .ok (id :: rest) => refreshLoopZ alpha n { s with gen := rest, idSet := setAdd s.idSet id }

/-- `refresh()` (counters.py 50-74); `range` of a negative number is empty. -/
def refreshZ (alpha : List Char) (s : IdState) : Except Err Unit × IdState := refreshLoopZ alpha s.batch.toNat s

/-- `id_set.pop()`; `KeyError` on the empty set. -/
def popAnyZ (pick : Nat) (s : IdState) : Except Err (List Char) × IdState :=
  match s.idSet[pick % s.idSet.length]? with
  | none => (.error .keyError, s)
  | some id => (.ok id, { s with idSet := s.idSet.eraseIdx (pick % s.idSet.length) })

/-- `next()` (counters.py 43-48). -/
def nextZ (alpha : List Char) (pick : Nat) (s : IdState) : Except Err (List Char) × IdState :=
  if s.idSet.isEmpty then
    match refreshZ alpha s with
    | (.error e, s) => (.error e, s)
    | (.ok _, s) => popAnyZ pick s
  else popAnyZ pick s

/-- `x or default` for an optional integer. -/
def orDefault (x : Option Int) (d : Int) : Int :=
  match x with
  | none => d
  | some x => if x = 0 then d else x

/-- `reset(length, batch)` (counters.py 76-91): the attributes `length` and `batch` are set before the generator is made. -/
def resetZ (alpha : List Char) (length batch : Option Int) (s : IdState) : Except Err Unit × IdState :=
  let s := { s with length := orDefault length 4, batch := orDefault batch 1000 }
  match combinationsZ alpha s.length with
  | .error e => (.error e, s)
  | .ok gen => (.ok (), { s with gen := gen, idSet := [] })

/-- The calls. -/
inductive IdCall
  | next (pick : Nat)
  | refresh
  | reset (length batch : Option Int)

/-- One call: what it returns (an id, or `None`), or the exception. -/
def callZ (alpha : List Char) (s : IdState) : IdCall → Except Err (Option (List Char)) × IdState
  | .next pick => let r := nextZ alpha pick s; (r.1.map some, r.2)
  | .refresh => let r := refreshZ alpha s; (r.1.map fun _ => none, r.2)
  | .reset length batch => let r := resetZ alpha length batch s; (r.1.map fun _ => none, r.2)

/-- A sequence of calls, where exceptions are caught. -/
def runZ (alpha : List Char) : List IdCall → IdState → List (Except Err (Option (List Char))) × IdState
  | [], s => ([], s)
  | c :: cs, s =>
    let r := callZ alpha s c
    let rest := runZ alpha cs r.2
    (r.1 :: rest.1, rest.2)

end DG.IdCounter
