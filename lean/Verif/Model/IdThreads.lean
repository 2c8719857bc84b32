import Verif.Model.IdCounter

/-!
# `dwave/gate/tools/counters.py` in several threads

`Qubit` and `Bit` call `IDCounter.next()` when they are created (primitives.py 38-40, 79-82). Here any number of threads call it again
and again. A step of the model reads or writes one class attribute, or is one call of a built-in function (`next` of a generator, `set.add`, `set.pop`),
which other Python threads cannot interrupt; a thread can be interrupted between any two steps. `reset` is not called while threads are running, so `batch`
and the object `id_set` do not change.
-/

namespace DG
namespace IdThreads

/-- Where a thread is in `next()` (counters.py 43-48) and `refresh()` (counters.py 50-74). `k` is the number of iterations of the loop that are left. -/
inductive PC
  /-- Not in `next()`; the next step is the call with the test `not cls.id_set` (line 46). -/
  | idle
  /-- At the head of the loop (line 53). -/
  | loop (k : Nat)
  /-- `cls._id_gen` was read (line 55). -/
  | draw (k g : Nat)
  /-- `next(cls._id_gen)` has returned `x`, it is to be added to `id_set` (lines 55, 72). -/
  | add (k : Nat) (x : List Char)
  /-- `StopIteration` was caught (line 57). -/
  | caught (k : Nat)
  /-- `cls.length` was read for `cls.length += 1` (line 58). -/
  | grow (k n : Nat)
  /-- Before `if cls.length > len(cls._alphanum)` (line 59). -/
  | compare (k : Nat)
  /-- Before `if not cls.id_set` (line 60). -/
  | last
  /-- Before `cls.length` is read for the new generator (line 71). -/
  | size (k : Nat)
  /-- Before the generator for ids of length `r` is assigned to `cls._id_gen` (line 71). -/
  | assign (k r : Nat)
  /-- Before `cls._id_gen` is read (line 72). -/
  | again (k : Nat)
  /-- `cls._id_gen` was read (line 72). -/
  | draw' (k g : Nat)
  /-- Before `cls.id_set.pop()` (line 48). -/
  | pop
  deriving Repr, DecidableEq

/-- The class attributes of `IDCounter`, the generators that were made (with the length of their ids and the ids that are left), where each thread is, and
what the calls of `next()` returned or raised, in the order in which they ended, with the thread. -/
structure Sys where
  length : Nat
  batch : Nat
  gens : List (Nat × List (List Char))
  cur : Nat
  idSet : List (List Char)
  pc : Nat → PC
  outs : List (Nat × Except Err (List Char))

/-- After `reset(length, batch)` (counters.py 76-91), before the threads start. -/
def start (alpha : List Char) (length batch : Option Nat) : Sys :=
  let s := IdCounter.reset alpha length batch
  { length := s.length, batch := s.batch, gens := [(s.length, s.gen)], cur := 0, idSet := s.idSet, pc := fun _ => .idle, outs := [] }

/-- Thread `i` goes to `p`. -/
def Sys.goto (s : Sys) (i : Nat) (p : PC) : Sys := { s with pc := fun j => if j = i then p else s.pc j }

/-- The call of `next()` in thread `i` ends. -/
def Sys.finish (s : Sys) (i : Nat) (r : Except Err (List Char)) : Sys := { s.goto i .idle with outs := s.outs ++ [(i, r)] }

/-- One step of thread `i`; `pick` is the choice of `set.pop` (counters.py 43-74). -/
def step (alpha : List Char) (i pick : Nat) (s : Sys) : Sys :=
  match s.pc i with
  | .idle => if s.idSet.isEmpty then s.goto i (.loop s.batch) else s.goto i .pop
  | .loop 0 => s.goto i .pop
  | .loop (k + 1) => s.goto i (.draw k s.cur)
  | .draw k g =>
    match s.gens[g]? with
    | some (r, x :: rest) => { s.goto i (.add k x) with gens := s.gens.set g (r, rest) }
    | _ => s.goto i (.caught k)
  | .add k x => { s.goto i (.loop k) with idSet := IdCounter.setAdd s.idSet x }
  | .caught k => s.goto i (.grow k s.length)
  | .grow k n => { s.goto i (.compare k) with length := n + 1 }
  | .compare k => if s.length > alpha.length then s.goto i .last else s.goto i (.size k)
  | .last => if s.idSet.isEmpty then s.finish i (.error .valueError) else s.goto i .pop   -- warn and break
  | .size k => s.goto i (.assign k s.length)
  | .assign k r => { s.goto i (.again k) with gens := s.gens ++ [(r, combinations alpha r)], cur := s.gens.length }
  | .again k => s.goto i (.draw' k s.cur)
  | .draw' k g =>
    match s.gens[g]? with
    | some (r, x :: rest) => { s.goto i (.add k x) with gens := s.gens.set g (r, rest) }
    | _ => s.finish i (.error .stopIteration)
  | .pop =>
    match s.idSet[pick % s.idSet.length]? with
    | none => s.finish i (.error .keyError)
    | some x => { s.finish i (.ok x) with idSet := s.idSet.eraseIdx (pick % s.idSet.length) }

/-- A schedule is a list of threads that make a step (with the choice of `set.pop`). -/
def run (alpha : List Char) : List (Nat × Nat) → Sys → Sys
  | [], s => s
  | (i, pick) :: l, s => run alpha l (step alpha i pick s)

end IdThreads
end DG
