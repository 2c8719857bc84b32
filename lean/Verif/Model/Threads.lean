import Verif.Model.Program

/-!
# Contexts in several threads

`CircuitContext._active_context` is a class attribute, so all threads share it. Here any number of threads make API calls and enter and leave contexts.
Entering a context consists of two steps between which other threads can run: the tests, and the assignment of the active context (circuit.py 868-869).
All other API calls are single steps. A thread does not enter a second context inside of a block (the test would refuse it, see C25). (So the model has fewer interleavings than the code: what fails here fails there.)
-/

namespace DG
variable {K : Type}

/-- The tests in `context.__enter__()` (circuit.py 862-868, 871). -/
def enterTest (x : Nat) : M K Unit := do
  let X ← ctxObj x
  let C ← circ X.circuit
  M.raiseIf C.locked .circuitError
  let active ← M.read (·.active)
  M.raiseIf active.isSome .runtimeError

/-- The rest of `context.__enter__()` (circuit.py 869, 873). -/
def enterSet (x : Nat) : M K Unit := do
  let X ← ctxObj x
  M.write fun w => { w with active := some x }
  let _ ← qubitsOf X.circuit
  let _ ← bitsOf X.circuit

/-- Where a thread is. -/
inductive Place
  /-- Not in a `with circuit.context` block. -/
  | outside
  /-- Entering context `x` of circuit `c`, after the tests. -/
  | entering (x c : Nat)
  /-- In the block `with c.context`, where `x` is the context. -/
  | inside (x c : Nat)
  deriving Repr, DecidableEq

/-- What a thread does next. -/
inductive Act (K : Type)
  /-- Begin with `with c.context:`. -/
  | enter (c : Nat)
  /-- Go on entering the context. -/
  | goOn
  /-- Leave the block. -/
  | leave
  /-- Any API call. -/
  | call (e : Call K)
  /-- Enter and leave `with CircuitContext.freeze`. -/
  | freeze
  | unfreeze

/-- The state of the program and the places of the threads. -/
structure Threads (K : Type) where
  w : World K
  place : Nat → Place

/-- Thread `i` goes to `p`, and the state of the program is `w`. -/
def Threads.to (s : Threads K) (i : Nat) (p : Place) (w : World K) : Threads K := ⟨w, fun j => if j = i then p else s.place j⟩

/-- One step of thread `i`; actions that are impossible at its place do nothing. Exceptions of calls do not leave the block (they can be caught inside; and
a block that is left by an exception is left in the same way). -/
def Threads.step [DecidableEq K] [Zero K] (s : Threads K) (i : Nat) (a : Act K) : Threads K :=
  match s.place i, a with
  | .outside, .enter c =>
    match (do let x ← contextOf c; enterTest x; pure x : M K Nat) s.w with
    | (.ok x, w) => s.to i (.entering x c) w
    | (.error _, w) => s.to i .outside w
  | .entering x c, .goOn =>
    match enterSet x s.w with
    | (.ok _, w) => s.to i (.inside x c) w
    | (.error _, w) => s.to i .outside w
  | .inside x _, .leave => s.to i .outside (exitCtx x s.w).2
  | .entering _ _, _ => s
  | p, .call e => s.to i p (execCall e s.w).2
  | p, .freeze => s.to i p (freezeEnter s.w).2
  | p, .unfreeze => s.to i p (freezeExit s.w).2
  | _, _ => s

/-- A schedule is a list of threads and what they do. -/
def Threads.run [DecidableEq K] [Zero K] : List (Nat × Act K) → Threads K → Threads K
  | [], s => s
  | (i, a) :: l, s => run l (s.step i a)

end DG
