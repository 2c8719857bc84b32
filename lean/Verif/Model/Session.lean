import Verif.Model.Run
import Verif.Model.CircuitState

/-!
# Programs with simulations

`simulate(circuit, mixed_state, little_endian)` (simulator.pyx 133-173, 208-250) operation by operation, with what is left if it raises an exception: the bits and the
records of measurements are set while it runs, `circuit.state` at the end. Together with `circuit.set_state`, `circuit.state` and `circuit.density_matrix` (circuit.py
243-292) and the calls of `Model/Program.lean` this gives programs.

Simplifications, in addition to those of `Model/World.lean` and `Model/Simulator.lean`: classes with the names of the classes of operations.py are these classes; all
other classes are of kind `opaque`; the random numbers are an argument of the simulation; arrays are values.
-/

noncomputable section

namespace DG

/-- The state of a program: objects; the attributes `_state` and `_density_matrix` of circuits (circuit.py 89-90); `_measured_state` and `_measured_qubit_indices` of
measurements (base.py 665-667). -/
structure Sess where
  w : World ℝ := {}
  slots : Nat → StateSlot := fun _ => {}
  records : Nat → Sim.Record := fun _ => {}

/-- Computations that can raise exceptions. -/
def Ses (α : Type) := Sess → Except Err α × Sess

namespace Ses
variable {α β : Type}

/-- The computation that returns `a`. -/
protected def pure (a : α) : Ses α := fun s => (.ok a, s)

/-- Sequencing; an exception ends the computation and keeps the state. -/
protected def bind (m : Ses α) (f : α → Ses β) : Ses β := fun s =>
  match m s with
  | (.error e, s1) => (.error e, s1)
  | (.ok a, s1) => f a s1

instance : Monad Ses where
  pure := Ses.pure
  bind := Ses.bind

/-- A computation on the objects. -/
def ofM (m : M ℝ α) : Ses α := fun s => ((m s.w).1, { s with w := (m s.w).2 })

/-- A value or an exception. -/
def lift (r : Except Err α) : Ses α := fun s => (r, s)

end Ses

namespace Run

/-- Local variables of a simulation: the array, and the number of random numbers drawn. -/
structure Local where
  mem : List ℂ
  drawn : Nat

/-- `op.bits[idx].set(m, force=True)` with the `except` clause (simulator.pyx 214-217). -/
def store (bits : Option (List Nat)) (idx : Nat) (m : Int) (w : World ℝ) : World ℝ :=
  match bits with
  | none => w
  | some bs => match bs[idx]? with
    | none => w
    | some b => (setBit b (decide (m ≠ 0)) true w).2

/-- The loop of `_measure` (simulator.pyx 211-219). -/
def measureQubits (u : Nat → ℝ) (op : Sim.SOp) : List Nat → Nat → Local → Ses Local
  | [], _, l => pure l
  | t :: ts, idx, l => fun s =>
    match Sim.sampleQubit t l.mem (u l.drawn) true false with
    | .error e => (.error e, s)
    | .ok (m, mem) => measureQubits u op ts (idx + 1) ⟨mem, l.drawn + 1⟩
        { s with w := store op.bits idx m s.w,
                 records := Function.update s.records op.oid { s.records op.oid with indices := (s.records op.oid).indices ++ [t] } }

/-- `op._measured_state = state.copy()` (simulator.pyx 209). -/
def recordState (o : Nat) (l : Local) (s : Sess) : Sess :=
  { s with records := Function.update s.records o { s.records o with state := some l.mem } }

/-- `apply_instruction` (simulator.pyx 44-130). `noContext`: the operation is a controlled one with parameters, whose target operation cannot be built in a context
(simulator.pyx 94, base.py 191-192). Gates only change the array, which is dropped if an exception is raised. -/
def instruction (u : Nat → ℝ) (n : Nat) (op : Sim.SOp) (noContext : Bool) (targets : List Nat) (littleEndian conjugate : Bool) (l : Local) : Ses Local := fun s =>
  if Sim.isBlocked op (bitValues s.w) then (.ok l, s)
  else match op.kind with
    | .measurement =>
      if littleEndian then (.error .circuitError, s)
      else measureQubits u op targets 0 l (recordState op.oid l s)
    | _ =>
      if s.w.active.isSome && noContext then (.error .typeError, s)
      else match Sim.applyInstruction u n op targets littleEndian conjugate ⟨l.mem, bitValues s.w, l.drawn, s.records⟩ with
        | .error e => (.error e, s)
        | .ok v => (.ok ⟨v.mem, l.drawn⟩, s)

/-- The class of operation `o` is a controlled one with parameters. -/
def noContext (w : World ℝ) (o : Nat) : Bool := needsNoContext w [o]

/-- The loop of the simulation of a state vector (simulator.pyx 169-171). -/
def vectorLoop (u : Nat → ℝ) (qs : List Nat) (littleEndian : Bool) : List Nat → Local → Ses Local
  | [], l => pure l
  | o :: os, l => fun s =>
    match op s.w o with
    | .error e => (.error e, s)
    | .ok p => match Sim.targetsOf ⟨qs, []⟩ p with
      | .error e => (.error e, s)
      | .ok ts => (instruction u qs.length p (noContext s.w o) ts littleEndian false l >>= fun l1 => vectorLoop u qs littleEndian os l1) s

/-- Is operation `o` a measurement? -/
def isMeasurement (w : World ℝ) (o : Nat) : Bool :=
  match w.ops[o]? with
  | none => false
  | some p => match w.classes[p.cls]? with
    | none => false
    | some k => decide (k.kind = .measurement)

/-- The loop of the simulation of a density matrix (simulator.pyx 233-247). A measurement records the array and then raises `TypeError`, because circuits are not
iterable (simulator.pyx 209-211, 235). -/
def densityLoop (u : Nat → ℝ) (qs : List Nat) : List Nat → Local → Ses Local
  | [], l => pure l
  | o :: os, l => fun s =>
    if isMeasurement s.w o then (.error .typeError, recordState o l s)
    else match op s.w o with
    | .error e => (.error e, s)
    | .ok p => match Sim.targetsOf ⟨qs, []⟩ p with
      | .error e => (.error e, s)
      | .ok ts => (instruction u (2 * qs.length) p (noContext s.w o) ts false false l >>= fun l1 =>
          instruction u (2 * qs.length) p (noContext s.w o) (ts.map (· + qs.length)) false true l1 >>= fun l2 => densityLoop u qs os l2) s

/-- An array with one dimension. -/
def vector (v : List ℂ) : NDArr := ⟨[v.length], v, by simp⟩

/-- `state.reshape((k, k))` (simulator.pyx 248): `ValueError` if the sizes do not agree. -/
def square (k : Nat) (v : List ℂ) : Except Err NDArr :=
  if h : v.length = k * k then .ok ⟨[k, k], v, by simp [h]⟩ else .error .valueError

end Run

/-- `list(circuit.qubits)`. -/
def qubitList (c : Nat) : Ses (List Nat) := do
  let r ← Ses.ofM (qubitsOf c)
  let items ← Ses.lift r.cy.iter
  Ses.lift (Run.qubits items)

/-- `circuit.set_state(state, force, normalize)` (circuit.py 257-283). -/
def setStateCirc (c : Nat) (a : NDArr) (force normalize : Bool) : Ses Unit := fun s =>
  if !force && ((s.slots c).state.isSome || (s.slots c).dm.isSome) then (.error .circuitError, s)
  else match qubitList c s with
    | (.error e, s1) => (.error e, s1)
    | (.ok qs, s1) =>
      let r := StateSlot.setState qs.length a force normalize (s1.slots c)
      (r.1, { s1 with slots := Function.update s1.slots c r.2 })

/-- `simulate(circuit, mixed_state, little_endian)` (simulator.pyx 133-173) with the random numbers `u`. -/
def simulateSes (u : Nat → ℝ) (c : Nat) (mixed littleEndian : Bool) : Ses Unit := do
  let qs ← qubitList c
  if qs = [] then pure ()
  else do
    let C ← Ses.ofM (circ c)
    if mixed then do
      let l ← Run.densityLoop u qs C.ops ⟨Sim.initialState (2 * qs.length), 0⟩
      let a ← Ses.lift (Run.square (1 <<< qs.length) l.mem)
      setStateCirc c a true false
    else do
      let l ← Run.vectorLoop u qs littleEndian C.ops ⟨Sim.initialState qs.length, 0⟩
      setStateCirc c (Run.vector l.mem) true false

/-- `circuit.density_matrix` (circuit.py 250-255), which is stored when it is computed. -/
def readDmCirc (c : Nat) : Ses Unit := fun s => (.ok (), { s with slots := Function.update s.slots c (s.slots c).getDm.2 })

/-- Programs with simulations. -/
inductive SProg
  | skip
  | call (e : Call ℝ)
  /-- `simulate(c, mixed_state, little_endian)` -/
  | simulate (u : Nat → ℝ) (c : Nat) (mixed littleEndian : Bool)
  /-- `c.set_state(a, force, normalize)` -/
  | setState (c : Nat) (a : NDArr) (force normalize : Bool)
  /-- `c.density_matrix` -/
  | readDm (c : Nat)
  | seq (p q : SProg)
  | withCtx (c : Nat) (p : SProg)
  | withFreeze (p : SProg)
  | attempt (p : SProg)

/-- A `with` statement, as `withStmt` in `Model/Program.lean`. -/
def withSes {α : Type} (enter : M ℝ α) (body : Ses Unit) (exit : α → M ℝ Unit) : Ses Unit := fun s =>
  match enter s.w with
  | (.error e, w1) => (.error e, { s with w := w1 })
  | (.ok a, w1) =>
    let r := body { s with w := w1 }
    match exit a r.2.w with
    | (.error e, w3) => (.error e, { r.2 with w := w3 })
    | (.ok _, w3) => (r.1, { r.2 with w := w3 })

/-- Execution of a program. -/
def SProg.run : SProg → Ses Unit
  | .skip => pure ()
  | .call e => .ofM (execCall e)
  | .simulate u c m le => simulateSes u c m le
  | .setState c a f n => setStateCirc c a f n
  | .readDm c => readDmCirc c
  | .seq p q => do p.run; q.run
  | .withCtx c p => withSes (openCtx c) p.run exitCtx
  | .withFreeze p => withSes freezeEnter p.run fun _ => freezeExit
  | .attempt p => fun s => (.ok (), (p.run s).2)

end DG
