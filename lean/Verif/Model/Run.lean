import Verif.Model.Program
import Verif.Model.Simulator

/-!
# `simulate(circuit)` for circuits built by a program

Connects `Model/World.lean` with `Model/Simulator.lean`: the simulator reads `circuit.qubits`, the operations of the circuit and their classes,
and sets the bits (simulator.pyx 133-173).

Simplifications, in addition to those of the two files: classes with the names of the classes of operations.py are these classes; all
other classes are of kind `opaque`; an operation without qubits makes `simulate` raise `TypeError` (`for qb in None`) even if an earlier operation
would raise another exception, and so does a controlled operation with parameters in a context even if it is blocked; the state is returned instead of being stored in the circuit; if there is an exception the values of the bits stay
as they were.
-/

noncomputable section

namespace DG
namespace Run

/-- A parameter as seen by `matrix`. -/
def param : OpParam ℝ → Param
  | .num x => .num x
  | .var v => .var v

/-- The single-qubit operation with this name (operations.py 70-475). -/
def base (name : String) (ps : List Param) : Option Base :=
  match name, ps with
  | "Identity", [] => some .identity
  | "X", [] => some .x
  | "Y", [] => some .y
  | "Z", [] => some .z
  | "Hadamard", [] => some .hadamard
  | "S", [] => some .s
  | "T", [] => some .t
  | "RX", [p] => some (.rx p)
  | "RY", [p] => some (.ry p)
  | "RZ", [p] => some (.rz p)
  | "Rotation", [a, b, c] => some (.rotation a b c)
  | _, _ => none

/-- `_target_operation` (operations.py 483-718), by the names of the classes. -/
def target : String → Option String
  | "CX" => some "X"
  | "CY" => some "Y"
  | "CZ" => some "Z"
  | "CHadamard" => some "Hadamard"
  | "CRX" => some "RX"
  | "CRY" => some "RY"
  | "CRZ" => some "RZ"
  | "CRotation" => some "Rotation"
  | _ => none

/-- A controlled operation; `op.num_control` is the class attribute (simulator.pyx 90-117). -/
def controlled (k : OpCls) (ps : List Param) : Kind :=
  match target k.name with
  | none => .opaque
  | some t => match base t ps with
    | none => .opaque
    | some b => .controlled (k.ar.numControl.getD 0) b

/-- Which branch of `apply_instruction` an operation takes (simulator.pyx 53-130). -/
def kind (k : OpCls) (op : OpObj ℝ) : Kind :=
  match k.kind with
  | .measurement => .measurement
  | .controlled => controlled k (op.params.map param)
  | .pcontrolled => controlled k (op.params.map param)
  | _ => match k.name with
    | "SWAP" => .swap
    | "CSWAP" => .cswap
    | "CCX" => .ccx
    | "Barrier" => .barrier
    | name => match base name (op.params.map param) with
      | some b => .single b
      | none => .opaque

/-- An operation as the simulator sees it. -/
def op (w : World ℝ) (o : Nat) : Except Err Sim.SOp :=
  match w.ops[o]? with
  | none => .error .typeError
  | some op => match w.classes[op.cls]?, op.qubits with
    | some k, some qs => .ok { oid := o, kind := kind k op, qubits := qs, cond := op.cond, bits := op.bits }
    | _, _ => .error .typeError

/-- The operations of a circuit. -/
def ops (w : World ℝ) : List Nat → Except Err (List Sim.SOp)
  | [] => .ok []
  | o :: os => match op w o with
    | .error e => .error e
    | .ok s => match ops w os with
      | .error e => .error e
      | .ok l => .ok (s :: l)

/-- Is there a controlled operation with parameters? To build its target operation (simulator.pyx 94) fails in a context: qubits are required there
(base.py 191-192). -/
def needsNoContext (w : World ℝ) (os : List Nat) : Bool :=
  os.any fun o => match w.ops[o]? with
    | none => false
    | some op => match w.classes[op.cls]? with
      | none => false
      | some k => k.kind = .pcontrolled

/-- The qubits in `circuit.qubits`. -/
def qubits : List Lbl → Except Err (List Nat)
  | [] => .ok []
  | .int _ :: _ => .error .typeError
  | .obj q :: l => match qubits l with
    | .error e => .error e
    | .ok qs => .ok (q :: qs)

/-- `bit.value` (primitives.py 99-102); values are 0 and 1. -/
def bitValues (w : World ℝ) (b : Nat) : Option Bool :=
  match w.bits[b]? with
  | some x => x.value.map fun v => decide (v ≠ 0)
  | none => none

/-- New values of bits (simulator.pyx 215, primitives.py 122-135). -/
def storeValues (vals : Nat → Option Bool) (bits : List BitObj) : List BitObj :=
  bits.mapIdx fun i b => { b with value := (vals i).map fun v => if v then 1 else 0 }

end Run

/-- `simulate(circuit, little_endian=...)` (simulator.pyx 133-173) with the random numbers `u`; `records` are the attributes of measurements that
are not in `World`. The result: the state, which becomes `circuit.state`, and the new records; `none` for circuits without qubits. -/
def simulateCirc (u : Nat → ℝ) (c : Nat) (littleEndian : Bool) (records : Nat → Sim.Record) : M ℝ (Option (List ℂ × (Nat → Sim.Record))) := do
  let r ← qubitsOf c
  let C ← circ c
  let w ← M.read id
  match r.cy.iter with
  | .error e => M.raise e
  | .ok items => match Run.qubits items, Run.ops w C.ops with
    | .error e, _ => M.raise e
    | .ok [], _ => pure none
    | .ok _, .error e => M.raise e
    | .ok qs, .ok os =>
      if w.active.isSome && Run.needsNoContext w C.ops then M.raise .typeError
      else match Sim.simulate u ⟨qs, os⟩ littleEndian (Run.bitValues w) records with
      | .error e => M.raise e
      | .ok none => pure none
      | .ok (some s) => do
        M.write fun w => { w with bits := Run.storeValues s.bits w.bits }
        pure (some (s.mem, s.records))

end DG
