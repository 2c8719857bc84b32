import Verif.Spec.Simulation

/-! What circuits of classical gates compute: every qubit has a value 0 or 1. -/

noncomputable section

namespace DG.Spec
open DG.Sim

/-- Gates on one qubit that send 0 and 1 to 0 or 1, up to a phase. -/
def ClassicalGate : Base → Prop
  | .identity | .x | .y | .z | .s | .t | .rz _ => True
  | _ => False

/-- Operations that send values of the qubits to values of the qubits, up to a phase. -/
def ClassicalOp (op : SOp) : Prop :=
  match op.kind with
  | .single b => ClassicalGate b
  | .controlled _ b => ClassicalGate b
  | _ => True

/-- Operations without a phase. -/
def NoPhase (op : SOp) : Prop :=
  match op.kind with
  | .single b => b = .identity ∨ b = .x
  | .controlled _ b => b = .identity ∨ b = .x
  | _ => True

/-- Gates that exchange 0 and 1. -/
def flips : Base → Bool
  | .x | .y => true
  | _ => false

/-- The values of the qubits after a gate. -/
def classicalAct (kind : Kind) (qubits : List Nat) (x : Nat → Bool) : Nat → Bool :=
  match kind, qubits with
  | .single b, [q] => Function.update x q (x q ^^ flips b)
  | .controlled _ b, [c, q] => Function.update x q (x q ^^ (x c && flips b))
  | .swap, [a, b] => Function.update (Function.update x a (x b)) b (x a)
  | .cswap, [c, a, b] => if x c then Function.update (Function.update x a (x b)) b (x a) else x
  | .ccx, [c, c', q] => Function.update x q (x q ^^ (x c && x c'))
  | _, _ => x

/-- Values of the qubits and of the bits. -/
structure Values where
  qubits : Nat → Bool
  bits : Nat → Option Bool

/-- The values after an operation. -/
def classicalStep (s : Values) (op : SOp) : Values := open Classical in
  if Blocked op s.bits then s
  else
    { qubits := classicalAct op.kind op.qubits s.qubits
      bits := if op.kind = .measurement then writeBits s.bits ((op.bits.getD []).zip (op.qubits.map s.qubits)) else s.bits }

/-- The values after the operations, if all qubits have the value 0 at the beginning. -/
def classicalRun (ops : List SOp) (bits : Nat → Option Bool) : Values := ops.foldl classicalStep ⟨fun _ => false, bits⟩

end DG.Spec
