import Verif.Model.Run
import Verif.Spec.Simulation
import Verif.Spec.Program

/-!
# Specification of the simulation of circuits built by a program
-/

noncomputable section

namespace DG.Spec
open DG.Sim

/-- The gates of the library: the name and base class of the operation class, the parameters, and the gate. -/
inductive GateNamed : String → OpKind → List ℝ → Kind → Prop
  | identity : GateNamed "Identity" .plain [] (.single .identity)
  | x : GateNamed "X" .plain [] (.single .x)
  | y : GateNamed "Y" .plain [] (.single .y)
  | z : GateNamed "Z" .plain [] (.single .z)
  | hadamard : GateNamed "Hadamard" .plain [] (.single .hadamard)
  | s : GateNamed "S" .plain [] (.single .s)
  | t : GateNamed "T" .plain [] (.single .t)
  | rx (a : ℝ) : GateNamed "RX" .parametric [a] (.single (.rx (.num a)))
  | ry (a : ℝ) : GateNamed "RY" .parametric [a] (.single (.ry (.num a)))
  | rz (a : ℝ) : GateNamed "RZ" .parametric [a] (.single (.rz (.num a)))
  | rotation (a b c : ℝ) : GateNamed "Rotation" .parametric [a, b, c] (.single (.rotation (.num a) (.num b) (.num c)))
  | cx : GateNamed "CX" .controlled [] (.controlled 1 .x)
  | cy : GateNamed "CY" .controlled [] (.controlled 1 .y)
  | cz : GateNamed "CZ" .controlled [] (.controlled 1 .z)
  | chadamard : GateNamed "CHadamard" .controlled [] (.controlled 1 .hadamard)
  | crx (a : ℝ) : GateNamed "CRX" .pcontrolled [a] (.controlled 1 (.rx (.num a)))
  | cry (a : ℝ) : GateNamed "CRY" .pcontrolled [a] (.controlled 1 (.ry (.num a)))
  | crz (a : ℝ) : GateNamed "CRZ" .pcontrolled [a] (.controlled 1 (.rz (.num a)))
  | crotation (a b c : ℝ) : GateNamed "CRotation" .pcontrolled [a, b, c] (.controlled 1 (.rotation (.num a) (.num b) (.num c)))
  | swap : GateNamed "SWAP" .plain [] .swap
  | cswap : GateNamed "CSWAP" .plain [] .cswap
  | ccx : GateNamed "CCX" .plain [] .ccx

/-- Operation object `o` is the gate or measurement `s` of the library: the same qubits, condition and bits. Classes of controlled gates have one
control. -/
def Reads (w : World ℝ) (o : Nat) (s : SOp) : Prop :=
  ∃ (op : OpObj ℝ) (k : OpCls), w.ops[o]? = some op ∧ w.classes[op.cls]? = some k ∧ s.oid = o ∧ op.qubits = some s.qubits ∧ s.cond = op.cond ∧
    s.bits = op.bits ∧
    ((k.kind = .measurement ∧ s.kind = .measurement) ∨
      ∃ xs, op.params = xs.map OpParam.num ∧ GateNamed k.name k.kind xs s.kind ∧ ((k.kind = .controlled ∨ k.kind = .pcontrolled) → k.ar.numControl = some 1))

/-- The gate acts on as many qubits as it needs, all different. -/
def GoodOperands (s : SOp) : Prop := s.kind = .measurement ∨ (s.qubits.length = arity s.kind ∧ s.qubits.Nodup)

/-- One of the operations is a controlled gate with parameters. -/
def NeedsNoContext (w : World ℝ) (os : List Nat) : Prop :=
  ∃ o ∈ os, ∃ (op : OpObj ℝ) (k : OpCls), w.ops[o]? = some op ∧ w.classes[op.cls]? = some k ∧ k.kind = .pcontrolled

/-- The value of a bit. -/
def bitValue (w : World ℝ) (b : Nat) : Option Bool :=
  match w.bits[b]? with
  | some x => x.value.map fun v => decide (v ≠ 0)
  | none => none

/-- The bits of `w`, with these values. -/
def withValues (w : World ℝ) (vals : Nat → Option Bool) : List BitObj :=
  w.bits.mapIdx fun i b => { b with value := (vals i).map fun v => if v then 1 else 0 }

end DG.Spec
