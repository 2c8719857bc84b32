import Verif.Spec.Gates
import Verif.Model.Simulator

/-!
# Specification of circuit simulation

The only parts of the model used here are the types of circuits (`SCircuit`, `SOp`, `Kind`) and, through `GateAct`, the
matrices of the operations.
-/

noncomputable section

namespace DG.Spec
open Complex DG.Sim

/-- The state |0...0>. -/
def zeroState (n : Nat) : State n ℂ := fun x => if x = fun _ => false then 1 else 0

/-! ## Measurement of a qubit -/

/-- Probability that qubit `t` is found in state `m`. -/
def born {n : Nat} (t : Fin n) (m : Bool) (ψ : State n ℂ) : ℝ := ∑ x, if x t = m then Complex.normSq (ψ x) else 0

/-- The state after qubit `t` was found in state `m`: the normalised projection. -/
def project {n : Nat} (t : Fin n) (m : Bool) (ψ : State n ℂ) : State n ℂ :=
  fun x => if x t = m then ((1 / Real.sqrt (born t m ψ) : ℝ) : ℂ) * ψ x else 0

/-- The outcome selected by the random number `u`: 0 iff `u` is below the probability of 0. -/
def outcome {n : Nat} (t : Fin n) (ψ : State n ℂ) (u : ℝ) : Bool := open Classical in if u < born t false ψ then false else true

/-- Measurement of several qubits one after the other, using the random numbers from number `k` on: outcomes and state. -/
def measureAll {n : Nat} (u : Nat → ℝ) : List (Fin n) → Nat → State n ℂ → List Bool × State n ℂ
  | [], _, ψ => ([], ψ)
  | t :: ts, k, ψ =>
    let m := outcome t ψ (u k)
    let r := measureAll u ts (k + 1) (project t m ψ)
    (m :: r.1, r.2)

/-- Writing outcomes to bits, one after the other. -/
def writeBits (vals : Nat → Option Bool) : List (Nat × Bool) → Nat → Option Bool
  | [] => vals
  | (b, m) :: rest => writeBits (Function.update vals b (some m)) rest

/-! ## Circuits -/

/-- Gates of the library that the simulator knows, with numeric parameters. -/
def Supported : Kind → Prop
  | .single b => Library b
  | .controlled nc b => nc = 1 ∧ Library b
  | .swap => True
  | .cswap => True
  | .ccx => True
  | _ => False

/-- Number of qubits of a gate. -/
def arity : Kind → Nat
  | .single _ => 1
  | .controlled nc _ => nc + 1
  | .swap => 2
  | .cswap => 3
  | .ccx => 3
  | _ => 0

/-- A gate of the library on the right number of distinct qubits of the circuit. -/
def GateOp (c : SCircuit) (op : SOp) : Prop :=
  Supported op.kind ∧ op.qubits.length = arity op.kind ∧ op.qubits.Nodup ∧ ∀ q ∈ op.qubits, q ∈ c.qubits

/-- A measurement of (any number of) qubits of the circuit. -/
def MeasureOp (c : SCircuit) (op : SOp) : Prop :=
  op.kind = .measurement ∧ ∀ q ∈ op.qubits, q ∈ c.qubits

/-- Between 1 and 30 different qubits. -/
def GoodQubits (c : SCircuit) : Prop := c.qubits.Nodup ∧ 1 ≤ c.qubits.length ∧ c.qubits.length ≤ 30

/-- State of a simulation: quantum state, values of the bits, random numbers used. -/
structure SimState (n : Nat) where
  ψ : State n ℂ
  bits : Nat → Option Bool
  drawn : Nat

/-- A condition bit of the operation has value 0. -/
def Blocked (op : SOp) (bits : Nat → Option Bool) : Prop := ∃ bs b, op.cond = some bs ∧ b ∈ bs ∧ bits b = some false

/-- Qubit number `i` of the circuit. -/
def qubitAt (c : SCircuit) (i : Fin c.qubits.length) : Nat := c.qubits[i]

/-- Textbook semantics of one operation. -/
inductive Step (c : SCircuit) (u : Nat → ℝ) : SOp → SimState c.qubits.length → SimState c.qubits.length → Prop
  | blocked {op s} : Blocked op s.bits → Step c u op s s
  | gate {op s} {ts : List (Fin c.qubits.length)} {f} : ¬ Blocked op s.bits → op.qubits = ts.map (qubitAt c) →
      GateAct op.kind ts f → Step c u op s { s with ψ := f s.ψ }
  | measure {op s} {ts : List (Fin c.qubits.length)} : ¬ Blocked op s.bits → op.kind = .measurement →
      op.qubits = ts.map (qubitAt c) →
      Step c u op s
        { ψ := (measureAll u ts s.drawn s.ψ).2
          bits := writeBits s.bits ((op.bits.getD []).zip (measureAll u ts s.drawn s.ψ).1)
          drawn := s.drawn + ts.length }

/-- Semantics of a sequence of operations. -/
inductive Exec (c : SCircuit) (u : Nat → ℝ) : List SOp → SimState c.qubits.length → SimState c.qubits.length → Prop
  | nil {s} : Exec c u [] s s
  | cons {op ops s s' s''} : Step c u op s s' → Exec c u ops s' s'' → Exec c u (op :: ops) s s''

/-- Every condition bit of the operations is in `D` or was written before by an unconditional measurement. -/
inductive ReadsWritten : Set Nat → List SOp → Prop
  | nil {D} : ReadsWritten D []
  | cons {D op ops} : (∀ bs, op.cond = some bs → ∀ b ∈ bs, b ∈ D) →
      ReadsWritten (D ∪ { b | op.kind = .measurement ∧ op.cond = none ∧ b ∈ (op.bits.getD []).take op.qubits.length }) ops →
      ReadsWritten D (op :: ops)

end DG.Spec
