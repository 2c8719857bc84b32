import Verif.Spec.Gates
import Verif.Model.Unitary

/-!
# What a matrix means
-/

noncomputable section

namespace DG.Spec
open Unitary

/-- The square array `M` is the matrix of the linear map `f` on `n` qubits: row and column numbers are the indices of basis
states with qubit 0 as the most significant bit. -/
def ActsAs (n : Nat) (M : NMat) (f : State n ℂ → State n ℂ) : Prop :=
  M.dim = 2 ^ n ∧ ∀ ψ x, f ψ x = ∑ y : Basis n, M.e (index false x) (index false y) * ψ y

/-- The matrix `M` on `k` qubits, applied to the qubits `ts` of a larger system: the new amplitude of `x` is the sum over all
values `y` of the qubits `ts`. -/
def applyMatrix {n k : Nat} (ts : Fin k → Fin n) (M : NMat) (ψ : State n ℂ) : State n ℂ :=
  fun x => ∑ y : Basis k, M.e (index false (x ∘ ts)) (index false y) *
    ψ (fun q => if h : ∃ i, ts i = q then y h.choose else x q)

/-- The array as a mathematical matrix. -/
def NMat.toMatrix (M : NMat) : Matrix (Fin M.dim) (Fin M.dim) ℂ := fun i j => M.e i j

/-! ## Circuits -/

open Sim

/-- The operation takes parameters. -/
def Parametric : Base → Prop
  | .rx _ => True
  | .ry _ => True
  | .rz _ => True
  | .rotation _ _ _ => True
  | _ => False

/-- Meaning of the operations that `build_unitary` documents: single-qubit gates and non-parametric controlled gates with any
number of controls and one target, on distinct qubits of the circuit. -/
inductive Means (c : UCircuit) : UOp → (State c.qubits.length ℂ → State c.qubits.length ℂ) → Prop
  | single {op b a} (t : Fin c.qubits.length) : op.kind = .single b → b.matrix = .ok a → op.qubits = [c.qubits[t]] →
      Means c op (applyGate t (gateOf a))
  | controlled {op nc b a} (cs : List (Fin c.qubits.length)) (t : Fin c.qubits.length) : op.kind = .controlled nc b →
      ¬ Parametric b → b.matrix = .ok a → cs.Nodup → t ∉ cs →
      op.control = cs.map (fun i => c.qubits[i]) → op.target = [c.qubits[t]] →
      Means c op (applyControlled cs t (gateOf a))

/-- Meaning of a sequence of operations: the first one is applied first. -/
inductive Composed (c : UCircuit) : List UOp → (State c.qubits.length ℂ → State c.qubits.length ℂ) → Prop
  | nil : Composed c [] id
  | cons {op ops f g} : Means c op f → Composed c ops g → Composed c (op :: ops) (g ∘ f)

/-! ## Parameters -/

/-- Replace variables by numbers. -/
def substParam (σ : Nat → ℝ) : Param → Param
  | .num x => .num x
  | .var v => .num (σ v)

/-- Replace the variables in the parameters of a single-qubit operation. -/
def substBase (σ : Nat → ℝ) : Base → Base
  | .rx p => .rx (substParam σ p)
  | .ry p => .ry (substParam σ p)
  | .rz p => .rz (substParam σ p)
  | .rotation b g d => .rotation (substParam σ b) (substParam σ g) (substParam σ d)
  | b => b

/-- Replace the variables in an operation. -/
def substOp (σ : Nat → ℝ) (op : UOp) : UOp :=
  { op with kind := match op.kind with
      | .single b => .single (substBase σ b)
      | .controlled nc b => .controlled nc (substBase σ b)
      | k => k }

/-- The variables among parameters. -/
def paramVars (ps : List Param) : List Nat := ps.filterMap fun | .num _ => none | .var v => some v

/-- The variables of a single-qubit operation, in order. -/
def baseVars : Base → List Nat
  | .rx p => paramVars [p]
  | .ry p => paramVars [p]
  | .rz p => paramVars [p]
  | .rotation b g d => paramVars [b, g, d]
  | _ => []

/-- The variables of an operation, in order. -/
def opVars (op : UOp) : List Nat :=
  match op.kind with
  | .single b => baseVars b
  | .controlled _ b => baseVars b
  | _ => []

/-- Rename the variables of a parameter. -/
def renameParam (ρ : Nat → Nat) : Param → Param
  | .num x => .num x
  | .var v => .var (ρ v)

/-- Rename the variables in the parameters of a single-qubit operation. -/
def renameBase (ρ : Nat → Nat) : Base → Base
  | .rx p => .rx (renameParam ρ p)
  | .ry p => .ry (renameParam ρ p)
  | .rz p => .rz (renameParam ρ p)
  | .rotation b g d => .rotation (renameParam ρ b) (renameParam ρ g) (renameParam ρ d)
  | b => b

/-- Rename the variables in an operation. -/
def renameOp (ρ : Nat → Nat) (op : UOp) : UOp :=
  { op with kind := match op.kind with
      | .single b => .single (renameBase ρ b)
      | .controlled nc b => .controlled nc (renameBase ρ b)
      | k => k }

/-- `ops'` is `ops` with the occurrences of variables told apart: they are numbered from 0 in the order in which they occur. -/
def Numbered (ops ops' : List UOp) : Prop :=
  ops'.flatMap opVars = List.range (ops.flatMap opVars).length ∧
    ops'.map (renameOp fun i => (ops.flatMap opVars)[i]?.getD 0) = ops

/-- The operation is placed on qubits of the circuit the way its class demands: a single-qubit gate on one of them, a
controlled gate on distinct ones with one target, any other operation on at least one of them. -/
inductive Placed (c : UCircuit) : UOp → Prop
  | single {op b} (t : Fin c.qubits.length) : op.kind = .single b → op.qubits = [c.qubits[t]] → Placed c op
  | controlled {op nc b} (cs : List (Fin c.qubits.length)) (t : Fin c.qubits.length) : op.kind = .controlled nc b → cs.Nodup →
      t ∉ cs → op.control = cs.map (fun i => c.qubits[i]) → op.target = [c.qubits[t]] → Placed c op
  | other {op} (t : Fin c.qubits.length) (rest : List Nat) : op.kind ∈ [Kind.swap, .cswap, .ccx, .measurement, .barrier, .opaque] →
      op.qubits = c.qubits[t] :: rest → Placed c op

/-- The operations `build_unitary` cannot handle, with the exception they cause: gates with an unset variable,
controlled parametric gates, measurements, barriers and operations without a matrix cause a `TypeError`; gates on
several qubits that are not of the controlled kind a `ValueError`. -/
inductive Unsupported : Kind → Err → Prop
  | variable {b} : baseVars b ≠ [] → Unsupported (.single b) .typeError
  | parametric {nc b} : Parametric b → Unsupported (.controlled nc b) .typeError
  | swap : Unsupported .swap .valueError
  | cswap : Unsupported .cswap .valueError
  | ccx : Unsupported .ccx .valueError
  | measurement : Unsupported .measurement .typeError
  | barrier : Unsupported .barrier .typeError
  | opaque : Unsupported .opaque .typeError

/-! ## Textbook gates -/

def pauliX : Matrix (Fin 2) (Fin 2) ℂ := !![0, 1; 1, 0]
def pauliY : Matrix (Fin 2) (Fin 2) ℂ := !![0, -Complex.I; Complex.I, 0]
def pauliZ : Matrix (Fin 2) (Fin 2) ℂ := !![1, 0; 0, -1]

end DG.Spec
