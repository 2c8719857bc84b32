import Verif.Model.Custom
import Verif.Spec.Matrix
import Verif.Spec.Simulation

/-! What a user expects of an operation made from a circuit with one qubit: using it on a qubit is the same as applying the operations of the
circuit, with the values of the parameters, to that qubit, one after the other and under the same condition. -/

noncomputable section

namespace DG.Spec
open DG.Sim DG.Unitary DG.Custom

/-- `ops` are the operations of the circuit of the custom operation, with the values of the parameters: variable number `i`, in order of use, has the value
of parameter number `i`, and every variable is used once. -/
inductive WithValues (op : CustomOp) : List UOp → Prop
  | plain : op.parametric = false → WithValues op op.circuit.ops
  | parametric (σ : Nat → ℝ) : op.parametric = true → (op.circuit.ops.flatMap opVars).map σ = op.params →
      WithValues op (op.circuit.ops.map (substOp σ))

/-- The custom operation stands for the operations `L`. -/
inductive StandsFor (op : CustomOp) : List SOp → Prop
  | mk (q p : Nat) (ops : List UOp) : op.qubits = [q] → op.classQubits = 1 → op.circuit.qubits = [p] → WithValues op ops → ops ≠ [] →
      (∀ o ∈ ops, o.qubits = [p] ∧ o.cond = none ∧ ∃ b, o.kind = .single b ∧ Library b) →
      StandsFor op (ops.map fun o => { oid := o.oid, kind := o.kind, qubits := [q], cond := op.cond })

/-- The operations that take the place of an operation. -/
inductive Inlines : Instr → List SOp → Prop
  | lib (op : SOp) : Inlines (.lib op) [op]
  | custom {op : CustomOp} {L : List SOp} : StandsFor op L → Inlines (.custom op) L

end DG.Spec
