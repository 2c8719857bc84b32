import Verif.Spec.Program

/-!
# Well-formed operations
-/

namespace DG.Spec
variable {K : Type}

/-- What is true of an operation `op` of class `k`, whatever was done with it: the measured bits are those of a measurement and as many as `num_qubits`,
and the number of parameters is that of the class. -/
structure Furnished (k : OpCls) (op : OpObj K) : Prop where
  bits : ∀ l, op.bits = some l → k.kind = .measurement ∧ op.numQubits = some l.length
  params : if k.kind.isParametric then some op.params.length = k.numParams else op.params = []
  uncontrolled : k.kind ≠ .controlled → k.kind ≠ .pcontrolled → op.control = none ∧ op.target = none

/-- The operands of operation `op` of class `k` agree with each other: `num_qubits` is the number of its qubits, and the qubits of a controlled operation
are its control qubits followed by its target qubits. -/
structure Aligned (k : OpCls) (op : OpObj K) : Prop where
  number : op.numQubits = op.qubits.map List.length
  halves : (k.kind = .controlled ∨ k.kind = .pcontrolled) → k.ar.numControl ≠ none → ∀ qs, op.qubits = some qs →
    ∃ c t, op.control = some c ∧ op.target = some t ∧ qs = c ++ t

end DG.Spec
