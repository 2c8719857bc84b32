import Verif.Model.Interrupt
import Verif.Spec.Program

/-! Interrupts: vocabulary of the properties. -/

namespace DG
variable {K : Type}

/-- The calls that add qubits, bits or registers: `add_qubit`, `add_bit`, `add_qregister`, `add_cregister`. -/
def Call.Adds : Call K → Prop
  | .addQubit .. | .addBit .. | .addQReg .. | .addCReg .. => True
  | _ => False

/-- The calls that remove no operations: all but `remove` and `reset`. -/
def Call.Appends : Call K → Prop
  | .remove .. | .reset .. => False
  | _ => True

namespace Spec

/-- The states that occur in executions, with any number of interrupts, of programs all of whose calls satisfy `A`, started without any objects; only
calls in `I` are interrupted in the middle, and `__enter__` and `__exit__` of contexts only if `J`. (As an execution may be interrupted at any time, every
state that occurs is the last state of an execution.) -/
def ReachI [DecidableEq K] [Zero K] (A I : Call K → Prop) (J : Bool) (w : World K) : Prop := ∃ (p : Prog K) (r : Outcome), p.All A ∧ p.Exec I J {} r w

end Spec
end DG
