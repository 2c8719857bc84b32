import Verif.Model.DirectOps
import Verif.Spec.Program

/-! # Specification for C122: histories in which the lists of operations of circuits are also used directly -/

namespace DG.Spec
variable {K : Type} [DecidableEq K] [Zero K]

/-- The operation that a call on the list brings in. -/
def ListCall.brings : ListCall → Option Nat
  | .append o => some o
  | .insert _ o => some o
  | .assign _ o => some o
  | _ => none

/-- The operation exists and all its qubits are in `circuit.qubits`. -/
def Belongs (w : World K) (c o : Nat) : Prop :=
  ∃ op items, w.ops[o]? = some op ∧ seen (qubitsOf c w).1 = .ok items ∧ ∀ q ∈ op.qubits.getD [], Lbl.obj q ∈ items

/-- Histories of calls of the API that satisfy `A`, of contexts that are entered and left at any time, and of calls on the lists of operations.  A user is careful: what they put in a
list directly is an operation on qubits of that circuit. -/
inductive CarefulOps (A : Call K → Prop) : World K → Prop
  | start : CarefulOps A {}
  | call {w : World K} (e : Call K) : CarefulOps A w → A e → CarefulOps A (execCall e w).2
  | enter {w : World K} (c : Nat) : CarefulOps A w → CarefulOps A (openCtx c w).2
  | leave {w : World K} (x : Nat) : CarefulOps A w → CarefulOps A (exitCtx x w).2
  | freeze {w : World K} : CarefulOps A w → CarefulOps A (freezeEnter w).2
  | unfreeze {w : World K} : CarefulOps A w → CarefulOps A (freezeExit w).2
  | direct {w : World K} (c : Nat) (e : ListCall) : CarefulOps A w → (∀ o, ListCall.brings e = some o → Belongs w c o) → CarefulOps A (directOps c e w).2

end DG.Spec
