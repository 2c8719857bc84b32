import Verif.Spec.Matrix
import Verif.Spec.Identities

/-! What the unitaries of sequences of operations should satisfy (C117). -/

namespace DG.Spec
open DG.Sim DG.Unitary

/-- The two arrays have the same size and the same entries. -/
def SameMatrix (M N : NMat) : Prop := M.dim = N.dim ∧ ∀ i < M.dim, ∀ j < M.dim, M.e i j = N.e i j

/-- The operations are the given gates on the qubits `qs` of a circuit: a controlled gate with `k` controls has its controls first. -/
def FormedAs (qs : List Nat) (gates : List (Kind × List (Fin qs.length))) (ops : List UOp) : Prop :=
  List.Forall₂ (fun (op : UOp) g => op.kind = g.1 ∧ (op.qubits = g.2.map fun i => qs[i]) ∧
    ∀ k b, g.1 = .controlled k b → op.control ++ op.target = op.qubits ∧ op.control.length = k) ops gates

/-- `build_unitary` handles the operation. -/
def Buildable (k : Kind) : Prop := ∀ e, ¬ Unsupported k e

end DG.Spec
