import Verif.Spec.Eval
import Verif.Spec.Run

/-!
# Specification of the evaluation of circuits that are simulated
-/

noncomputable section

namespace DG.Spec
open Sim

/-- Operation object `o` at position `i` of a circuit is, after `circuit.eval(given)`, the gate or measurement `s` of the library. Operations with parameters
have no condition. Compare `Reads`. -/
def ReadsWith (w : World ℝ) (given : Option (List (List ℝ))) (i o : Nat) (s : SOp) : Prop :=
  ∃ (op : OpObj ℝ) (k : OpCls), w.ops[o]? = some op ∧ w.classes[op.cls]? = some k ∧ op.qubits = some s.qubits ∧ s.cond = op.cond ∧ s.bits = op.bits ∧
    ((k.kind = .measurement ∧ s.kind = .measurement) ∨
      ∃ xs, GateNamed k.name k.kind xs s.kind ∧ ((k.kind = .controlled ∨ k.kind = .pcontrolled) → k.ar.numControl = some 1) ∧
        if k.kind.isParametric then Replaced w.varVal (givenFor given i) op.params (xs.map OpParam.num) ∧ op.cond = none ∧ op.bits = none
        else op.params = [])

/-- The same gate or measurement, with bits `f 0`, `f 1`, … -/
def SameWithBits (f : Nat → Nat) (s s' : SOp) : Prop :=
  s'.kind = s.kind ∧ s'.qubits = s.qubits ∧ s'.cond = s.cond.map (fun l => l.map f) ∧ s'.bits = s.bits.map (fun l => l.map f)

end DG.Spec
