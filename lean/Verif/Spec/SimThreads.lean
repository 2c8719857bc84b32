import Verif.Model.SimThreads
import Verif.Spec.Simulation

/-! Which simulations have nothing to do with each other. -/

noncomputable section

namespace DG.Spec
open DG.Sim

/-- The bits a simulation can set: those of its measurements. -/
def Sets (c : SCircuit) (b : Nat) : Prop := ∃ op ∈ c.ops, op.kind = .measurement ∧ ∃ bs, op.bits = some bs ∧ b ∈ bs

/-- The bits a simulation depends on: those of the conditions of its operations. -/
def Tests (c : SCircuit) (b : Nat) : Prop := ∃ op ∈ c.ops, ∃ bs, op.cond = some bs ∧ b ∈ bs

/-- The measurements of a circuit. -/
def OwnsMeasurement (c : SCircuit) (o : Nat) : Prop := ∃ op ∈ c.ops, op.kind = .measurement ∧ op.oid = o

/-- Simulations of different circuits that have no measurement in common, and none of which sets a bit that the other one sets or tests. -/
def Separate (jobs : Nat → Job) : Prop := ∀ i k, i ≠ k → (jobs i).cid ≠ (jobs k).cid ∧
  (∀ o, OwnsMeasurement (jobs i).circuit o → ¬ OwnsMeasurement (jobs k).circuit o) ∧
  ∀ b, Sets (jobs i).circuit b → ¬ Sets (jobs k).circuit b ∧ ¬ Tests (jobs k).circuit b

/-- The simulation has returned or raised. -/
def Ended : Phase → Prop
  | .finished => True
  | .raised _ => True
  | _ => False

/-- The shared objects that belong to a simulation are those of the result `w`: state of the circuit, bits it sets or tests, records of its measurements. -/
def HasResult (j : Job) (sh : Shared) (w : World) : Prop :=
  sh.states j.cid = some w.mem ∧ (∀ b, Sets j.circuit b ∨ Tests j.circuit b → sh.bits b = w.bits b) ∧
    ∀ o, OwnsMeasurement j.circuit o → sh.records o = w.records o

end DG.Spec
