import Verif.Model.DirectRegs
import Verif.Spec.Circuit

/-! # Specification for C121: histories in which registers of a circuit are also used directly -/

namespace DG.Spec

/-- The item is in one of the registers (`any(q in r for r in circuit.qregisters.values())`). -/
def InRegs (b : Bank) (k : Nat) : Prop := ∃ p ∈ b.regs, p.2.cy.count (.obj k) = true

/-- The number of the next new object is larger than those of all objects in the registers. -/
def Unused (b : Bank) (fresh : Nat) : Prop := ∀ k, InRegs b k → k < fresh

/-- Histories of a circuit's registers, where qubits are added by `add_qregister`, by `add_qubit`, or directly to a register, and `circuit.qubits` is read at any time.  A
user is careful: no qubit is added that is already in a register. -/
inductive Careful : Bank → Prop
  | new : Careful {}
  | addRegister {b : Bank} (n : Int) (label : Option RLabel) {fresh : Nat} : Careful b → Unused b fresh → Careful (b.addRegister qubitEnv "qreg" n label fresh).2
  | addQubit {b : Bank} (given : Option Nat) (label : Option RLabel) {fresh : Nat} : Careful b → Unused b fresh → (∀ k, given = some k → ¬ InRegs b k) →
      Careful (b.addItem qubitEnv "qreg" (given.map fun k => (k, true)) label fresh).2
  | direct {b : Bank} (label : RLabel) (k : Nat) : Careful b → ¬ InRegs b k → Careful (b.directAdd qubitEnv label k).2
  | read {b : Bank} : Careful b → Careful (b.flat qubitEnv).2

end DG.Spec
