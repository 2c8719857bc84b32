import Verif.Spec.Classical

/-! Specification for C119: classical gates on any state. -/

noncomputable section

namespace DG.Spec
open DG.Sim

/-- The values of the qubits `qs` in a basis state. -/
def ofBasis (qs : List Nat) (y : Basis qs.length) : Nat → Bool := fun q => if h : qs.idxOf q < qs.length then y ⟨qs.idxOf q, h⟩ else false

/-- The basis state after classical operations. -/
def classicalOn (qs : List Nat) (ops : List SOp) (bits : Nat → Option Bool) (y : Basis qs.length) : Basis qs.length :=
  fun i => (ops.foldl classicalStep ⟨ofBasis qs y, bits⟩).qubits qs[i]

/-- Operations that only make phases. -/
def PhaseOp (op : SOp) : Prop :=
  match op.kind with
  | .single b => b = .identity ∨ b = .z ∨ b = .s ∨ b = .t ∨ ∃ p, b = .rz p
  | .controlled _ b => b = .identity ∨ b = .z ∨ b = .s ∨ b = .t ∨ ∃ p, b = .rz p
  | _ => False

end DG.Spec
