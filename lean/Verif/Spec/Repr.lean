import Verif.Model.Repr

/-!
# What printed texts should tell (C116)
-/

namespace DG.Spec

/-- None of the characters occurs. -/
def Avoids (cs : List Char) (s : String) : Prop := ∀ c ∈ cs, c ∉ s.toList

/-- The given texts are such that a person can read the printed texts: ids are different words (C13), labels do not contain `>`, numbers are printed without the
signs used between the parts, the names of classes and variables are names. -/
structure Legible {K : Type} (T : Texts K) (w : World K) : Prop where
  qubitLabel : ∀ l ∈ w.qubits, Avoids ['>'] (T.label l)
  bitLabel : ∀ b ∈ w.bits, Avoids ['>'] (T.label b.label)
  qubitId : ∀ q, Avoids [' ', '>'] (T.qubitId q)
  bitId : ∀ b, Avoids [' ', '>'] (T.bitId b)
  qubitId_inj : Function.Injective T.qubitId
  bitId_inj : Function.Injective T.bitId
  num : ∀ x, T.num x ≠ "" ∧ Avoids [',', '='] (T.num x)
  cls : ∀ k ∈ w.classes, Avoids ['(', '='] k.name
  var : ∀ v ∈ w.vars, Avoids [',', '='] v.name

/-- The objects the operation refers to exist. -/
structure Refers {K : Type} (w : World K) (op : OpObj K) : Prop where
  qubits : ∀ l, op.qubits = some l → ∀ q ∈ l, q < w.qubits.length
  bits : ∀ l, op.bits = some l → ∀ b ∈ l, b < w.bits.length
  cond : ∀ l, op.cond = some l → ∀ b ∈ l, b < w.bits.length
  vars : ∀ v, OpParam.var v ∈ op.params → v < w.vars.length

/-- The bits on which an operation depends; depending on no bits is the same as not being conditional. -/
def condBits {K : Type} (op : OpObj K) : List Nat := op.cond.getD []

end DG.Spec
