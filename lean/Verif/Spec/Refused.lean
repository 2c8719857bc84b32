import Verif.Spec.Frame

/-! # Specification for C124: calls that are all or nothing -/

namespace DG.Spec
variable {K : Type}

/-- The calls other than `add_qubit`, `add_bit`, `extend`, calls of templates and `reset(keep_registers=True)`. -/
def AllOrNothing : Call K → Prop
  | .addQubit .. => False
  | .addBit .. => False
  | .extend .. => False
  | .call .. => False
  | .callParam .. => False
  | .reset _ keep => keep = false
  | _ => True

/-- `rs'` is `rs`, perhaps with a new empty register at the end. -/
def PerhapsEmpty (rs rs' : PyDict RLabel Reg) : Prop := rs' = rs ∨ ∃ l, rs.contains l = false ∧ rs' = rs ++ [(l, { cy := {}, frozen := some false })]

end DG.Spec
