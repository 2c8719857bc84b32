import Verif.Model.LockedAttr
import Verif.Spec.MixedProperty

/-! # Specification of locked attributes -/

namespace DG.Spec
open Mixed
variable {V : Type}

/-- No class has an own attribute with this name. -/
def NoClassHas (h : Heap V) (name : String) : Prop := ∀ K ∈ h.classes, K.dict.get? name = none

/-- A statement does not give a class the attribute `locked_attributes`, and does not delete `matrix` from a class. -/
def Decent : LStmt V → Prop
  | .setClass _ n _ => n ≠ "locked_attributes"
  | .delClass _ n => n ≠ "matrix"
  | .newClass _ dict => dict.get? "locked_attributes" = none
  | _ => True

end DG.Spec
