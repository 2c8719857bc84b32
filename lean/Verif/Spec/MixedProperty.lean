import Verif.Model.MixedProperty

/-! # Specification of mixed properties -/

namespace DG.Spec
open Mixed
variable {V : Type}

/-- `a` is the attribute of this name in the first of the classes `ks` that has one. -/
inductive FirstOf (h : Heap V) (name : String) : List Nat → Attr V → Prop
  | here {k ks K a} : h.classes[k]? = some K → K.dict.get? name = some a → FirstOf h name (k :: ks) a
  | later {k ks K a} : h.classes[k]? = some K → K.dict.get? name = none → FirstOf h name ks a → FirstOf h name (k :: ks) a

/-- Class `k` has, or inherits, a mixed property with this name, for function number `n`. -/
def HasMixed (h : Heap V) (k : Nat) (name : String) (selfRequired : Bool) (n : Nat) : Prop :=
  ∃ K, h.classes[k]? = some K ∧ FirstOf h name K.mro (.mixed ⟨selfRequired, some n⟩)

/-- A statement is not an assignment to an attribute with this name of a class. -/
def NotToClass (name : String) : Stmt V → Prop
  | .setClass _ n _ => n ≠ name
  | _ => True

end DG.Spec
