import Verif.Model.MixedProperty

/-!
# `ABCLockedAttr`: `dwave/gate/operations/base.py` 158-171

The metaclass of all classes of operations. It refuses assignments to the class attribute `matrix`.

Simplifications: those of `Model/MixedProperty.lean`; all classes of the heap have this metaclass; what `attr in value` does for a value is a parameter.
-/

namespace DG.Mixed
variable {V : Type}

/-- `ABCLockedAttr.locked_attributes` (base.py 162-164). -/
def lockedAttributes : List String := ["matrix"]

/-- `attr in self.locked_attributes` for a class (base.py 167; Python's `type.__getattribute__`): an attribute of the class comes before one of the
metaclass. `contains v attr` is `attr in v`. -/
def isLocked (code : Nat → Fn V) (contains : V → String → Except Err Bool) (h : Heap V) (k : Nat) (attr : String) : Except Err Bool :=
  match lookup h k "locked_attributes" with
  | none => .ok (decide (attr ∈ lockedAttributes))
  | some _ => match getClass code h k "locked_attributes" with
    | .error e => .error e
    | .ok none => .error .typeError
    | .ok (some v) => contains v attr

/-- `K.name = v` for a class of operations (base.py 166-170). -/
def setLocked (code : Nat → Fn V) (contains : V → String → Except Err Bool) (h : Heap V) (k : Nat) (name : String) (v : V) : Except Err Unit × Heap V :=
  match isLocked code contains h k name with
  | .error e => (.error e, h)
  | .ok true => (.error .valueError, h)
  | .ok false => setClass h k name v

/-- `del K.name` for a class (Python's `type.__delattr__`). -/
def delClass (h : Heap V) (k : Nat) (name : String) : Except Err Unit × Heap V :=
  match h.classes[k]? with
  | none => (.error .typeError, h)
  | some K => match K.dict.get? name with
    | none => (.error .attributeError, h)
    | some _ => (.ok (), { h with classes := h.classes.set k { K with dict := K.dict.erase name } })

/-- A class statement: a new class with these classes next in its method resolution order, and these attributes. -/
def newClass (h : Heap V) (mro : List Nat) (dict : PyDict String (Attr V)) : Except Err Unit × Heap V :=
  (.ok (), { h with classes := h.classes ++ [⟨h.classes.length :: mro, dict⟩] })

/-- Statements on classes of operations and their instances. -/
inductive LStmt (V : Type)
  | newInst (k : Nat)
  | setInst (i : Nat) (name : String) (v : V)
  | delInst (i : Nat) (name : String)
  | setClass (k : Nat) (name : String) (v : V)
  | delClass (k : Nat) (name : String)
  | newClass (mro : List Nat) (dict : PyDict String (Attr V))

/-- Execute a statement. -/
def LStmt.exec (code : Nat → Fn V) (contains : V → String → Except Err Bool) : LStmt V → Heap V → Except Err Unit × Heap V
  | .newInst k, h => Stmt.exec (.newInst k) h
  | .setInst i name v, h => Mixed.setInst h i name v
  | .delInst i name, h => Mixed.delInst h i name
  | .setClass k name v, h => setLocked code contains h k name v
  | .delClass k name, h => Mixed.delClass h k name
  | .newClass mro dict, h => Mixed.newClass h mro dict

/-- Execute statements one after the other; exceptions are caught. -/
def execLocked (code : Nat → Fn V) (contains : V → String → Except Err Bool) : List (LStmt V) → Heap V → Heap V
  | [], h => h
  | s :: ss, h => execLocked code contains ss (s.exec code contains h).2

end DG.Mixed
