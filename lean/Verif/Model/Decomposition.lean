import Verif.Model.Py

/-!
# `Operation.decomposition`

`dwave/gate/operations/base.py` 276-285.
-/

namespace DG

/-- The attribute `_decomposition` of the classes that have one. The values are lists, which are objects that can be changed. -/
abbrev DecompAttrs := PyDict String (List String)

/-- The classes of the library (operations.py 180, 434). -/
def DecompAttrs.library : DecompAttrs := [("Z", ["Hadamard", "X", "Hadamard"]), ("Rotation", ["RZ", "RY", "RZ"])]

/-- Property `decomposition` of a class or instance (base.py 276-285). `getattr` also looks at base classes; no base class of a class of the library has the
attribute, and a class made by a user is not modelled. -/
def DecompAttrs.decomposition (attrs : DecompAttrs) (cls : String) : Except Err (List String) :=
  match attrs.get? cls with
  | none => .error .notImplementedError
  | some l => if l.isEmpty then .error .notImplementedError else .ok l

/-- What a program can do: access the property of a class, or change the list that an access to the property returned. -/
inductive DecompCall
  | read (cls : String)
  | change (cls : String) (f : List String → List String)

/-- The property returns the list itself, not a copy (base.py 285): a change is a change of the attribute. -/
def DecompCall.run (attrs : DecompAttrs) : DecompCall → DecompAttrs
  | .read _ => attrs
  | .change cls f => match attrs.decomposition cls with
    | .error _ => attrs
    | .ok l => attrs.set cls (f l)

end DG
