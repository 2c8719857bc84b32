import Verif.Model.Py

/-!
# `mixedproperty`: `dwave/gate/mixedproperty.py`

Classes and instances with attributes, as far as Python's attribute access is concerned, and the descriptor `mixedproperty`.

Simplifications:
* the decorated function has positional parameters without defaults, and reads objects without changing them;
* attributes other than mixed properties are plain values (no other descriptors, no metaclass attributes, no `__getattr__`);
* the attributes that `__call__` copies from the function to the descriptor (mixedproperty.py 93-95) are dropped.
-/

namespace DG.Mixed
variable {V : Type}

/-- An object `mixedproperty` (mixedproperty.py 81-99): `_self_required`, and `_callable`, if it has been set, as the number of a function. -/
structure Descriptor where
  selfRequired : Bool := false
  callable : Option Nat := none
  deriving DecidableEq

/-- The value of an attribute of a class. -/
inductive Attr (V : Type)
  | mixed (p : Descriptor)
  | plain (v : V)

/-- A class: its method resolution order, of which it is the first, and its own attributes. -/
structure Cls (V : Type) where
  mro : List Nat
  dict : PyDict String (Attr V) := []

/-- An instance: its class and its own attributes. -/
structure Inst (V : Type) where
  cls : Nat
  dict : PyDict String V := []

/-- All classes and instances. -/
structure Heap (V : Type) where
  classes : List (Cls V) := []
  insts : List (Inst V) := []

/-- Arguments of the decorated functions: a class, or an instance or `None`. -/
inductive Arg
  | cls (k : Nat)
  | self (i : Option Nat)
  deriving DecidableEq, Repr

/-- A function: its number of parameters, and what it returns. -/
structure Fn (V : Type) where
  numParams : Nat
  run : Heap V → List Arg → Except Err (Option V)

/-- A call of a function. -/
def Fn.call (f : Fn V) (h : Heap V) (args : List Arg) : Except Err (Option V) :=
  if args.length = f.numParams then f.run h args else .error .typeError

/-- The decorator `@mixedproperty` (mixedproperty.py 81-84). -/
def decorate (f : Nat) : Descriptor := { selfRequired := false, callable := some f }

/-- The decorator `@mixedproperty(self_required=...)` (mixedproperty.py 81-99). -/
def decorateWith (selfRequired : Bool) (f : Nat) : Descriptor := { ({ selfRequired := selfRequired } : Descriptor) with callable := some f }

/-- `__get__(instance, cls)` (mixedproperty.py 101-127). Without `_callable`, `AttributeError` is raised. `None` is `none`. -/
def get (code : Nat → Fn V) (h : Heap V) (p : Descriptor) (inst : Option Nat) (cls : Nat) : Except Err (Option V) :=
  match p.callable with
  | none => .error .attributeError
  | some n =>
    let f := code n
    if p.selfRequired && decide (2 ≤ f.numParams) && inst.isNone then .ok none
    else if f.numParams = 1 then f.call h [.cls cls]
    else f.call h [.cls cls, .self inst]

/-- Find an attribute in a list of classes (Python's `_PyType_Lookup`). -/
def find (h : Heap V) (name : String) : List Nat → Option (Attr V)
  | [] => none
  | k :: ks => match h.classes[k]? with
    | none => find h name ks
    | some K => match K.dict.get? name with
      | some a => some a
      | none => find h name ks

/-- Find an attribute of a class. -/
def lookup (h : Heap V) (k : Nat) (name : String) : Option (Attr V) :=
  match h.classes[k]? with
  | none => none
  | some K => find h name K.mro

/-- `K.name` for a class `K` (Python's `type.__getattribute__`). -/
def getClass (code : Nat → Fn V) (h : Heap V) (k : Nat) (name : String) : Except Err (Option V) :=
  match lookup h k name with
  | none => .error .attributeError
  | some (.plain v) => .ok (some v)
  | some (.mixed p) => get code h p none k

/-- `x.name` for an instance `x` (Python's `object.__getattribute__`): a descriptor that has `__set__` comes before the attributes of the instance. -/
def getInst (code : Nat → Fn V) (h : Heap V) (i : Nat) (name : String) : Except Err (Option V) :=
  match h.insts[i]? with
  | none => .error .typeError
  | some x => match lookup h x.cls name with
    | some (.mixed p) => get code h p (some i) x.cls
    | a => match x.dict.get? name, a with
      | some v, _ => .ok (some v)
      | none, some (.plain v) => .ok (some v)
      | none, _ => .error .attributeError

/-- `x.name = v` for an instance `x` (Python's `object.__setattr__`): a mixed property raises `AttributeError` (mixedproperty.py 129-130). -/
def setInst (h : Heap V) (i : Nat) (name : String) (v : V) : Except Err Unit × Heap V :=
  match h.insts[i]? with
  | none => (.error .typeError, h)
  | some x => match lookup h x.cls name with
    | some (.mixed _) => (.error .attributeError, h)
    | _ => (.ok (), { h with insts := h.insts.set i { x with dict := x.dict.set name v } })

/-- `del x.name` for an instance `x` (Python's `object.__delattr__`): a mixed property has no `__delete__`. -/
def delInst (h : Heap V) (i : Nat) (name : String) : Except Err Unit × Heap V :=
  match h.insts[i]? with
  | none => (.error .typeError, h)
  | some x => match lookup h x.cls name with
    | some (.mixed _) => (.error .attributeError, h)
    | _ => match x.dict.get? name with
      | none => (.error .attributeError, h)
      | some _ => (.ok (), { h with insts := h.insts.set i { x with dict := x.dict.erase name } })

/-- `K.name = v` for a class `K` (Python's `type.__setattr__`): descriptors of the class itself are not asked. -/
def setClass (h : Heap V) (k : Nat) (name : String) (v : V) : Except Err Unit × Heap V :=
  match h.classes[k]? with
  | none => (.error .typeError, h)
  | some K => (.ok (), { h with classes := h.classes.set k { K with dict := K.dict.set name (.plain v) } })

/-- Statements. -/
inductive Stmt (V : Type)
  | newInst (k : Nat)
  | setInst (i : Nat) (name : String) (v : V)
  | delInst (i : Nat) (name : String)
  | setClass (k : Nat) (name : String) (v : V)

/-- Execute a statement. -/
def Stmt.exec : Stmt V → Heap V → Except Err Unit × Heap V
  | .newInst k, h => match h.classes[k]? with
    | none => (.error .typeError, h)
    | some _ => (.ok (), { h with insts := h.insts ++ [⟨k, []⟩] })
  | .setInst i name v, h => Mixed.setInst h i name v
  | .delInst i name, h => Mixed.delInst h i name
  | .setClass k name v, h => Mixed.setClass h k name v

/-- Execute statements one after the other; exceptions are caught. -/
def execAll : List (Stmt V) → Heap V → Heap V
  | [], h => h
  | s :: ss, h => execAll ss (s.exec h).2

end DG.Mixed
