import Verif.Model.Py

/-!
# How operations check the number of their qubits: `dwave/gate/operations/base.py`

Only the numbers of qubits are tracked. The class attributes `_num_qubits`, `_num_control`, `_num_target` are state, because
the property `num_qubits` of controlled operations sets the class attribute when it is first read.
Subclasses of concrete operations (which inherit class attributes) are not modelled.
-/

namespace DG.Arity

/-- A class deriving from `Operation`: whether it derives from `ControlledOperation`, and its class attributes. -/
structure Cls where
  controlled : Bool
  numQubits : Option Nat
  numControl : Option Nat := none
  numTarget : Option Nat := none

/-- A number that is truthy. -/
def truthy : Option Nat → Option Nat
  | some 0 => none
  | x => x

/-- `cls.num_qubits` (base.py 286-295; for controlled operations 526-541, which sets `cls._num_qubits` if it is falsy and both
`num_control` and `num_target` are truthy). -/
def clsNumQubits (c : Cls) : Except Err Nat × Cls :=
  let c' := if c.controlled then
      match truthy c.numQubits, truthy c.numControl, truthy c.numTarget with
      | none, some a, some b => { c with numQubits := some (a + b) }
      | _, _, _ => c
    else c
  match c'.numQubits with
  | some k => (.ok k, c')
  | none => (.error .attributeError, c')

/-- `_check_qubits` (base.py 202-221) for `m` qubits. -/
def checkQubits (c : Cls) (m : Nat) : Except Err Nat × Cls :=
  match c.numQubits with
  | none => (.ok m, c)
  | some _ => match clsNumQubits c with
    | (.ok k, c') => if m = k then (.ok m, c') else (.error .valueError, c')
    | (.error e, c') => (.error e, c')

/-- Arguments of the constructor: `qubits` (also the keyword argument of controlled operations), or `control` and `target`. -/
inductive Args
  | qubits (m : Option Nat)
  | split (control target : Option Nat)

/-- An instance: the length of its `qubits` (`none` is Python's `None`), of its controls and of its targets. -/
structure Inst where
  total : Option Nat
  control : Option Nat := none
  target : Option Nat := none

/-- `Operation.__init__` (base.py 183-200) with `qubits` of the given length. `active`: there is an active context. -/
def initOperation (c : Cls) (active : Bool) (qubits : Option Nat) : Except Err (Option Nat) × Cls :=
  match qubits with
  | some m => match checkQubits c m with
    | (.ok m, c') => (.ok (some m), c')
    | (.error e, c') => (.error e, c')
  | none => if active then (.error .typeError, c) else (.ok none, c)

/-- Controls and targets from `qubits` by slicing (base.py 480-482): `qubits[:nc]`, `qubits[nc:]`. -/
def slices (nc : Option Nat) (m : Nat) : Nat × Nat :=
  match nc with
  | none => (m, m)
  | some k => (min k m, m - k)

/-- `ControlledOperation.__init__` (base.py 473-503); the result is (controls, targets, qubits). -/
def splitArgs (c : Cls) (args : Args) : Option Nat × Option Nat × Option Nat :=
  match args with
  | .qubits m => match truthy m with
    | some m => (truthy (some (slices c.numControl m).1), truthy (some (slices c.numControl m).2), some m)
    | none => (none, none, none)
  | .split a b => match truthy a, truthy b with
    | some a, some b => (some a, some b, some (a + b))
    | a, b => (a, b, none)

/-- The constructor of a class. For classes that are not controlled only `qubits` exists (`TypeError` otherwise). -/
def construct (c : Cls) (active : Bool) (args : Args) : Except Err Inst × Cls :=
  if c.controlled then
    let (a, b, m) := splitArgs c args
    match initOperation c active m with
    | (.ok t, c') => (.ok ⟨t, a, b⟩, c')
    | (.error e, c') => (.error e, c')
  else match args with
    | .qubits m => match initOperation c active m with
      | (.ok t, c') => (.ok ⟨t, none, none⟩, c')
      | (.error e, c') => (.error e, c')
    | .split _ _ => (.error .typeError, c)

/-- What a program may do with a class: construct an instance, read `num_qubits` (on the class or an instance, also done by
`matrix`), or assign `qubits` of an instance (base.py 302-309, the class is only read). -/
inductive Event
  | construct (active : Bool) (args : Args)
  | readNumQubits
  | assignQubits (m : Nat)

/-- The class after an event. -/
def step (c : Cls) : Event → Cls
  | .construct active args => (construct c active args).2
  | .readNumQubits => (clsNumQubits c).2
  | .assignQubits m => (checkQubits c m).2

/-- The class after a history. -/
def run (c : Cls) (h : List Event) : Cls := h.foldl step c

end DG.Arity
