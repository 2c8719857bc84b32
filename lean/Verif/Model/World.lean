import Verif.Model.Bank
import Verif.Model.Arity
import Verif.Model.Primitives

/-!
# Circuits, operations and contexts: `dwave/gate/circuit.py`, `dwave/gate/operations/base.py`

The state of a program that uses the library: all qubits, bits, variables, operation classes, operation objects, circuits and
contexts that exist, and the class attributes of `CircuitContext`. An object is referred to by its position. Every method
returns its result or exception, together with the new state (which keeps what was changed before the exception).

Simplifications:
* numbers are elements of a type `K`; only equality and being zero matter here;
* a reference to an object that does not exist cannot occur in Python; it is mapped to `typeError`;
* qubits are passed as sequences (a single qubit is the same as a sequence of length one, except for the keyword argument `qubits`
  of controlled operations, which raises `TypeError` for a single qubit);
* the parameter register of a parametric circuit only grows by indexing (registers.py 195-210); it is the list of its variables;
* raw changes of the list `circuit.circuit` and of the register dictionaries are not modelled;
* warnings and messages are dropped; the attributes `_state`, `_density_matrix` are in `Model/CircuitState.lean`.
-/

namespace DG

/-- A `Bit` object (primitives.py 72-82). -/
structure BitObj where
  label : RLabel
  value : Option Int

/-- A `Variable` object (primitives.py 148-162). -/
structure VarObj (K : Type) where
  name : String
  value : Option K

/-- A parameter of an operation: a number or a variable object. -/
inductive OpParam (K : Type)
  | num (x : K)
  | var (v : Nat)
  deriving DecidableEq

/-- Which base class of base.py an operation class derives from. Barriers (763-773) are `plain`. -/
inductive OpKind
  | plain | parametric | controlled | pcontrolled | measurement
  deriving DecidableEq, Repr

/-- `isinstance(op, ParametricOperation)`; these are the operations with methods `eval` and attribute `parameters`. -/
def OpKind.isParametric : OpKind → Bool
  | .parametric | .pcontrolled => true
  | _ => false

/-- An operation class: `__name__`, base class, `_num_qubits`/`_num_control`/`_num_target`, `_num_params`. -/
structure OpCls where
  name : String
  kind : OpKind
  ar : Arity.Cls
  numParams : Option Nat := none

/-- An operation object (base.py 183-200, 363-365, 473-503, 665-673). -/
structure OpObj (K : Type) where
  cls : Nat
  /-- `_qubits` -/
  qubits : Option (List Nat) := none
  /-- the instance attribute `_num_qubits` (base.py 187-189) -/
  numQubits : Option Nat := none
  control : Option (List Nat) := none
  target : Option (List Nat) := none
  params : List (OpParam K) := []
  cond : Option (List Nat) := none
  bits : Option (List Nat) := none
  deriving DecidableEq

/-- A `Circuit` or `ParametricCircuit` object (circuit.py 71-92, 691-694). -/
structure Circ where
  /-- is it a `ParametricCircuit`? -/
  param : Bool
  ops : List Nat := []
  ctx : Option Nat := none
  q : Bank := {}
  c : Bank := {}
  locked : Bool := false
  /-- `_parameter_register` -/
  vars : List Nat := []
  varsFrozen : Bool := false

/-- A `CircuitContext` object (circuit.py 800-802). -/
structure Ctx where
  circuit : Nat
  frozen : Bool := false
  deriving DecidableEq, Repr

/-- The state of the program. `active` and `onExit` are `CircuitContext._active_context` and `on_exit_functions` (circuit.py 795-798); an
exit function is `reset_variables` of a circuit. -/
structure World (K : Type) where
  qubits : List RLabel := []
  bits : List BitObj := []
  vars : List (VarObj K) := []
  classes : List OpCls := []
  ops : List (OpObj K) := []
  circs : List Circ := []
  ctxs : List Ctx := []
  active : Option Nat := none
  onExit : List Nat := []

/-- Comparison of bits with integers in the current state (primitives.py 104-110). -/
def World.bitEnv {K : Type} (w : World K) : EqEnv := fun k => match w.bits[k]? with
  | some b => b.value
  | none => none

/-- Qubits never equal integers (primitives.py 57-61). -/
def qubitEnv : EqEnv := fun _ => none

/-- A Python computation: result or exception, and the state afterwards. -/
def M (K : Type) (α : Type) := World K → Except Err α × World K

namespace M
variable {K α β : Type}

/-- The computation that returns `a`. -/
protected def pure (a : α) : M K α := fun w => (.ok a, w)

/-- Run `m`, then `f` on its result unless `m` raised. -/
protected def bind (m : M K α) (f : α → M K β) : M K β := fun w =>
  match m w with
  | (.ok a, w') => f a w'
  | (.error e, w') => (.error e, w')

instance : Monad (M K) where
  pure := M.pure
  bind := M.bind

/-- `raise`. -/
def raise (e : Err) : M K α := fun w => (.error e, w)

/-- Read the state. -/
def read (f : World K → α) : M K α := fun w => (.ok (f w), w)

/-- Change the state. -/
def write (f : World K → World K) : M K Unit := fun w => (.ok (), f w)

/-- Dereference. -/
def deref (f : World K → Option α) : M K α := fun w =>
  match f w with
  | some a => (.ok a, w)
  | none => (.error .typeError, w)

/-- `for a in l: body(a)`. -/
def each (l : List α) (body : α → M K Unit) : M K Unit :=
  match l with
  | [] => pure ()
  | a :: l => do body a; each l body

/-- `if c: raise e`. -/
def raiseIf (c : Bool) (e : Err) : M K Unit := fun w => if c then (.error e, w) else (.ok (), w)

/-- `if c: body`. -/
def whenever (c : Bool) (body : M K Unit) : M K Unit := fun w => if c then body w else (.ok (), w)

end M

namespace World
variable {K : Type}

/-- Replace circuit `c`. -/
def setCirc (w : World K) (c : Nat) (C : Circ) : World K := { w with circs := w.circs.set c C }

/-- Replace operation object `o`. -/
def setOp (w : World K) (o : Nat) (op : OpObj K) : World K := { w with ops := w.ops.set o op }

end World

section methods
variable {K : Type}

/-- The circuit object `c`. -/
def circ (c : Nat) : M K Circ := M.deref fun w => w.circs[c]?

/-- The operation object `o`. -/
def opObj (o : Nat) : M K (OpObj K) := M.deref fun w => w.ops[o]?

/-- The class object `k`. -/
def clsObj (k : Nat) : M K OpCls := M.deref fun w => w.classes[k]?

/-- The context object `x`. -/
def ctxObj (x : Nat) : M K Ctx := M.deref fun w => w.ctxs[x]?

/-- Change the fields of circuit `c`. -/
def modCirc (c : Nat) (f : Circ → Circ) : M K Unit := M.write fun w =>
  match w.circs[c]? with
  | some C => w.setCirc c (f C)
  | none => w

/-- Change the fields of operation object `o`. -/
def modOp (o : Nat) (f : OpObj K → OpObj K) : M K Unit := M.write fun w =>
  match w.ops[o]? with
  | some op => w.setOp o (f op)
  | none => w

/-- `c.qubits` (circuit.py 225-232). -/
def qubitsOf (c : Nat) : M K Reg := fun w =>
  match w.circs[c]? with
  | none => (.error .typeError, w)
  | some C =>
    let (r, b) := C.q.flat qubitEnv
    (r, w.setCirc c { C with q := b })

/-- `c.bits` (circuit.py 234-241). -/
def bitsOf (c : Nat) : M K Reg := fun w =>
  match w.circs[c]? with
  | none => (.error .typeError, w)
  | some C =>
    let (r, b) := C.c.flat w.bitEnv
    (r, w.setCirc c { C with c := b })

/-- A positional argument of `add_qubit`/`add_bit`: nothing, an object of the right class, or something else. -/
inductive Given
  | none
  | item (k : Nat)
  | other
  deriving DecidableEq, Repr

/-- `c.add_qregister(n, label)` (circuit.py 424-444). -/
def addQReg (c : Nat) (n : Int) (label : Option RLabel) : M K Unit := fun w =>
  match w.circs[c]? with
  | none => (.error .typeError, w)
  | some C =>
    match C.q.addRegister qubitEnv "qreg" n label w.qubits.length with
    | (.error e, b) => (.error e, w.setCirc c { C with q := b })
    | (.ok new, b) => (.ok (), { w.setCirc c { C with q := b } with qubits := w.qubits ++ new })

/-- `c.add_cregister(n, label)` (circuit.py 446-466). -/
def addCReg (c : Nat) (n : Int) (label : Option RLabel) : M K Unit := fun w =>
  match w.circs[c]? with
  | none => (.error .typeError, w)
  | some C =>
    match C.c.addRegister w.bitEnv "creg" n label w.bits.length with
    | (.error e, b) => (.error e, w.setCirc c { C with c := b })
    | (.ok new, b) => (.ok (), { w.setCirc c { C with c := b } with bits := w.bits ++ new.map fun l => ⟨l, none⟩ })

/-- `c.add_qubit(qubit, qreg_label)` (circuit.py 362-392). -/
def addQubit (c : Nat) (qubit : Given) (label : Option RLabel) : M K Unit := fun w =>
  match w.circs[c]? with
  | none => (.error .typeError, w)
  | some C =>
    let go (given : Option (Nat × Bool)) : Except Err Unit × World K :=
      match C.q.addItem qubitEnv "qreg" given label w.qubits.length with
      | (.error e, b) => (.error e, w.setCirc c { C with q := b })
      | (.ok new, b) => (.ok (), { w.setCirc c { C with q := b } with qubits := w.qubits ++ new })
    match qubit with
    | .other => (.error .typeError, w)
    | .none => go none
    | .item k => match w.qubits[k]? with
      | none => (.error .typeError, w)
      | some _ => go (some (k, true))

/-- `c.add_bit(bit, creg_label)` (circuit.py 394-422). -/
def addBit (c : Nat) (bit : Given) (label : Option RLabel) : M K Unit := fun w =>
  match w.circs[c]? with
  | none => (.error .typeError, w)
  | some C =>
    let go (given : Option (Nat × Bool)) : Except Err Unit × World K :=
      match C.c.addItem w.bitEnv "creg" given label w.bits.length with
      | (.error e, b) => (.error e, w.setCirc c { C with c := b })
      | (.ok new, b) => (.ok (), { w.setCirc c { C with c := b } with bits := w.bits ++ new.map fun l => ⟨l, none⟩ })
    match bit with
    | .other => (.error .typeError, w)
    | .none => go none
    | .item k => match w.bits[k]? with
      | none => (.error .typeError, w)
      | some b => go (some (k, BitState.bool ⟨b.value⟩))

/-- The loop of `ParametricOperation.eval` (base.py 398-405) from position `i` on: the parameters that were replaced before an
exception stay replaced. `val v` is the value of variable `v`; an empty list of parameters is falsy. -/
def evalLoop [DecidableEq K] [Zero K] (val : Nat → Option K) (given : Option (List K)) :
    Nat → List (OpParam K) → Except Err Unit × List (OpParam K)
  | _, [] => (.ok (), [])
  | i, .num x :: rest =>
    let r := evalLoop val given (i + 1) rest
    (r.1, .num x :: r.2)
  | i, .var v :: rest =>
    let r := evalLoop val given (i + 1) rest
    match given with
    | some (y :: ys) =>
      match (y :: ys)[i]? with
      | some z => (r.1, .num z :: r.2)
      | none => (.error .indexError, .var v :: rest)
    | _ =>
      match val v with
      | some x => if x ≠ 0 then (r.1, .num x :: r.2) else (.error .valueError, .var v :: rest)
      | none => (.error .valueError, .var v :: rest)

/-- The value of variable `v` in the current state. -/
def World.varVal (w : World K) (v : Nat) : Option K :=
  match w.vars[v]? with
  | some x => x.value
  | none => none

/-- `op.eval(given, inplace=True)` (base.py 382-407) for operation object `o`; operations without `eval` are left alone
(circuit.py 191-194). -/
def evalInPlace [DecidableEq K] [Zero K] (o : Nat) (given : Option (List K)) : M K Unit := fun w =>
  match w.ops[o]? with
  | none => (.error .typeError, w)
  | some op => match w.classes[op.cls]? with
    | none => (.error .typeError, w)
    | some k =>
      if k.kind.isParametric then
        let r := evalLoop w.varVal given 0 op.params
        (r.1, w.setOp o { op with params := r.2 })
      else (.ok (), w)

/-- `op.eval(given)` (base.py 382-407) with `inplace=False`: the copy is the result. -/
def evalCopy [DecidableEq K] [Zero K] (w : World K) (op : OpObj K) (given : Option (List K)) : Except Err (OpObj K) :=
  match evalLoop w.varVal given 0 op.params with
  | (.error e, _) => .error e
  | (.ok _, ps) => .ok { op with params := ps }

/-- property `parametric` (circuit.py 304-308, 757-760). -/
def Circ.parametric (C : Circ) : Bool := C.param && !C.vars.isEmpty

/-- `for q in operation.qubits or []: if q not in self.qubits: raise ValueError` (circuit.py 196-198). -/
def checkMember (c : Nat) (qs : List Nat) : M K Unit :=
  M.each qs fun q => do
    let r ← qubitsOf c
    M.raiseIf (!r.cy.count (.obj q)) .valueError

/-- `circuit.append(operation)` (circuit.py 180-201). -/
def appendOp [DecidableEq K] [Zero K] (c o : Nat) : M K Unit := do
  let C ← circ c
  M.raiseIf C.locked .circuitError
  M.whenever (!C.parametric) (evalInPlace o none)
  let op ← opObj o
  checkMember c (op.qubits.getD [])
  modCirc c fun C => { C with ops := C.ops ++ [o] }

/-- `circuit.extend(operations)` (circuit.py 203-210). -/
def extendOps [DecidableEq K] [Zero K] (c : Nat) (os : List Nat) : M K Unit := M.each os (appendOp c)

/-- `_check_qubits` (base.py 202-221) for `m` qubits, on class `k`. -/
def checkArity (k m : Nat) : M K Unit := fun w =>
  match w.classes[k]? with
  | none => (.error .typeError, w)
  | some C =>
    let r := Arity.checkQubits C.ar m
    (match r.1 with | .ok _ => .ok () | .error e => .error e, { w with classes := w.classes.set k { C with ar := r.2 } })

/-- A new operation object; its reference. -/
def newOp (op : OpObj K) : M K Nat := fun w => (.ok w.ops.length, { w with ops := w.ops ++ [op] })

/-- The end of `Operation.__init__` (base.py 198-200). -/
def register [DecidableEq K] [Zero K] (active : Option Nat) (o : Nat) : M K Unit :=
  match active with
  | none => pure ()
  | some x => do
    let C ← ctxObj x
    M.whenever (!C.frozen) (appendOp C.circuit o)

/-- The first part of `Operation.__init__` (base.py 184-193): `qubits` are checked; they may be missing only outside of contexts. -/
def checkArg (k : Nat) (active : Option Nat) : Option (List Nat) → M K Unit
  | some l => checkArity k l.length
  | none => M.raiseIf active.isSome .typeError

/-- `Operation.__init__` (base.py 183-200); `op` holds the attributes set by the subclasses before. -/
def initOperation [DecidableEq K] [Zero K] (op : OpObj K) (qubits : Option (List Nat)) : M K Nat := do
  let active ← M.read (·.active)
  checkArg op.cls active qubits
  let o ← newOp { op with qubits := qubits, numQubits := qubits.map List.length, cond := none }
  register active o
  pure o

/-- Arguments of a constructor: the (keyword) argument `qubits`, or `control` and `target`. -/
inductive QArgs
  | qubits (l : Option (List Nat))
  | split (control target : Option (List Nat))

/-- A list that is truthy. -/
def nonempty : Option (List Nat) → Option (List Nat)
  | some [] => none
  | x => x

/-- The first part of `ControlledOperation.__init__` (base.py 479-500): (control, target, qubits). `nc` is the class attribute
`_num_control`; slicing by `None` gives everything. -/
def splitQubits (nc : Option Nat) : QArgs → Option (List Nat) × Option (List Nat) × Option (List Nat)
  | .qubits l => match nonempty l with
    | some l => match nc with
      | some n => (some (l.take n), some (l.drop n), some l)
      | none => (some l, some l, some l)
    | none => (none, none, none)
  | .split a b => match nonempty a, nonempty b with
    | some a, some b => (some a, some b, some (a ++ b))
    | a, b => (a, b, none)

/-- `_check_parameters` (base.py 420-440). -/
def checkParams (k : OpCls) (params : List (OpParam K)) : M K Unit :=
  M.raiseIf (decide (some params.length ≠ k.numParams)) .valueError

/-- The constructor of class `k` (base.py 183-200, 363-372, 473-503, 616-626, 665-673). The `parameters` of an operation that has none, and
missing `parameters`, are a `TypeError`, as are `control`/`target` for operations that are not controlled. -/
def construct [DecidableEq K] [Zero K] (k : Nat) (params : Option (List (OpParam K))) (args : QArgs) : M K Nat := do
  let C ← clsObj k
  match C.kind, params, args with
  | .plain, none, .qubits l => initOperation { cls := k } l
  | .measurement, none, .qubits l => initOperation { cls := k } l
  | .parametric, some ps, .qubits l => do
    checkParams C ps
    initOperation { cls := k, params := ps } l
  | .controlled, none, args =>
    let s := splitQubits C.ar.numControl args
    initOperation { cls := k, control := s.1, target := s.2.1 } s.2.2
  | .pcontrolled, some ps, args => do
    let s := splitQubits C.ar.numControl args
    checkParams C ps
    let o ← initOperation { cls := k, control := s.1, target := s.2.1, params := ps } s.2.2
    -- `self._parameters = self._check_parameters(parameters)` once more (base.py 626)
    checkParams C ps
    modOp o fun op => { op with params := ps }
    pure o
  | _, _, _ => M.raise .typeError

/-- `op(qubits)` (base.py 240-251, 442-453) and `op(control, target)` (base.py 505-523, 628-645): apply the operation again. -/
def reapply [DecidableEq K] [Zero K] (o : Nat) (args : QArgs) : M K Nat := do
  let op ← opObj o
  let C ← clsObj op.cls
  match C.kind, args with
  | .plain, .qubits l => construct op.cls none (.qubits (match nonempty l with | some l => some l | none => op.qubits))
  | .measurement, .qubits l => construct op.cls none (.qubits (match nonempty l with | some l => some l | none => op.qubits))
  | .parametric, .qubits l =>
    construct op.cls (some op.params) (.qubits (match nonempty l with | some l => some l | none => op.qubits))
  | .controlled, .split a b =>
    construct op.cls none (.split (match nonempty a with | some l => some l | none => op.control)
      (match nonempty b with | some l => some l | none => op.target))
  | .pcontrolled, .split a b =>
    construct op.cls (some op.params) (.split (match nonempty a with | some l => some l | none => op.control)
      (match nonempty b with | some l => some l | none => op.target))
  | _, _ => M.raise .typeError

/-- `op.qubits = qubits` (base.py 302-309). -/
def setQubits (o : Nat) (qs : List Nat) : M K Unit := do
  let op ← opObj o
  checkArity op.cls qs.length
  modOp o fun op => { op with qubits := some qs }

/-- `op.conditional(bits)` (base.py 343-349). -/
def conditional (o : Nat) (bits : List Nat) : M K Unit := do
  let _ ← opObj o
  modOp o fun op => { op with cond := some bits }

/-- `measurement | bits` (base.py 675-689). `num_qubits` of an instance is the attribute `_num_qubits`; comparing with `None` is a
`TypeError`, as is `|` for other operations. -/
def measureInto (o : Nat) (bits : List Nat) : M K Unit := do
  let op ← opObj o
  let C ← clsObj op.cls
  match C.kind, op.numQubits with
  | .measurement, some n => do
    M.raiseIf (decide (bits.length < n)) .valueError
    modOp o fun op => { op with bits := some (bits.take n) }
  | _, _ => M.raise .typeError

/-- `d[k]`. -/
def lookup (d : PyDict Lbl Nat) (k : Nat) : M K Nat := fun w =>
  match d.get? (.obj k) with
  | some x => (.ok x, w)
  | none => (.error .keyError, w)

/-- `[d[k] for k in l]`. -/
def lookupAll (d : PyDict Lbl Nat) : List Nat → M K (List Nat)
  | [] => pure []
  | k :: l => do
    let x ← lookup d k
    let xs ← lookupAll d l
    pure (x :: xs)

/-- `op.__class__(*mapped_qubits)` for a controlled operation (circuit.py 152-153). -/
def starArgs : List Nat → Option QArgs
  | [] => some (.split none none)
  | [a] => some (.split (some [a]) none)
  | [a, b] => some (.split (some [a]) (some [b]))
  | _ => none

/-- The body of the loop of `Circuit.__call__` (circuit.py 127-155). `bm` is `None` if no bits were passed. -/
def callOne [DecidableEq K] [Zero K] (qm : PyDict Lbl Nat) (bm : Option (PyDict Lbl Nat)) (o : Nat) : M K Unit := do
  let op ← opObj o
  let C ← clsObj op.cls
  let mapped ← lookupAll qm (op.qubits.getD [])
  match C.kind, bm with
  | .measurement, some bm => do
    let mb ← lookupAll bm (op.bits.getD [])
    let o' ← construct op.cls none (.qubits (some mapped))
    measureInto o' mb
  | .measurement, none => do
    let _ ← construct op.cls none (.qubits (some mapped))
    pure ()
  | .parametric, _ => do
    let _ ← construct op.cls (some op.params) (.qubits (some mapped))
    pure ()
  | .pcontrolled, _ => do
    let _ ← construct op.cls (some op.params) (.qubits (some mapped))
    pure ()
  | .controlled, _ =>
    match starArgs mapped with
    | some a => do
      let _ ← construct op.cls none a
      pure ()
    | none => M.raise .typeError
  | .plain, _ => do
    let _ ← construct op.cls none (.qubits (some mapped))
    pure ()

/-- `dict(zip(register, objects))` (circuit.py 122, 124). -/
def zipMap (r : Reg) (l : List Nat) : M K (PyDict Lbl Nat) := fun w =>
  match r.cy.iter with
  | .error e => (.error e, w)
  | .ok items => (.ok (PyDict.ofPairs (items.zip l)), w)

/-- The bit map of `Circuit.__call__` (circuit.py 115-122). -/
def bitMap (a : Nat) (bits : Option (List Nat)) : M K (Option (PyDict Lbl Nat)) :=
  match nonempty bits with
  | none => pure none
  | some bs => do
    let r ← bitsOf a
    M.raiseIf (decide (bs.length ≠ r.cy.stop)) .valueError
    let m ← zipMap r bs
    pure (some m)

/-- `Circuit.__call__(qubits, bits)` of circuit `a` (circuit.py 94-155). -/
def callCirc [DecidableEq K] [Zero K] (a : Nat) (qubits : List Nat) (bits : Option (List Nat)) : M K Unit := do
  let active ← M.read (·.active)
  match active with
  | none => M.raise .circuitError
  | some x => do
    let ctx ← ctxObj x
    M.raiseIf (decide (ctx.circuit = a)) .typeError
    let r ← qubitsOf a
    M.raiseIf (decide (qubits.length ≠ r.cy.stop)) .valueError
    let bm ← bitMap a bits
    let r ← qubitsOf a
    let qm ← zipMap r qubits
    let A ← circ a
    M.each A.ops (callOne qm bm)

/-- `var.set(x)` (primitives.py 192-198). -/
def setVar (v : Nat) (x : K) : M K Unit := M.write fun w =>
  match w.vars[v]? with
  | some o => { w with vars := w.vars.set v { o with value := some x } }
  | none => w

/-- `var.reset()` (primitives.py 200-202). -/
def resetVar (v : Nat) : M K Unit := M.write fun w =>
  match w.vars[v]? with
  | some o => { w with vars := w.vars.set v { o with value := none } }
  | none => w

/-- `for i, var in enumerate(self._parameter_register): var.set(parameters[i])` (circuit.py 713-714). -/
def setVars : List Nat → List K → M K Unit
  | [], _ => pure ()
  | _ :: _, [] => M.raise .indexError
  | v :: vs, x :: xs => do setVar v x; setVars vs xs

/-- `ParametricCircuit.__call__(parameters, qubits, bits)` (circuit.py 696-719). -/
def callParam [DecidableEq K] [Zero K] (a : Nat) (params : List K) (qubits : List Nat) (bits : Option (List Nat)) : M K Unit := do
  let A ← circ a
  M.raiseIf (!A.param) .typeError
  let active ← M.read (·.active)
  M.whenever active.isSome (setVars A.vars params)
  M.write fun w => { w with onExit := w.onExit ++ [a] }
  callCirc a qubits bits

/-- `reset_variables()` (circuit.py 752-755). -/
def resetVariables (c : Nat) : M K Unit := do
  let C ← circ c
  M.each C.vars resetVar

/-- Indexing the parameter register, `p[i]` (registers.py 195-210): grows the register unless frozen. The result is the variable. -/
def getParam (c : Nat) (i : Int) : M K Nat := fun w =>
  match w.circs[c]? with
  | none => (.error .typeError, w)
  | some C =>
    if !C.param then (.error .typeError, w)
    else
      let n := C.vars.length
      if i ≥ n ∧ C.varsFrozen = false then
        let m := (i + 1 - n).toNat
        let new := (List.range m).map fun (j : Nat) => w.vars.length + j
        (.ok (w.vars.length + m - 1),
          { w with vars := w.vars ++ (List.range m).map fun (j : Nat) => ⟨toString (n + j), none⟩,
                   circs := w.circs.set c { C with vars := C.vars ++ new } })
      else
        let j := if i < 0 then (n : Int) + i else i
        if 0 ≤ j then
          match C.vars[j.toNat]? with
          | some v => (.ok v, w)
          | none => (.error .indexError, w)
        else (.error .indexError, w)

/-- property `context` (circuit.py 314-328, 767-774). -/
def contextOf (c : Nat) : M K Nat := fun w =>
  match w.circs[c]? with
  | none => (.error .typeError, w)
  | some C => match C.ctx with
    | some x => (.ok x, w)
    | none => (.ok w.ctxs.length, { w.setCirc c { C with ctx := some w.ctxs.length } with ctxs := w.ctxs ++ [⟨c, false⟩] })

/-- `context.__enter__()` (circuit.py 858-873, 917-926). -/
def enterCtx (x : Nat) : M K Unit := do
  let X ← ctxObj x
  let C ← circ X.circuit
  M.raiseIf C.locked .circuitError
  let active ← M.read (·.active)
  M.raiseIf active.isSome .runtimeError
  M.write fun w => { w with active := some x }
  let _ ← qubitsOf X.circuit
  let _ ← bitsOf X.circuit

/-- `context.__exit__(...)` (circuit.py 875-890, 928-940). -/
def exitCtx (x : Nat) : M K Unit := do
  let X ← ctxObj x
  modCirc X.circuit fun C => if C.param then { C with varsFrozen := true } else C
  M.write fun w => { w with active := none }
  let fs ← M.read (·.onExit)
  M.each fs resetVariables
  M.write fun w => { w with onExit := [] }
  modCirc X.circuit fun C => { C with locked := true }

/-- `lock()` (circuit.py 330-332). -/
def lockCirc (c : Nat) : M K Unit := modCirc c fun C => { C with locked := true }

/-- `unlock()` (circuit.py 334-336, 721-724). -/
def unlockCirc (c : Nat) : M K Unit := modCirc c fun C =>
  if C.param then { C with varsFrozen := false, locked := false } else { C with locked := false }

/-- `bit.reset()` for an item of a register (primitives.py 137-139); an integer has no such method. -/
def resetItem : Lbl → M K Unit
  | .obj k => M.write fun w => match w.bits[k]? with
    | some b => { w with bits := w.bits.set k { b with value := none } }
    | none => w
  | .int _ => M.raise .attributeError

/-- `for bit in self.bits: bit.reset()` (circuit.py 357-358). -/
def resetBits (c : Nat) : M K Unit := do
  let r ← bitsOf c
  match r.cy.iter with
  | .error e => M.raise e
  | .ok items => M.each items resetItem

/-- The register part of `reset` (circuit.py 353-358). -/
def resetRegisters (c : Nat) (keep : Bool) : M K Unit :=
  match keep with
  | false => modCirc c fun C => { C with q := C.q.clear, c := C.c.clear }
  | true => resetBits c

/-- `reset(keep_registers)` (circuit.py 342-360). -/
def resetCirc (c : Nat) (keep : Bool) : M K Unit := do
  let _ ← circ c
  modCirc c fun C => { C with ops := [], ctx := none }
  resetRegisters c keep
  unlockCirc c

/-- A new circuit object without registers (circuit.py 76-81, 89-92, 692). -/
def allocCirc (param : Bool) : M K Nat := fun w =>
  (.ok w.circs.length, { w with circs := w.circs ++ [{ param := param }] })

/-- `if n is not None: f(n)`. -/
def ifGiven (n : Option Int) (f : Int → M K Unit) : M K Unit :=
  match n with
  | some n => f n
  | none => pure ()

/-- `Circuit(num_qubits, num_bits)` (circuit.py 71-92) or `ParametricCircuit(...)` (circuit.py 691-694); the reference of the circuit. -/
def newCirc (param : Bool) (numQubits numBits : Option Int) : M K Nat := do
  let c ← allocCirc param
  ifGiven numQubits fun n => addQReg c n none
  ifGiven numBits fun n => addCReg c n none
  pure c

/-- `a == b` for two parameters (numbers and `Variable.__eq__`, primitives.py 174-180). -/
def paramEq [DecidableEq K] [Zero K] (w : World K) : OpParam K → OpParam K → Bool
  | .num x, .num y => decide (x = y)
  | .num x, .var v => PyVal.varEqNum (w.varVal v) x
  | .var v, .num x => PyVal.varEqNum (w.varVal v) x
  | .var v, .var u => match w.vars[v]?, w.vars[u]? with
    | some a, some b => decide (a.name = b.name)
    | _, _ => false

/-- `a == b` for two lists of parameters. -/
def paramsEq [DecidableEq K] [Zero K] (w : World K) : List (OpParam K) → List (OpParam K) → Bool
  | [], [] => true
  | a :: as, b :: bs => paramEq w a b && paramsEq w as bs
  | _, _ => false

/-- `Operation.__eq__` (base.py 253-256). -/
def baseEq (k k' : OpCls) (self op : OpObj K) : Bool :=
  decide (k'.name = k.name) && decide (op.qubits = self.qubits)

/-- `self == op` (base.py 253-256; parametric operations 374-377, which read `op.parameters`). -/
def opEq [DecidableEq K] [Zero K] (w : World K) (self op : OpObj K) : Except Err Bool :=
  match w.classes[self.cls]?, w.classes[op.cls]? with
  | some k, some k' =>
    if k.kind.isParametric then
      if k'.kind.isParametric then .ok (paramsEq w op.params self.params && baseEq k k' self op)
      else .error .attributeError
    else .ok (baseEq k k' self op)
  | _, _ => .error .typeError

/-- `self.circuit.index(op)` (circuit.py 218): compares the elements one by one with `op` (identity first). -/
def indexLoop [DecidableEq K] [Zero K] (w : World K) (o : Nat) (op : OpObj K) : List Nat → Nat → Except Err Nat
  | [], _ => .error .valueError
  | a :: rest, i =>
    if a = o then .ok i
    else match w.ops[a]? with
      | none => .error .typeError
      | some x => match opEq w x op with
        | .error e => .error e
        | .ok true => .ok i
        | .ok false => indexLoop w o op rest (i + 1)

/-- `circuit.remove(op)` (circuit.py 212-223). -/
def removeOp [DecidableEq K] [Zero K] (c o : Nat) : M K Unit := fun w =>
  match w.circs[c]?, w.ops[o]? with
  | some C, some op =>
    match indexLoop w o op C.ops 0 with
    | .error e => (.error e, w)
    | .ok i => (.ok (), w.setCirc c { C with ops := C.ops.eraseIdx i })
  | _, _ => (.error .typeError, w)

/-- `bit.set(value, force)` (primitives.py 122-135). -/
def setBit (k : Nat) (v : Bool) (force : Bool) : M K Unit := fun w =>
  match w.bits[k]? with
  | none => (.error .typeError, w)
  | some b =>
    let r := BitState.set ⟨b.value⟩ (.ok v) force
    (r.1, { w with bits := w.bits.set k { b with value := r.2.value } })

/-- `c.find_qubit(qubit, qreg_label)` (circuit.py 505-527). -/
def findQubit (c q : Nat) (asLabel : Bool) : M K ((RLabel ⊕ Nat) × Int) := fun w =>
  match w.circs[c]? with
  | none => (.error .typeError, w)
  | some C => (C.q.findItem q asLabel, w)

/-- `c.get_qubit(label, qreg_label, return_all)` (circuit.py 473-503). -/
def getQubit (c : Nat) (label : RLabel) (reg : Option RLabel) (all : Bool) : M K Bank.Found := fun w =>
  match w.circs[c]? with
  | none => (.error .typeError, w)
  | some C => (C.q.getItem (fun k => w.qubits[k]?) label reg all, w)

/-- `c.find_bit(bit, creg_label)` (circuit.py 561-583). -/
def findBit (c b : Nat) (asLabel : Bool) : M K ((RLabel ⊕ Nat) × Int) := fun w =>
  match w.circs[c]? with
  | none => (.error .typeError, w)
  | some C => (C.c.findItem b asLabel, w)

/-- `c.get_bit(label, creg_label, return_all)` (circuit.py 529-559). -/
def getBit (c : Nat) (label : RLabel) (reg : Option RLabel) (all : Bool) : M K Bank.Found := fun w =>
  match w.circs[c]? with
  | none => (.error .typeError, w)
  | some C => (C.c.getItem (fun k => (w.bits[k]?).map BitObj.label) label reg all, w)

end methods
end DG
