import Verif.Model.World
import Verif.Spec.Qasm

/-!
# Printing objects

`__repr__` of circuits, qubits, bits, variables, operations, measurements and registers. What Python itself prints is given: `repr(label)`
and `str(value)` are arbitrary texts, ids are texts.

Simplifications: conditions are tuples of bits (base.py 343-349 stores whatever sequence it is given); operation classes derive directly from a
class of base.py (`__base__`).
-/

namespace DG

/-- `repr` of a Python tuple whose items print as `l`. -/
def pyTuple : List String → String
  | [] => "()"
  | [x] => "(" ++ x ++ ",)"
  | l => "(" ++ Spec.joinWith ", " l ++ ")"

/-- `repr` of a Python list whose items print as `l`. -/
def pyList (l : List String) : String := "[" ++ Spec.joinWith ", " l ++ "]"

/-- `repr` of `None` or a tuple. -/
def pyOptTuple : Option (List String) → String
  | none => "None"
  | some l => pyTuple l

/-- `Qubit.__repr__` (primitives.py 63-65), for a qubit whose label prints as `label`. -/
def reprQubit (label id : String) : String := "<qubit: " ++ label ++ ", id: " ++ id ++ ">"

/-- `Bit.__repr__` (primitives.py 112-116). -/
def reprBit (label id : String) (value : Option Int) : String :=
  match value with
  | some v => "<bit: " ++ label ++ ", id: " ++ id ++ ", value: " ++ toString v ++ ">"
  | none => "<bit: " ++ label ++ ", id: " ++ id ++ ">"

/-- `Variable.__repr__` (primitives.py 182-186); `num` is `str` of numbers. `if self._value` is false for `None` and for zero. -/
def reprVar {K : Type} [DecidableEq K] [Zero K] (num : K → String) (v : VarObj K) : String :=
  match v.value with
  | some x => if x = 0 then "{" ++ v.name ++ "}" else num x
  | none => "{" ++ v.name ++ "}"

/-- `Register.__str__` (registers.py 74-76) of a register of class `cls` whose items print as `items`. -/
def strRegister (cls : String) (items : List String) : String := cls ++ "(" ++ pyList items ++ ")"

/-- `Register.__repr__` (registers.py 78-80). -/
def reprRegister (cls : String) (items : List String) : String := "<" ++ cls ++ ", data=" ++ pyList items ++ ">"

/-- `Operation.name` of an instance (base.py 268-274). `params` is `none` if there is no attribute `parameters`. -/
def opName (cls : String) (params : Option (List String)) : String :=
  match params with
  | some ps => cls ++ "(" ++ pyList ps ++ ")"
  | none => cls

/-- `Operation.__repr__` (base.py 262-266). `base` is the name of the base class; `if self._cond` is false for `None` and for no bits. -/
def reprOperation (base cls : String) (params qubits cond : Option (List String)) : String :=
  match cond with
  | some (b :: bs) => "<" ++ base ++ ": " ++ opName cls params ++ ", qubits=" ++ pyOptTuple qubits ++ ", conditional: " ++ pyTuple (b :: bs) ++ ">"
  | _ => "<" ++ base ++ ": " ++ opName cls params ++ ", qubits=" ++ pyOptTuple qubits ++ ">"

/-- `Measurement.__repr__` (base.py 672-673). -/
def reprMeasurement (qubits bits : Option (List String)) : String :=
  "<Measurement, qubits=" ++ pyOptTuple qubits ++ ", measured=" ++ pyOptTuple bits ++ ">"

/-- The name of the class of base.py an operation class derives from (base.py 173, 352, 456, 599, 653). -/
def OpKind.baseName : OpKind → String
  | .plain => "Operation"
  | .parametric => "ParametricOperation"
  | .controlled => "ControlledOperation"
  | .pcontrolled => "ParametricControlledOperation"
  | .measurement => "Operation"

/-- What Python prints for labels and numbers, and the ids of qubits and bits. -/
structure Texts (K : Type) where
  label : RLabel → String
  num : K → String
  qubitId : Nat → String
  bitId : Nat → String

namespace World
variable {K : Type} [DecidableEq K] [Zero K]

/-- `repr` of qubit `q`. -/
def qubitText (T : Texts K) (w : World K) (q : Nat) : String :=
  match w.qubits[q]? with
  | some l => reprQubit (T.label l) (T.qubitId q)
  | none => ""

/-- `repr` of bit `b`. -/
def bitText (T : Texts K) (w : World K) (b : Nat) : String :=
  match w.bits[b]? with
  | some o => reprBit (T.label o.label) (T.bitId b) o.value
  | none => ""

/-- `repr` of a parameter. -/
def paramText (T : Texts K) (w : World K) : OpParam K → String
  | .num x => T.num x
  | .var v => match w.vars[v]? with
    | some o => reprVar T.num o
    | none => ""

/-- `repr(op)` and `str(op)` (base.py 258-266, 672-673) of operation `o`. -/
def opText (T : Texts K) (w : World K) (o : Nat) : String :=
  match w.ops[o]? with
  | none => ""
  | some op => match w.classes[op.cls]? with
    | none => ""
    | some k =>
      let qs := op.qubits.map fun l => l.map (w.qubitText T)
      if k.kind = .measurement then reprMeasurement qs (op.bits.map fun l => l.map (w.bitText T))
      else reprOperation k.kind.baseName k.name (if k.kind.isParametric then some (op.params.map (w.paramText T)) else none) qs
        (op.cond.map fun l => l.map (w.bitText T))

end World

/-- The text of `Circuit.__repr__` (circuit.py 471). -/
def circuitText (cls : String) (qubits bits ops : Nat) : String :=
  "<" ++ cls ++ ": qubits=" ++ toString qubits ++ ", bits=" ++ toString bits ++ ", ops=" ++ toString ops ++ ">"

/-- `Circuit.__repr__` (circuit.py 468-471): reads `self.qubits`, then `self.bits`, then the list of operations. -/
def reprCircuit {K : Type} (c : Nat) : M K String := do
  let q ← qubitsOf c
  let b ← bitsOf c
  fun w => match w.circs[c]? with
    | none => (.error .typeError, w)
    | some C => (.ok (circuitText (if C.param then "ParametricCircuit" else "Circuit") q.cy.stop b.cy.stop C.ops.length), w)

end DG
