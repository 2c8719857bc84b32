import Verif.Model.Program

/-!
# QIR: `dwave/gate/qir/instructions.py`, `compiler.py`, `loader.py`, and `Circuit.to_qir`, `Circuit.from_qir`

The text or bitcode of a QIR module is abstracted to its functions, their blocks and the instructions in them.

Simplifications:
* writing a module as text or bitcode and reading it again gives the same functions, blocks and instructions (pyqir, LLVM);
* the functions `pyqir.qis.*` emit one call, and raise `TypeError` unless there are as many arguments as needed, of the right types; so does
  `builder.call`; `module.verify()` finds nothing wrong;
* which name LLVM gives to a new function if functions with given names exist is a parameter `uniq`;
* parameters are real numbers; numbers in the QIR module are the same numbers;
* declarations without blocks, module flags and attributes are dropped; `set_return` is not used.
-/

namespace DG
variable {K : Type}

/-- `InstrType` (instructions.py 33-54). -/
inductive InstrType
  | base | external | decompose | invalid | skip | measurement | output
  deriving DecidableEq, Repr

/-- Types of parameters of QIR functions (compiler.py 103-130). -/
inductive QirTy
  | double | qubit | result
  deriving DecidableEq, Repr

/-- An argument of a call: a floating-point number, a qubit or result constant, or anything else. -/
inductive QirArg (K : Type)
  | dbl (x : K)
  | qubit (i : Nat)
  | result (i : Nat)
  | other
  deriving DecidableEq

/-- `Instruction` (instructions.py 105-156). For an external function: its name in the module and the types of its parameters. -/
structure QirInstr (K : Type) where
  type : InstrType
  name : String
  args : List (QirArg K)
  external : Option (String × List QirTy) := none
  deriving DecidableEq

/-- `BaseModule` (compiler.py 65-100): the three blocks, the external functions by name, and the names of all functions in the module. -/
structure QirModule (K : Type) where
  numQubits : Nat
  numBits : Nat
  body : List (QirInstr K) := []
  measurements : List (QirInstr K) := []
  output : List (QirInstr K) := []
  externals : PyDict String (String × List QirTy) := []
  functions : List String := []

/-- An instruction in a block of a function: a call, a return, or anything else (for instance a branch). -/
inductive LInstr (K : Type)
  | call (callee : String) (args : List (QirArg K))
  | ret
  | other
  deriving DecidableEq

/-- A QIR module: for every function its blocks. -/
abbrev QirProgram (K : Type) := List (List (List (LInstr K)))

namespace Qir

/-- `Operations.to_qir` (instructions.py 63-87). -/
def table : PyDict String (InstrType × String) :=
  [("Identity", .skip, "id"), ("X", .base, "x"), ("Y", .base, "y"), ("Z", .base, "z"), ("Hadamard", .base, "h"), ("S", .base, "s"),
    ("T", .base, "t"), ("RX", .base, "rx"), ("RY", .base, "ry"), ("RZ", .base, "rz"), ("Rotation", .external, "rot"), ("CX", .base, "cx"),
    ("CY", .external, "cy"), ("CZ", .base, "cz"), ("SWAP", .external, "swap"), ("CHadamard", .external, "ch"), ("CRX", .external, "crx"),
    ("CRY", .external, "cry"), ("CRZ", .external, "crz"), ("CRotation", .external, "crot"), ("CSWAP", .external, "cswap"),
    ("CCX", .external, "ccnot"), ("Measurement", .measurement, "mz")]

/-- `f"__quantum__qis__{name}__body"` (instructions.py 92, compiler.py 277). -/
def qisName (name : String) : String := "__quantum__qis__" ++ name ++ "__body"

/-- `Operations.from_qis_operation` (instructions.py 91-102). -/
def fromQis : PyDict String String :=
  (PyDict.ofPairs ((table.filter fun p => p.2.1 ≠ .decompose ∧ p.2.1 ≠ .invalid).map fun p => (qisName p.2.2, p.1))).set "__quantum__qis__cnot__body" "CX"

/-- The functions of `pyqir.qis` that are used (instructions.py 177), with the function they call in the module and its parameters. -/
def qis : PyDict String (String × List QirTy) :=
  [("x", qisName "x", [.qubit]), ("y", qisName "y", [.qubit]), ("z", qisName "z", [.qubit]), ("h", qisName "h", [.qubit]),
    ("s", qisName "s", [.qubit]), ("t", qisName "t", [.qubit]), ("rx", qisName "rx", [.double, .qubit]),
    ("ry", qisName "ry", [.double, .qubit]), ("rz", qisName "rz", [.double, .qubit]), ("cx", qisName "cnot", [.qubit, .qubit]),
    ("cz", qisName "cz", [.qubit, .qubit]), ("mz", qisName "mz", [.qubit, .result])]

/-- The type of an argument. -/
def argTy : QirArg K → Option QirTy
  | .dbl _ => some .double
  | .qubit _ => some .qubit
  | .result _ => some .result
  | .other => none

/-- `module.qubits[i]`, `module.results[i]`: lists of constants with the numbers from 0 to `n` - 1. -/
def constant (n : Nat) (mk : Nat → QirArg K) (i : Int) : Except Err (QirArg K) :=
  if 0 ≤ i ∧ i < n then .ok (mk i.toNat)
  else if i < 0 ∧ 0 ≤ i + n then .ok (mk (i + n).toNat)
  else .error .indexError

/-- `_, i = circuit.find_qubit(qb)` and `module.qubits[i]` (compiler.py 368-370, 389-390), or the same for bits. -/
def place (b : Bank) (n : Nat) (mk : Nat → QirArg K) (x : Nat) : Except Err (QirArg K) :=
  match b.findItem x false with
  | .error e => .error e
  | .ok (_, i) => constant n mk i

/-- The loop over the qubits of an operation (compiler.py 388-390). -/
def places (b : Bank) (n : Nat) (mk : Nat → QirArg K) : List Nat → Except Err (List (QirArg K))
  | [] => .ok []
  | x :: xs => match place b n mk x with
    | .error e => .error e
    | .ok a => match places b n mk xs with
      | .error e => .error e
      | .ok l => .ok (a :: l)

/-- The parameters among the arguments (compiler.py 385-386); variables are refused by `Instruction` (instructions.py 133-141). -/
def paramArgs : List (OpParam K) → Except Err (List (QirArg K))
  | [] => .ok []
  | .num x :: ps => match paramArgs ps with
    | .error e => .error e
    | .ok l => .ok (.dbl x :: l)
  | .var _ :: _ => .error .typeError

/-- The loop over the pairs of qubits and bits of a measurement (compiler.py 367-376). -/
def measure (C : Circ) (name : String) : List (Nat × Nat) → QirModule K → Except Err (QirModule K)
  | [], M => .ok M
  | (q, b) :: rest, M =>
    match place C.q M.numQubits QirArg.qubit q with
    | .error e => .error e
    | .ok x => match place C.c M.numBits QirArg.result b with
      | .error e => .error e
      | .ok y => measure C name rest { M with measurements := M.measurements ++ [⟨.measurement, name, [x, y], none⟩],
                                              output := M.output ++ [⟨.output, "out", [y], none⟩] }

/-- `add_external_function` (compiler.py 264-280) with the types of compiler.py 355-359: first the qubits, then the parameters. `num_parameters`
is 0 for operations without that attribute. `op.num_qubits` is the attribute of the instance. -/
def addExternal (uniq : List String → String → String) (k : OpCls) (op : OpObj K) (name : String) (M : QirModule K) : Except Err (QirModule K) :=
  match op.numQubits with
  | none => .error .typeError
  | some n =>
    let f := uniq M.functions (qisName name)
    let np := if k.kind.isParametric then k.numParams.getD 0 else 0
    .ok { M with functions := M.functions ++ [f],
                 externals := M.externals.set name (f, List.replicate n QirTy.qubit ++ List.replicate np QirTy.double) }

/-- A gate (compiler.py 384-397, 211-226). -/
def gate (C : Circ) (k : OpCls) (op : OpObj K) (ty : InstrType) (name : String) (M : QirModule K) : Except Err (QirModule K) :=
  match op.qubits with
  | none => .error .typeError
  | some qs => match places C.q M.numQubits QirArg.qubit qs with
    | .error e => .error e
    | .ok as => match paramArgs (if k.kind.isParametric then op.params else []) with
      | .error e => .error e
      | .ok ps => .ok { M with body := M.body ++ [⟨ty, name, ps ++ as, if ty = .external then M.externals.get? name else none⟩] }

/-- The body of the loop of `qir_module` (compiler.py 353-401). `measured`: the variable `block` is `"measurements"`. -/
def step (uniq : List String → String → String) (ext : Bool) (C : Circ) (k : OpCls) (op : OpObj K) (measured : Bool) (M : QirModule K) :
    Except Err (Bool × QirModule K) :=
  match table.get? k.name with
  | some (.measurement, name) =>
    match op.qubits, op.bits with
    | some qs, some bs => match measure C name (qs.zip bs) M with
      | .error e => .error e
      | .ok M' => .ok (true, M')
    | _, _ => .error .typeError
  | some (.base, name) =>
    if measured then .error .valueError
    else match gate C k op .base name M with
      | .error e => .error e
      | .ok M' => .ok (measured, M')
  | some (.external, name) =>
    if ext then
      match addExternal uniq k op name M with
      | .error e => .error e
      | .ok M' =>
        if measured then .error .valueError
        else match gate C k op .external name M' with
          | .error e => .error e
          | .ok M'' => .ok (measured, M'')
    else .error .notImplementedError
  | _ => .error .notImplementedError

/-- The loop of `qir_module` over the operations (compiler.py 352-401). -/
def loop (uniq : List String → String → String) (ext : Bool) (w : World K) (C : Circ) : List Nat → Bool → QirModule K → Except Err (QirModule K)
  | [], _, M => .ok M
  | o :: rest, measured, M =>
    match w.ops[o]? with
    | none => .error .typeError
    | some op => match w.classes[op.cls]? with
      | none => .error .typeError
      | some k => match step uniq ext C k op measured M with
        | .error e => .error e
        | .ok (measured', M') => loop uniq ext w C rest measured' M'

/-- `instruction.execute(builder)` (instructions.py 158-185) for instructions of the blocks body and measurements: the call. Names that `pyqir.qis`
does not have raise `AttributeError`; it has functions that are not used here and not in `qis`, which are not modelled. -/
def execute (i : QirInstr K) : Except Err (LInstr K) :=
  let f := match i.type with
    | .base => qis.get? i.name
    | .measurement => qis.get? i.name
    | .external => i.external
    | _ => none
  match f with
  | none => .error (if i.type = .base ∨ i.type = .measurement then .attributeError else .typeError)
  | some (callee, tys) => if i.args.map argTy = tys.map some then .ok (.call callee i.args) else .error .typeError

/-- `for instr in instructions: instr.execute(builder)` (compiler.py 180-184). -/
def executeAll : List (QirInstr K) → Except Err (List (LInstr K))
  | [] => .ok []
  | i :: is => match execute i with
    | .error e => .error e
    | .ok c => match executeAll is with
      | .error e => .error e
      | .ok l => .ok (c :: l)

/-- `pyqir.rt.result_record_output(builder, instr.args[0], null_const)` (compiler.py 181-182). -/
def record (i : QirInstr K) : LInstr K := .call "__quantum__rt__result_record_output" (i.args.take 1 ++ [.other])

/-- `compile()` of a new module (compiler.py 134-184): the blocks `entry`, `body`, `measurements` and `output` of the function `main`. -/
def compile (M : QirModule K) : Except Err (QirProgram K) :=
  match executeAll M.body with
  | .error e => .error e
  | .ok body => match executeAll M.measurements with
    | .error e => .error e
    | .ok meas => .ok [[[.call "__quantum__rt__initialize" [.other], .other], body ++ [.other], meas ++ [.other], M.output.map record ++ [.ret]]]

/-- `"__qis__" in name`. -/
def isQis (name : String) : Bool := decide ("__qis__".toList <:+: name.toList)

/-- `_deconstruct_call_instruction` (loader.py 155-189): parameters, qubits, bits. Other arguments raise an exception. -/
def deconstruct : List (QirArg K) → Except Err (List K × List Nat × List Nat)
  | [] => .ok ([], [], [])
  | a :: as => match a, deconstruct as with
    | .other, _ => .error .attributeError
    | _, .error e => .error e
    | .dbl x, .ok (ps, qs, bs) => .ok (x :: ps, qs, bs)
    | .qubit i, .ok (ps, qs, bs) => .ok (ps, i :: qs, bs)
    | .result i, .ok (ps, qs, bs) => .ok (ps, qs, i :: bs)

/-- How `getattr(ops, op_name)(*params, qubits=...)` (loader.py 127) binds its arguments (base.py 174, 366, 473, 616, 665): the argument
`parameters`; `none` is a `TypeError`. Controlled operations ignore positional arguments for `control` and `target` if there are `qubits`. -/
def bindArgs : OpKind → List K → Option (Option (List (OpParam K)))
  | .plain, [] => some none
  | .measurement, [] => some none
  | .parametric, [x] => some (some [.num x])
  | .controlled, [] => some none
  | .controlled, [_] => some none
  | .controlled, [_, _] => some none
  | .pcontrolled, [x] => some (some [.num x])
  | .pcontrolled, [x, _] => some (some [.num x])
  | .pcontrolled, [x, _, _] => some (some [.num x])
  | _, _ => none

/-- `max(l or [0])`. -/
def maxOf (l : List Nat) : Nat := l.foldl max 0

/-- `[reg[i] for i in l]` for a register of qubits or bits. -/
def pick (r : Reg) : List Nat → Except Err (List Nat)
  | [] => .ok []
  | i :: is => match r.cy.at i with
    | .error e => .error e
    | .ok (.int _) => .error .typeError
    | .ok (.obj x) => match pick r is with
      | .error e => .error e
      | .ok l => .ok (x :: l)

/-- A value or an exception. -/
def lift {α : Type} (r : Except Err α) : M K α := fun w => (r, w)

/-- Build an operation by class, parameters and qubits (loader.py 127). `lib` maps the names of operations to their classes. The registers `reg.q`
and `reg.c` are what `circuit.qubits` and `circuit.bits` returned when the context was entered; they cannot change until here. -/
def apply [DecidableEq K] [Zero K] (lib : String → Nat) (c : Nat) (name : String) (params : List K) (qubits : List Nat) : M K Unit := do
  let r ← qubitsOf c
  let qs ← lift (pick r qubits)
  let k ← clsObj (lib name)
  match bindArgs k.kind params with
  | none => M.raise .typeError
  | some ps => (construct (lib name) ps (.qubits (some qs))).void

/-- The part of the loop for gates (loader.py 122-127). -/
def loadGate [DecidableEq K] [Zero K] (lib : String → Nat) (c : Nat) (name : String) (params : List K) (qubits : List Nat) : M K Unit := do
  let r ← qubitsOf c
  M.each (List.range (maxOf qubits + 1 - r.cy.stop)) fun _ => addQubit c .none none
  unlockCirc c
  withStmt (openCtx c) (apply lib c name params qubits) exitCtx

/-- The body of the `with` statement of `_add_measurements` (loader.py 149-152). -/
def applyMeasure [DecidableEq K] [Zero K] (lib : String → Nat) (c : Nat) (qubits bits : List Nat) : M K Unit := do
  let r ← qubitsOf c
  let qs ← lift (pick r qubits)
  let s ← bitsOf c
  let bs ← lift (pick s bits)
  let o ← construct (lib "Measurement") none (.qubits (some qs))
  measureInto o bs

/-- `_add_measurements` (loader.py 136-152). -/
def addMeasurements [DecidableEq K] [Zero K] (lib : String → Nat) (c : Nat) (qubits bits : List Nat) : M K Unit := do
  let s ← bitsOf c
  M.each (List.range (maxOf bits + 1 - s.cy.stop)) fun _ => addBit c .none none
  unlockCirc c
  withStmt (openCtx c) (applyMeasure lib c qubits bits) exitCtx

/-- A call (loader.py 105-127): the qubits and bits to measure at the end are collected in `acc`. -/
def loadCall [DecidableEq K] [Zero K] (lib : String → Nat) (c : Nat) (callee : String) (args : List (QirArg K)) (acc : List Nat × List Nat) :
    M K (List Nat × List Nat) :=
  if !isQis callee then pure acc
  else match fromQis.get? callee with
    | none => M.raise .typeError
    | some name => match deconstruct args with
      | .error e => M.raise e
      | .ok (ps, qs, bs) =>
        if name = "Measurement" then pure (acc.1 ++ qs, acc.2 ++ bs)
        else do loadGate lib c name ps qs; pure acc

/-- The instructions of a block (loader.py 99-127): whether the function has returned, and the measurements. -/
def loadBlock [DecidableEq K] [Zero K] (lib : String → Nat) (c : Nat) : List (LInstr K) → List Nat × List Nat → M K (Bool × (List Nat × List Nat))
  | [], acc => pure (false, acc)
  | .ret :: _, acc => pure (true, acc)
  | .other :: is, acc => loadBlock lib c is acc
  | .call callee args :: is, acc => do
    let acc' ← loadCall lib c callee args acc
    loadBlock lib c is acc'

/-- The blocks of a function (loader.py 93-97): the blocks after the return are ignored. -/
def loadFunction [DecidableEq K] [Zero K] (lib : String → Nat) (c : Nat) : List (List (LInstr K)) → List Nat × List Nat → M K (List Nat × List Nat)
  | [], acc => pure acc
  | b :: bs, acc => do
    let r ← loadBlock lib c b acc
    if r.1 then pure r.2 else loadFunction lib c bs r.2

/-- The functions of a module (loader.py 92). -/
def loadFunctions [DecidableEq K] [Zero K] (lib : String → Nat) (c : Nat) : QirProgram K → List Nat × List Nat → M K (List Nat × List Nat)
  | [], acc => pure acc
  | f :: fs, acc => do
    let acc' ← loadFunction lib c f acc
    loadFunctions lib c fs acc'

/-- `_module_to_circuit(module, circuit)` (loader.py 73-133). -/
def loadInto [DecidableEq K] [Zero K] (lib : String → Nat) (c : Nat) (P : QirProgram K) : M K Unit := do
  let acc ← loadFunctions lib c P ([], [])
  M.whenever (!acc.1.isEmpty) (addMeasurements lib c acc.1 acc.2)

end Qir

/-- `circuit.to_qir(add_external)` (circuit.py 643-662, compiler.py 339-403). -/
def toQir (uniq : List String → String → String) (c : Nat) (ext : Bool) : M K (QirProgram K) := do
  let r ← qubitsOf c
  let s ← bitsOf c
  let C ← circ c
  let w ← M.read id
  match Qir.loop uniq ext w C C.ops false { numQubits := r.cy.stop, numBits := s.cy.stop } with
  | .error e => M.raise e
  | .ok M' => Qir.lift (Qir.compile M')

/-- `Circuit.from_qir(qir)` (circuit.py 664-681): the new circuit. -/
def fromQir [DecidableEq K] [Zero K] (lib : String → Nat) (P : QirProgram K) : M K Nat := do
  let c ← newCirc false none none
  Qir.loadInto lib c P
  pure c

end DG
