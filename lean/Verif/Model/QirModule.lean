import Verif.Model.Qir

/-!
# `BaseModule` of `dwave/gate/qir/compiler.py` as an object with a history of calls

`Model/Qir.lean` has what `Circuit.to_qir` does with a new module. Here are all public methods, in any order.

Simplifications, in addition to those of `Model/Qir.lean`:
* instructions with external functions are those that `get_external_instruction` returns, and are added at once (otherwise an instruction could refer to a
  function of a module that has been replaced);
* `module.verify()` finds a function that does not end with a return, or returns a value (`main` is declared to return nothing);
* erasing an LLVM instruction that has been erased before is undefined behaviour;
* the return type of external functions is void.
-/

namespace DG
variable {K : Type}

/-- Exceptions of `BaseModule`: `CompileError` (compiler.py 42-43), or another one. -/
inductive ModErr
  | compile
  | py (e : Err)
  deriving DecidableEq

/-- A function `main` in the LLVM module: its blocks, and, if it has got so far, what it returns (`some none` is `ret void`). -/
structure QirDef (K : Type) where
  blocks : List (List (LInstr K))
  ret : Option (Option (QirArg K))
  deriving DecidableEq

/-- The attribute `_return` (compiler.py 91, 149, 307). -/
inductive RetInstr
  | none | live | erased
  deriving DecidableEq

/-- `BaseModule` (compiler.py 65-100). `functions` and `defs` are the names of the functions and the definitions in `_module`; `qir` is what `_qir`
says. -/
structure BaseModule (K : Type) where
  body : List (QirInstr K) := []
  measurements : List (QirInstr K) := []
  output : List (QirInstr K) := []
  externals : PyDict String (String × List QirTy) := []
  functions : List String := []
  defs : List (QirDef K) := []
  ret : RetInstr := .none
  retCmd : Option (QirArg K) := none
  compiled : Bool := false
  qir : Option (List (QirDef K)) := none
  deriving DecidableEq

namespace BaseModule

/-- The calls that `instr.execute(builder)` makes for the instructions of a block before one of them raises an exception (compiler.py 180-184). -/
def emit : List (QirInstr K) → List (LInstr K) × Option Err
  | [] => ([], none)
  | i :: is => match Qir.execute i with
    | .error e => ([], some e)
    | .ok c => (c :: (emit is).1, (emit is).2)

/-- `pyqir.rt.result_record_output(builder, instr.args[0], null_const)` (compiler.py 181-182). -/
def record (i : QirInstr K) : Except Err (LInstr K) :=
  match i.args with
  | [] => .error .indexError
  | .result j :: _ => .ok (.call "__quantum__rt__result_record_output" [.result j, .other])
  | _ :: _ => .error .typeError

/-- The same for the block `output`. -/
def emitOutput : List (QirInstr K) → List (LInstr K) × Option Err
  | [] => ([], none)
  | i :: is => match record i with
    | .error e => ([], some e)
    | .ok c => (c :: (emitOutput is).1, (emitOutput is).2)

/-- `_compile()` (compiler.py 160-184) and `builder.ret` (compiler.py 149): the function that is added to the module, and the exception. -/
def build (M : BaseModule K) : QirDef K × Option Err :=
  let entry := [.call "__quantum__rt__initialize" [.other], .other]
  match emit M.body with
  | (b, some e) => (⟨[entry, b], none⟩, some e)
  | (b, none) => match emit M.measurements with
    | (m, some e) => (⟨[entry, b ++ [.other], m], none⟩, some e)
    | (m, none) => match emitOutput M.output with
      | (o, some e) => (⟨[entry, b ++ [.other], m ++ [.other], o], none⟩, some e)
      | (o, none) => (⟨[entry, b ++ [.other], m ++ [.other], o ++ [.ret]], some M.retCmd⟩, none)

/-- The functions that the instructions of a function call. -/
def callees (d : QirDef K) : List String := d.blocks.flatten.filterMap fun | .call f _ => some f | _ => none

/-- `self._module.verify()` (compiler.py 151). -/
def verify (defs : List (QirDef K)) : Bool := defs.all fun d => match d.ret with | some none => true | _ => false

/-- `_remove_external_instructions` (compiler.py 330-336), for one block. -/
def keepInternal (l : List (QirInstr K)) : List (QirInstr K) := l.filter fun i => !decide (i.type = .external)

/-- The loop that declares the external functions in the new module (compiler.py 318-325): the names of the functions, and the dictionary. -/
def redeclare (uniq : List String → String → String) : PyDict String (String × List QirTy) → List String →
    List String × PyDict String (String × List QirTy)
  | [], fs => (fs, [])
  | (name, f, tys) :: rest, fs =>
    let f' := uniq fs f
    let r := redeclare uniq rest (fs ++ [f'])
    (r.1, (name, f', tys) :: r.2)

/-- `reset(rm_instructions)` (compiler.py 299-328). -/
def reset (uniq : List String → String → String) (rm : Bool) (M : BaseModule K) : Except ModErr Unit × BaseModule K :=
  let M1 := { M with defs := [], functions := [], body := keepInternal M.body, measurements := keepInternal M.measurements,
                     output := keepInternal M.output }
  match M1.ret with
  | .none => (.error (.py .attributeError), M1)
  | .erased => (.error (.py .undefinedBehaviour), M1)
  | .live =>
    let M2 := if rm then { M1 with ret := .erased, body := [], measurements := [], output := [], retCmd := none, externals := [] }
      else { M1 with ret := .erased, functions := (redeclare uniq M1.externals []).1, externals := (redeclare uniq M1.externals []).2 }
    (.ok (), { M2 with compiled := false, qir := none })

/-- `compile(force, strict)` from `self._compile()` on (compiler.py 147-158). -/
def compileNow (strict : Bool) (M : BaseModule K) : Except ModErr Unit × BaseModule K :=
  let d := M.build
  let M1 := { M with defs := M.defs ++ [d.1], functions := M.functions ++ (callees d.1).filter fun f => !decide (f ∈ M.functions) }
  match d.2 with
  | some e => (.error (.py e), M1)
  | none =>
    let M2 := { M1 with ret := .live }
    if !verify M2.defs && strict then (.error .compile, M2)
    else (.ok (), { M2 with qir := some M2.defs, compiled := true })

/-- `compile(force, strict)` (compiler.py 132-158). -/
def compile (uniq : List String → String → String) (force strict : Bool) (M : BaseModule K) : Except ModErr Unit × BaseModule K :=
  if M.compiled then
    if !force then (.error .compile, M)
    else match reset uniq false M with
      | (.error e, M1) => (.error e, M1)
      | (.ok _, M1) => compileNow strict M1
  else compileNow strict M

/-- property `qir` (compiler.py 228-239). -/
def getQir (uniq : List String → String → String) (M : BaseModule K) : Except ModErr (Option (List (QirDef K))) × BaseModule K :=
  if M.compiled then (.ok M.qir, M)
  else match compile uniq false true M with
    | (.error e, M1) => (.error e, M1)
    | (.ok _, M1) => (.ok M1.qir, M1)

/-- property `bitcode` (compiler.py 241-252): the bitcode of the module as it is. -/
def getBitcode (uniq : List String → String → String) (M : BaseModule K) : Except ModErr (Option (List (QirDef K))) × BaseModule K :=
  if M.compiled then (.ok (some M.defs), M)
  else match compile uniq false true M with
    | (.error e, M1) => (.error e, M1)
    | (.ok _, M1) => (.ok (some M1.defs), M1)

/-- `add_instruction(block, instruction)` (compiler.py 254-261). -/
def addInstruction (block : String) (i : QirInstr K) (M : BaseModule K) : Except ModErr Unit × BaseModule K :=
  if block = "body" then (.ok (), { M with body := M.body ++ [i] })
  else if block = "measurements" then (.ok (), { M with measurements := M.measurements ++ [i] })
  else if block = "output" then (.ok (), { M with output := M.output ++ [i] })
  else (.error (.py .keyError), M)

/-- `add_instruction(block, get_external_instruction(name, args))` (compiler.py 211-226, 254-261; instructions.py 128-129). -/
def addExternalInstruction (block name : String) (args : List (QirArg K)) (M : BaseModule K) : Except ModErr Unit × BaseModule K :=
  match M.externals.get? name with
  | none => (.error (.py .valueError), M)
  | some f => addInstruction block ⟨.external, name, args, some f⟩ M

/-- `add_external_function(name, parameter_types)` (compiler.py 263-280). -/
def addExternalFunction (uniq : List String → String → String) (name : String) (tys : List QirTy) (M : BaseModule K) : Except ModErr Unit × BaseModule K :=
  let f := uniq M.functions (Qir.qisName name)
  (.ok (), { M with functions := M.functions ++ [f], externals := M.externals.set name (f, tys) })

/-- `set_return(ret_cmd, force)` (compiler.py 282-297). -/
def setReturn (cmd : Option (QirArg K)) (force : Bool) (M : BaseModule K) : Except ModErr Unit × BaseModule K :=
  if M.retCmd.isSome && !force then (.error (.py .valueError), M)
  else (.ok (), { M with retCmd := cmd })

end BaseModule

/-- The calls of methods of a module. -/
inductive ModCall (K : Type)
  /-- `add_instruction(block, Instruction(type, name, args))`; the type is not `EXTERNAL`, which the constructor of `Instruction` refuses without a function. -/
  | add (block : String) (type : InstrType) (name : String) (args : List (QirArg K))
  | addExternal (block name : String) (args : List (QirArg K))
  | declare (name : String) (tys : List QirTy)
  | setReturn (cmd : Option (QirArg K)) (force : Bool)
  | compile (force strict : Bool)
  | reset (rm : Bool)
  | qir
  | bitcode

/-- The result of a call: an exception, or what the properties return (`none` for methods). -/
def ModCall.run (uniq : List String → String → String) (e : ModCall K) (M : BaseModule K) : Except ModErr (Option (List (QirDef K))) × BaseModule K :=
  match e with
  | .add block type name args =>
    if type = .external then (.error (.py .valueError), M)
    else let r := M.addInstruction block ⟨type, name, args, none⟩; (r.1.map fun _ => none, r.2)
  | .addExternal block name args => let r := M.addExternalInstruction block name args; (r.1.map fun _ => none, r.2)
  | .declare name tys => let r := M.addExternalFunction uniq name tys; (r.1.map fun _ => none, r.2)
  | .setReturn cmd force => let r := M.setReturn cmd force; (r.1.map fun _ => none, r.2)
  | .compile force strict => let r := M.compile uniq force strict; (r.1.map fun _ => none, r.2)
  | .reset rm => let r := M.reset uniq rm; (r.1.map fun _ => none, r.2)
  | .qir => M.getQir uniq
  | .bitcode => M.getBitcode uniq

end DG
