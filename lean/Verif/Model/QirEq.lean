import Verif.Model.Qir

/-!
# Equality of QIR instructions: `dwave/gate/qir/instructions.py` 187-221

Simplifications: those of `Model/Qir.lean`; integers among the arguments are numbers like others; `value` is an instruction.
-/

namespace DG.Qir
variable {K : Type}

/-- `[a.type.pointee.name == "Qubit" for a in args if isinstance(a, pyqir.Constant)].count(True)` (instructions.py 196-202). -/
def numQubits (args : List (QirArg K)) : Nat := (args.filterMap fun | .qubit _ => some true | .result _ => some false | .other => some false | .dbl _ => none).count true

/-- The same for `"Result"` (instructions.py 204-210). -/
def numResults (args : List (QirArg K)) : Nat := (args.filterMap fun | .qubit _ => some false | .result _ => some true | .other => some false | .dbl _ => none).count true

/-- `[a for a in args if isinstance(a, (int, float))]` (instructions.py 212-213). -/
def numbers (args : List (QirArg K)) : List K := args.filterMap fun | .dbl x => some x | _ => none

/-- `Instruction.__eq__` (instructions.py 187-221). -/
def instrEq [DecidableEq K] (self value : QirInstr K) : Bool :=
  let eqName := decide (self.name = value.name)
  let eqType := decide (self.type = value.type)
  let eqQubits := decide (numQubits self.args = numQubits value.args)
  let eqResults := decide (numResults self.args = numResults value.args)
  let eqParameters := decide (numbers self.args = numbers value.args)
  if eqName && eqType && eqQubits && eqResults && eqParameters then true else false

end DG.Qir
