import Verif.Model.QirModule
import Mathlib.Data.List.Forall2

/-!
# Specification of QIR modules

Which program the instructions of a module stand for, and histories of calls.
-/

namespace DG.Spec
variable {K : Type}

/-- Instructions of the base profile: name, function, and the types of its arguments. -/
def baseInstructions : List (String × String × List QirTy) :=
  [("x", "__quantum__qis__x__body", [.qubit]), ("y", "__quantum__qis__y__body", [.qubit]), ("z", "__quantum__qis__z__body", [.qubit]),
    ("h", "__quantum__qis__h__body", [.qubit]), ("s", "__quantum__qis__s__body", [.qubit]), ("t", "__quantum__qis__t__body", [.qubit]),
    ("rx", "__quantum__qis__rx__body", [.double, .qubit]), ("ry", "__quantum__qis__ry__body", [.double, .qubit]),
    ("rz", "__quantum__qis__rz__body", [.double, .qubit]), ("cx", "__quantum__qis__cnot__body", [.qubit, .qubit]),
    ("cz", "__quantum__qis__cz__body", [.qubit, .qubit]), ("mz", "__quantum__qis__mz__body", [.qubit, .result])]

/-- An argument has the given type. -/
inductive HasTy : QirArg K → QirTy → Prop
  | dbl (x) : HasTy (.dbl x) .double
  | qubit (i) : HasTy (.qubit i) .qubit
  | result (i) : HasTy (.result i) .result

/-- The call that an instruction stands for: of a function of the base profile, or of an external function. The arguments have the types that the function
expects. -/
def Emits (i : QirInstr K) (c : LInstr K) : Prop :=
  ∃ callee tys, (((i.type = .base ∨ i.type = .measurement) ∧ (i.name, callee, tys) ∈ baseInstructions) ∨ (i.type = .external ∧ i.external = some (callee, tys))) ∧
    List.Forall₂ HasTy i.args tys ∧ c = .call callee i.args

/-- The call that an instruction in the block `output` stands for. -/
def Records (i : QirInstr K) (c : LInstr K) : Prop :=
  ∃ j rest, i.args = .result j :: rest ∧ c = .call "__quantum__rt__result_record_output" [.result j, .other]

/-- The function `main` for the instructions of the three blocks, in order. -/
def MainOf (body measurements output : List (QirInstr K)) (ret : Option (QirArg K)) (d : QirDef K) : Prop :=
  ∃ b m o, List.Forall₂ Emits body b ∧ List.Forall₂ Emits measurements m ∧ List.Forall₂ Records output o ∧
    d = ⟨[[.call "__quantum__rt__initialize" [.other], .other], b ++ [.other], m ++ [.other], o ++ [.ret]], some ret⟩

/-- The module after the calls, whether or not they raise exceptions. -/
def runAll (uniq : List String → String → String) (es : List (ModCall K)) (M : BaseModule K) : BaseModule K :=
  es.foldl (fun M e => (e.run uniq M).2) M

/-- What the calls return. -/
def results (uniq : List String → String → String) : List (ModCall K) → BaseModule K → List (Except ModErr (Option (List (QirDef K))))
  | [], _ => []
  | e :: es, M => (e.run uniq M).1 :: results uniq es (e.run uniq M).2

/-- The states of a module in all histories of calls, as long as nothing undefined happens. -/
inductive ModHistory (uniq : List String → String → String) : BaseModule K → Prop
  | new : ModHistory uniq {}
  | call {M : BaseModule K} {e : ModCall K} : ModHistory uniq M → (e.run uniq M).1 ≠ .error (.py .undefinedBehaviour) → ModHistory uniq (e.run uniq M).2

/-- The instructions that are not calls of external functions. -/
def internal (l : List (QirInstr K)) : List (QirInstr K) := l.filter fun i => decide (i.type ≠ .external)

/-- Calls other than `reset` and `compile(force=True)`. -/
def NoRecompile : ModCall K → Prop
  | .reset _ => False
  | .compile force _ => force = false
  | _ => True

/-- Calls other than `reset` and `compile(strict=False)`. -/
def Strict : ModCall K → Prop
  | .reset _ => False
  | .compile _ strict => strict = true
  | _ => True

/-- Calls other than `reset`. -/
def NoReset : ModCall K → Prop
  | .reset _ => False
  | _ => True

/-- Calls that add instructions and functions. -/
def Adds : ModCall K → Prop
  | .add .. => True
  | .addExternal .. => True
  | .declare .. => True
  | _ => False

end DG.Spec
