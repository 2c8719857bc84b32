import Verif.Model.Qir
import Verif.Spec.Qasm

/-!
# Specification of QIR programs

Which calls a circuit is compiled to, and which circuit a program denotes.
-/

namespace DG.Spec
variable {K : Type}

/-- Gates of the QIR base profile: class, function, number of parameters, number of qubits. -/
def baseGates : List (String × String × Nat × Nat) :=
  [("X", "__quantum__qis__x__body", 0, 1), ("Y", "__quantum__qis__y__body", 0, 1), ("Z", "__quantum__qis__z__body", 0, 1),
    ("Hadamard", "__quantum__qis__h__body", 0, 1), ("S", "__quantum__qis__s__body", 0, 1), ("T", "__quantum__qis__t__body", 0, 1),
    ("RX", "__quantum__qis__rx__body", 1, 1), ("RY", "__quantum__qis__ry__body", 1, 1), ("RZ", "__quantum__qis__rz__body", 1, 1),
    ("CX", "__quantum__qis__cnot__body", 0, 2), ("CZ", "__quantum__qis__cz__body", 0, 2)]

/-- Gates that are compiled to calls of external functions: class, function. -/
def externalGates : List (String × String) :=
  [("Rotation", "__quantum__qis__rot__body"), ("CY", "__quantum__qis__cy__body"), ("SWAP", "__quantum__qis__swap__body"),
    ("CHadamard", "__quantum__qis__ch__body"), ("CRX", "__quantum__qis__crx__body"), ("CRY", "__quantum__qis__cry__body"),
    ("CRZ", "__quantum__qis__crz__body"), ("CRotation", "__quantum__qis__crot__body"), ("CSWAP", "__quantum__qis__cswap__body"),
    ("CCX", "__quantum__qis__ccnot__body")]

/-- Number `i` in its register. -/
def InRegister (L : Layout) (q i : Nat) : Prop := ∃ j, At L q j i

/-- Number `i` in the circuit. -/
def InCircuit (L : Layout) (q i : Nat) : Prop := L.items[i]? = some q

/-- The parameters of an operation. -/
def opParams (k : OpCls) (op : OpObj K) : List (OpParam K) := if k.kind.isParametric then op.params else []

/-- The arguments for an operation: its parameters `xs`, which are numbers, and then the numbers of its qubits `qs`. -/
def GateArgs (place : Nat → Nat → Prop) (k : OpCls) (op : OpObj K) (xs : List K) (qs : List Nat) (args : List (QirArg K)) : Prop :=
  opParams k op = xs.map OpParam.num ∧ op.qubits = some qs ∧ ∃ is, List.Forall₂ place qs is ∧ args = xs.map QirArg.dbl ++ is.map QirArg.qubit

/-- `call` is the call for operation `o`, which is a gate of the base profile. -/
def BaseCall (w : World K) (place : Nat → Nat → Prop) (o : Nat) (call : LInstr K) : Prop :=
  ∃ (op : OpObj K) (k : OpCls) (callee : String) (np nq : Nat) (xs : List K) (qs : List Nat) (args : List (QirArg K)),
    w.ops[o]? = some op ∧ w.classes[op.cls]? = some k ∧ (k.name, callee, np, nq) ∈ baseGates ∧ GateArgs place k op xs qs args ∧
    xs.length = np ∧ qs.length = nq ∧ call = .call callee args

/-- Operation `o` is a call of the external function `callee` with these arguments. The function is declared with the qubits before the parameters; the
types of the arguments have to agree with the declaration. -/
def ExternalCall (w : World K) (place : Nat → Nat → Prop) (o : Nat) (callee : String) (args : List (QirArg K)) : Prop :=
  ∃ (op : OpObj K) (k : OpCls) (n : Nat) (xs : List K) (qs : List Nat),
    w.ops[o]? = some op ∧ w.classes[op.cls]? = some k ∧ (k.name, callee) ∈ externalGates ∧ GateArgs place k op xs qs args ∧ op.numQubits = some n ∧
    List.replicate xs.length QirTy.double ++ List.replicate qs.length QirTy.qubit =
      List.replicate n QirTy.qubit ++ List.replicate (if k.kind.isParametric then k.numParams.getD 0 else 0) QirTy.double

/-- The calls for a sequence of gates, one for each, in order. External functions (only if `ext`) are declared once more for every gate; LLVM chooses
the name of a function if the functions `fs` have been declared before. -/
inductive BodyCalls (uniq : List String → String → String) (ext : Bool) (w : World K) (place : Nat → Nat → Prop) :
    List String → List Nat → List (LInstr K) → Prop
  | nil (fs) : BodyCalls uniq ext w place fs [] []
  | base {fs o os call calls} : BaseCall w place o call → BodyCalls uniq ext w place fs os calls →
      BodyCalls uniq ext w place fs (o :: os) (call :: calls)
  | external {fs o os callee args calls} : ext = true → ExternalCall w place o callee args →
      BodyCalls uniq ext w place (fs ++ [uniq fs callee]) os calls →
      BodyCalls uniq ext w place fs (o :: os) (.call (uniq fs callee) args :: calls)

/-- Operation `o` is a measurement, of the qubits with these numbers into the bits with these numbers. -/
def Measures (w : World K) (placeQ placeC : Nat → Nat → Prop) (o : Nat) (pairs : List (Nat × Nat)) : Prop :=
  ∃ (op : OpObj K) (k : OpCls) (qs bs : List Nat), w.ops[o]? = some op ∧ w.classes[op.cls]? = some k ∧ k.name = "Measurement" ∧
    op.qubits = some qs ∧ op.bits = some bs ∧ List.Forall₂ (fun p r => placeQ p.1 r.1 ∧ placeC p.2 r.2) (qs.zip bs) pairs

/-- Operation `o` is a gate that can be compiled. -/
def GateCompilable (ext : Bool) (w : World K) (place : Nat → Nat → Prop) (o : Nat) : Prop :=
  (∃ call, BaseCall w place o call) ∨ (ext = true ∧ ∃ callee args, ExternalCall w place o callee args)

/-- Operation `o` is a measurement that can be compiled. -/
def MeasurementCompilable (w : World K) (placeQ placeC : Nat → Nat → Prop) (o : Nat) : Prop := ∃ pairs, Measures w placeQ placeC o pairs

/-- The program with these calls of gates and these measurements: a function with the four blocks of the base profile. -/
def mainProgram (body : List (LInstr K)) (pairs : List (Nat × Nat)) : QirProgram K :=
  [[[.call "__quantum__rt__initialize" [.other], .other],
    body ++ [.other],
    pairs.map (fun p => .call "__quantum__qis__mz__body" [.qubit p.1, .result p.2]) ++ [.other],
    pairs.map (fun p => .call "__quantum__rt__result_record_output" [.result p.2, .other]) ++ [.ret]]]

/-- Compiling the operations `ops` gives the program `P`: first gates, then measurements. -/
def Compiles (uniq : List String → String → String) (ext : Bool) (w : World K) (placeQ placeC : Nat → Nat → Prop) (ops : List Nat) (P : QirProgram K) : Prop :=
  ∃ (gates meas : List Nat) (calls : List (LInstr K)) (pairs : List (List (Nat × Nat))), ops = gates ++ meas ∧
    BodyCalls uniq ext w placeQ [] gates calls ∧ List.Forall₂ (Measures w placeQ placeC) meas pairs ∧ P = mainProgram calls pairs.flatten

/-! ## Loading -/

/-- Functions that denote gates: class, function. -/
def gateFunctions : List (String × String) :=
  baseGates.map (fun g => (g.1, g.2.1)) ++ externalGates ++ [("CX", "__quantum__qis__cx__body"), ("Identity", "__quantum__qis__id__body")]

/-- An instruction is not a return. -/
def notRet : LInstr K → Bool
  | .ret => false
  | _ => true

/-- A call of a function that belongs to the quantum instruction set. -/
def qisCall : LInstr K → Option (String × List (QirArg K))
  | .call f args => if "__qis__".toList <:+: f.toList then some (f, args) else none
  | _ => none

/-- The calls of the quantum instruction set by a function, in order, up to its first return. -/
def qisCalls (f : List (List (LInstr K))) : List (String × List (QirArg K)) := (f.flatten.takeWhile notRet).filterMap qisCall

/-- The numbers among the arguments. -/
def doubleArgs (args : List (QirArg K)) : List K := args.filterMap fun | .dbl x => some x | _ => none

/-- The indices of the qubits among the arguments. -/
def qubitArgs (args : List (QirArg K)) : List Nat := args.filterMap fun | .qubit i => some i | _ => none

/-- The indices of the results among the arguments. -/
def resultArgs (args : List (QirArg K)) : List Nat := args.filterMap fun | .result i => some i | _ => none

/-- A call is a measurement. -/
def isMz (call : String × List (QirArg K)) : Bool := call.1 = "__quantum__qis__mz__body"

/-- The calls of gates. -/
def gateCalls (calls : List (String × List (QirArg K))) : List (String × List (QirArg K)) := calls.filter fun c => !isMz c

/-- The indices of the measured qubits, and of the results, of all measurements. -/
def measured (calls : List (String × List (QirArg K))) : List Nat × List Nat :=
  ((calls.filter isMz).flatMap fun c => qubitArgs c.2, (calls.filter isMz).flatMap fun c => resultArgs c.2)

/-- One more than the largest index; a gate without qubits counts as using the first one. -/
def needed (calls : List (String × List (QirArg K))) : Nat := ((gateCalls calls).map fun c => (qubitArgs c.2).foldr max 0 + 1).foldr max 0

/-- Operation `o` is the gate that `call` denotes: it has the class that belongs to the function, acts on the qubits with the given indices in the
circuit, and has the given numbers as its parameters. (Controlled operations ignore superfluous numbers.) -/
def GateOf (lib : String → Nat) (w : World K) (L : Layout) (o : Nat) (call : String × List (QirArg K)) : Prop :=
  ∃ (name : String) (op : OpObj K) (k : OpCls) (qs : List Nat), (name, call.1) ∈ gateFunctions ∧ w.ops[o]? = some op ∧ op.cls = lib name ∧
    w.classes[op.cls]? = some k ∧ op.qubits = some qs ∧ List.Forall₂ (InCircuit L) qs (qubitArgs call.2) ∧ op.bits = none ∧ op.cond = none ∧
    op.params <+: (doubleArgs call.2).map OpParam.num ∧
    (k.kind ≠ .controlled → k.kind ≠ .pcontrolled → op.params = (doubleArgs call.2).map OpParam.num)

/-- Operation `o` is the measurement of the qubits with indices `is` into the bits with indices `js`, as many as there are qubits. -/
def MeasurementOf (lib : String → Nat) (w : World K) (L LC : Layout) (o : Nat) (is js : List Nat) : Prop :=
  ∃ (op : OpObj K) (qs bs : List Nat), w.ops[o]? = some op ∧ op.cls = lib "Measurement" ∧ op.qubits = some qs ∧ op.bits = some bs ∧ op.cond = none ∧
    List.Forall₂ (InCircuit L) qs is ∧ is.length ≤ js.length ∧ List.Forall₂ (InCircuit LC) bs (js.take is.length)

/-- The circuit `c` is what the calls denote: the gates in their order, on as many qubits as are needed, and then, if qubits are measured, one
measurement of all measured qubits. -/
def Loaded (lib : String → Nat) (w : World K) (c : Nat) (calls : List (String × List (QirArg K))) : Prop :=
  ∃ (C : Circ) (L LC : Layout) (gates meas : List Nat), w.circs[c]? = some C ∧ C.param = false ∧ Shows C.q L ∧ Shows C.c LC ∧ C.ops = gates ++ meas ∧
    L.length ≤ 1 ∧ L.items.length = needed calls ∧ List.Forall₂ (GateOf lib w L) gates (gateCalls calls) ∧
    (((measured calls).1 = [] ∧ meas = [] ∧ LC = []) ∨
      ((measured calls).1 ≠ [] ∧ LC.length = 1 ∧ LC.items.length = (measured calls).2.foldr max 0 + 1 ∧
        ∃ m, meas = [m] ∧ MeasurementOf lib w L LC m (measured calls).1 (measured calls).2))

/-- Loading the calls into a circuit that had the operations `ops`, the qubits `L0` and the bits `LC0` before, in at most one register each: the gates are appended in their order,
then, if qubits are measured, one measurement of all measured qubits. Qubits and bits are appended if there are not as many as are needed. -/
def LoadedInto (lib : String → Nat) (w : World K) (c : Nat) (ops : List Nat) (L0 LC0 : Layout) (calls : List (String × List (QirArg K))) : Prop :=
  ∃ (C : Circ) (L LC : Layout) (gates meas : List Nat), w.circs[c]? = some C ∧ C.param = false ∧ Shows C.q L ∧ Shows C.c LC ∧
    C.ops = ops ++ gates ++ meas ∧ L.length ≤ 1 ∧ LC.length ≤ 1 ∧ L0.items <+: L.items ∧ L.items.length = max L0.items.length (needed calls) ∧ LC0.items <+: LC.items ∧
    List.Forall₂ (GateOf lib w L) gates (gateCalls calls) ∧
    (((measured calls).1 = [] ∧ meas = [] ∧ LC = LC0) ∨
      ((measured calls).1 ≠ [] ∧ LC.items.length = max LC0.items.length ((measured calls).2.foldr max 0 + 1) ∧
        ∃ m, meas = [m] ∧ MeasurementOf lib w L LC m (measured calls).1 (measured calls).2))

/-- The kind and the class attributes of a gate of the base profile. -/
def GateClass (np nq : Nat) (k : OpCls) : Prop :=
  (np = 0 ∧ nq = 1 ∧ k.kind = .plain ∧ k.ar = ⟨false, some 1, none, none⟩) ∨
  (np = 1 ∧ nq = 1 ∧ k.kind = .parametric ∧ k.numParams = some 1 ∧ k.ar = ⟨false, some 1, none, none⟩) ∨
  (np = 0 ∧ nq = 2 ∧ k.kind = .controlled ∧ (k.ar = ⟨true, none, some 1, some 1⟩ ∨ k.ar = ⟨true, some 2, some 1, some 1⟩))

/-- The gates of the base profile and measurements are there, as `lib` says. -/
def HasLibrary (lib : String → Nat) (w : World K) : Prop :=
  (∀ g ∈ baseGates, ∃ k, w.classes[lib g.1]? = some k ∧ k.name = g.1 ∧ GateClass g.2.2.1 g.2.2.2 k) ∧
  ∃ k, w.classes[lib "Measurement"]? = some k ∧ k.name = "Measurement" ∧ k.kind = .measurement ∧ k.ar = ⟨false, none, none, none⟩

/-- All arguments are numbers, qubits and results. -/
def KnownArgs (args : List (QirArg K)) : Prop := ∀ a ∈ args, a ≠ .other

/-- A call of a function of the base profile, with as many numbers and qubits as it has to have, or with one qubit and one result. -/
def BaseProfile (call : String × List (QirArg K)) : Prop :=
  KnownArgs call.2 ∧
  ((∃ g ∈ baseGates, g.2.1 = call.1 ∧ (doubleArgs call.2).length = g.2.2.1 ∧ (qubitArgs call.2).length = g.2.2.2) ∨
    (call.1 = "__quantum__qis__mz__body" ∧ doubleArgs call.2 = [] ∧ (qubitArgs call.2).length = 1 ∧ (resultArgs call.2).length = 1))

/-- All that existed before is as it was. -/
def Unaffected (w w' : World K) : Prop := w.ops <+: w'.ops ∧ ∀ c, c < w.circs.length → w'.circs[c]? = w.circs[c]?

/-! ## The round trip -/

/-- All operations are gates of the base profile and measurements from the library. -/
def FromLibrary (lib : String → Nat) (w : World K) (ops : List Nat) : Prop :=
  ∀ o ∈ ops, ∃ op, w.ops[o]? = some op ∧ ((∃ g ∈ baseGates, op.cls = lib g.1) ∨ op.cls = lib "Measurement")

/-- Some gate acts on a qubit whose index is `i` or greater. -/
def Reaches (w : World K) (L : Layout) (ops : List Nat) (i : Nat) : Prop :=
  ∃ o ∈ ops, ∃ (op : OpObj K) (k : OpCls) (qs : List Nat) (q j : Nat), w.ops[o]? = some op ∧ w.classes[op.cls]? = some k ∧ k.name ≠ "Measurement" ∧
    op.qubits = some qs ∧ q ∈ qs ∧ InCircuit L q j ∧ i ≤ j

/-- Operation `o'` in a circuit with qubits `L'` is the same gate as `o` in a circuit with qubits `L`, without its condition: it has the same class, the
same parameters and acts on the qubits with the same indices. -/
def ReadBack (w w' : World K) (L L' : Layout) (o o' : Nat) : Prop :=
  ∃ (op op' : OpObj K) (k : OpCls) (qs qs' is : List Nat), w.ops[o]? = some op ∧ w'.ops[o']? = some op' ∧ op'.cls = op.cls ∧
    w.classes[op.cls]? = some k ∧ w'.classes[op.cls]? = some k ∧ opParams k op' = opParams k op ∧ op.qubits = some qs ∧ op'.qubits = some qs' ∧
    List.Forall₂ (InCircuit L) qs is ∧ List.Forall₂ (InCircuit L') qs' is ∧ op'.cond = none

/-- Circuit `C'` has the same gates as circuit `C`, on the same indices, and measures the same qubits into the same bits, by one measurement. Its
qubits are those up to the last one that a gate acts on, its bits are those up to the last one that is measured into. -/
def Regrouped (w w' : World K) (C C' : Circ) (L LC L' LC' : Layout) : Prop :=
  ∃ (gates meas gates' meas' : List Nat) (pairs : List (List (Nat × Nat))), C.ops = gates ++ meas ∧ C'.ops = gates' ++ meas' ∧
    List.Forall₂ (ReadBack w w' L L') gates gates' ∧ List.Forall₂ (Measures w (InCircuit L) (InCircuit LC)) meas pairs ∧
    ((pairs.flatten = [] ∧ meas' = []) ∨
      (pairs.flatten ≠ [] ∧ ∃ m, meas' = [m] ∧ Measures w' (InCircuit L') (InCircuit LC') m pairs.flatten)) ∧
    (∀ i, i < L'.items.length ↔ Reaches w L gates i) ∧ (∀ j, j < LC'.items.length ↔ ∃ p ∈ pairs.flatten, j ≤ p.2)

end DG.Spec
