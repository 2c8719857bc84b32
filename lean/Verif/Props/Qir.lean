import Verif.Proofs.QirRound

/-!
# Properties C64-C68: QIR

`toQir uniq c ext` is `circuit.to_qir(add_external=ext)`, where `uniq fs f` is the name that LLVM gives to a new function `f` if the functions `fs` have
been declared before; `fromQir lib P` is `Circuit.from_qir(P)`, where `lib` gives the operation classes by name. See `Spec/Qir.lean` for the
vocabulary.
-/

namespace DG.Props
open Spec
variable {K : Type} [DecidableEq K] [Zero K]

/-! ## C64 -/

/-- The program of a circuit, in all cases: it is returned if and only if all operations can be compiled and the measurements come last, and then it
has one call for each gate, in order, and one measurement for each pair of a measured qubit and a bit. The numbers of qubits and bits are those in
their registers. -/
theorem C64_program {A : Call K → Prop} (hA : ∀ e, A e → SetsNoBit e) {w : World K} (h : Reach A w) {c : Nat} {C : Circ} (hC : w.circs[c]? = some C)
    {L LC : Layout} (hL : Shows C.q L) (hLC : Shows C.c LC) (uniq : List String → String → String) (ext : Bool) (P : QirProgram K) :
    (toQir uniq c ext w).1 = .ok P ↔ Compiles uniq ext w (InRegister L) (InRegister LC) C.ops P :=
  toQir_ok hA h hC hL hLC uniq ext P

/-- C64, for circuits with at most one quantum and one classical register: the numbers of qubits and bits are those in the circuit.
Missing: circuits with more registers, see `C64_violated`. -/
theorem C64_partial {A : Call K → Prop} (hA : ∀ e, A e → SetsNoBit e) {w : World K} (h : Reach A w) {c : Nat} {C : Circ} (hC : w.circs[c]? = some C)
    {L LC : Layout} (hL : Shows C.q L) (hLC : Shows C.c LC) (h1 : L.length ≤ 1) (h2 : LC.length ≤ 1) (uniq : List String → String → String) (ext : Bool)
    (P : QirProgram K) : (toQir uniq c ext w).1 = .ok P ↔ Compiles uniq ext w (InCircuit L) (InCircuit LC) C.ops P := by
  rw [toQir_ok hA h hC hL hLC uniq ext P, inRegister_single h1, inRegister_single h2]

/-- LLVM adds a number if the name is taken. -/
def uniqDemo (fs : List String) (f : String) : String := if f ∈ fs then f ++ "." ++ toString (fs.filter (· == f)).length else f

/-- Classes for the demo programs. -/
def classesQirDemo (p : Prog Int) : Prog Int :=
  .seq (.call (.newClass ⟨"X", .plain, ⟨false, some 1, none, none⟩, none⟩)) <|
  .seq (.call (.newClass ⟨"RX", .parametric, ⟨false, some 1, none, none⟩, some 1⟩)) <|
  .seq (.call (.newClass ⟨"SWAP", .plain, ⟨false, some 2, none, none⟩, none⟩)) <|
  .seq (.call (.newClass ⟨"Measurement", .measurement, ⟨false, none, none, none⟩, none⟩)) <|
  .seq (.call (.newClass ⟨"Rotation", .parametric, ⟨false, some 1, none, none⟩, some 3⟩)) <|
  .seq (.call (.newClass ⟨"Identity", .plain, ⟨false, some 1, none, none⟩, none⟩)) <|
  .seq (.call (.newClass ⟨"CX", .controlled, ⟨true, none, some 1, some 1⟩, none⟩)) p

/-- A circuit with gates and measurements. -/
def qirDemo : Prog Int :=
  classesQirDemo <|
  .seq (.call (.newCirc false (some 2) (some 2))) <|
  .withCtx 0 <|
  .seq (.call (.construct 1 (some [.num 7]) (.qubits (some [1])))) <|
  .seq (.call (.construct 2 none (.qubits (some [1, 0])))) <|
  .seq (.call (.construct 0 none (.qubits (some [0])))) <|
  .seq (.call (.construct 2 none (.qubits (some [0, 1])))) <|
  .seq (.call (.construct 6 none (.qubits (some [1, 0])))) <|
  .seq (.call (.construct 3 none (.qubits (some [1, 0])))) <|
  .call (.measureInto 5 [0, 1])

theorem qirDemo_reach : Reach SetsNoBit qirDemo.final :=
  ⟨qirDemo, by simp [qirDemo, classesQirDemo, Prog.All, SetsNoBit], qirDemo.visits_run _⟩

/-- The demo program meets the hypotheses of `C64_program` and `C64_partial`. -/
example : ∃ C, qirDemo.final.circs[0]? = some C ∧ Shows C.q [(.str "qreg0", [0, 1])] := shows_circ Circ.q (by decide +kernel)

example : ∃ C, qirDemo.final.circs[0]? = some C ∧ Shows C.c [(.str "creg0", [0, 1])] := shows_circ Circ.c (by decide +kernel)

example : (toQir uniqDemo 0 true qirDemo.final).1 = .ok (mainProgram
    [.call "__quantum__qis__rx__body" [.dbl 7, .qubit 1], .call "__quantum__qis__swap__body" [.qubit 1, .qubit 0],
      .call "__quantum__qis__x__body" [.qubit 0], .call "__quantum__qis__swap__body.1" [.qubit 0, .qubit 1],
      .call "__quantum__qis__cnot__body" [.qubit 1, .qubit 0]] [(1, 0), (0, 1)]) := by decide +kernel

/-- Without external functions, `SWAP` cannot be compiled. -/
example : (toQir uniqDemo 0 false qirDemo.final).1 = .error .notImplementedError := by decide +kernel

/-- A circuit with two registers of one qubit, and an `X` on each. -/
def twoRegistersQirDemo : Prog Int :=
  classesQirDemo <|
  .seq (.call (.newCirc false (some 1) none)) <|
  .seq (.call (.addQReg 0 1 none)) <|
  .withCtx 0 <|
  .seq (.call (.construct 0 none (.qubits (some [0])))) <|
  .call (.construct 0 none (.qubits (some [1])))

/-- C64 is violated: qubits in different registers get the same number. -/
theorem C64_violated : (toQir uniqDemo 0 true twoRegistersQirDemo.final).1 =
    .ok (mainProgram [.call "__quantum__qis__x__body" [.qubit 0], .call "__quantum__qis__x__body" [.qubit 0]] []) := by decide +kernel

/-- A circuit with a `Rotation`. -/
def rotationQirDemo : Prog Int :=
  classesQirDemo <|
  .seq (.call (.newCirc false (some 1) none)) <|
  .withCtx 0 <|
  .call (.construct 4 (some [.num 1, .num 2, .num 3]) (.qubits (some [0])))

/-- C64 is violated: the declaration of the external function of a gate with parameters has the parameters after the qubits, but the call has them
before, so that such gates cannot be compiled. -/
theorem C64_rotation_violated : (toQir uniqDemo 0 true rotationQirDemo.final).1 = .error .typeError := by decide +kernel

/-- A circuit with an `Identity`. -/
def identityQirDemo : Prog Int :=
  classesQirDemo <|
  .seq (.call (.newCirc false (some 1) none)) <|
  .withCtx 0 <|
  .call (.construct 5 none (.qubits (some [0])))

/-- C64 is violated: the gate `Identity`, which is in the table, is refused. -/
theorem C64_identity_violated : (toQir uniqDemo 0 true identityQirDemo.final).1 = .error .notImplementedError := by decide +kernel

/-! ## C65 -/

/-- C65, for circuits of gates of the base profile and measurements, with at most one quantum and one classical register: if every measured qubit is
below a qubit that a gate acts on, then loading the compiled program gives a circuit with the same gates on the same indices, in the same order, and
one measurement of the same qubits into the same bits in the same order; otherwise `IndexError` is raised.
Missing: the registers are not the same (qubits after the last one that is used are lost), measurements are joined, and conditions are lost, see below;
circuits with more registers. -/
theorem C65_partial {A : Call K → Prop} (hA : ∀ e, A e → SetsNoBit e) {w : World K} (h : Reach A w) (ha : w.active = none) {c : Nat} {C : Circ}
    (hC : w.circs[c]? = some C) {L LC : Layout} (hL : Shows C.q L) (hLC : Shows C.c LC) (h1 : L.length ≤ 1) (h2 : LC.length ≤ 1)
    {lib : String → Nat} (hl : HasLibrary lib w) (hf : FromLibrary lib w C.ops) {uniq : List String → String → String} {ext : Bool}
    {P : QirProgram K} {w1 : World K} (e : toQir uniq c ext w = (.ok P, w1)) :
    ((∀ o ∈ C.ops, ∀ pairs, Measures w (InCircuit L) (InCircuit LC) o pairs → ∀ p ∈ pairs, Reaches w L C.ops p.1) →
      ∃ c' w', fromQir lib P w1 = (.ok c', w') ∧ Unaffected w1 w' ∧ ∃ C' L' LC', w'.circs[c']? = some C' ∧ Shows C'.q L' ∧ Shows C'.c LC' ∧
        L'.length ≤ 1 ∧ LC'.length ≤ 1 ∧ Regrouped w w' C C' L LC L' LC') ∧
    ((∃ o ∈ C.ops, ∃ pairs, Measures w (InCircuit L) (InCircuit LC) o pairs ∧ ∃ p ∈ pairs, ¬ Reaches w L C.ops p.1) →
      ∃ w', fromQir lib P w1 = (.error .indexError, w')) :=
  round_trip hA h ha hC hL hLC h1 h2 hl hf e

/-- The names of the classes of the library, in the order in which the demo programs create them. -/
def namesQirDemo : List String := ["X", "Y", "Z", "Hadamard", "S", "T", "RX", "RY", "RZ", "CX", "CZ", "Measurement", "SWAP"]

def libQirDemo (name : String) : Nat := namesQirDemo.idxOf name

/-- The library for the demo programs. -/
def libraryQirDemo {K : Type} (p : Prog K) : Prog K :=
  .seq (.call (.newClass ⟨"X", .plain, ⟨false, some 1, none, none⟩, none⟩)) <|
  .seq (.call (.newClass ⟨"Y", .plain, ⟨false, some 1, none, none⟩, none⟩)) <|
  .seq (.call (.newClass ⟨"Z", .plain, ⟨false, some 1, none, none⟩, none⟩)) <|
  .seq (.call (.newClass ⟨"Hadamard", .plain, ⟨false, some 1, none, none⟩, none⟩)) <|
  .seq (.call (.newClass ⟨"S", .plain, ⟨false, some 1, none, none⟩, none⟩)) <|
  .seq (.call (.newClass ⟨"T", .plain, ⟨false, some 1, none, none⟩, none⟩)) <|
  .seq (.call (.newClass ⟨"RX", .parametric, ⟨false, some 1, none, none⟩, some 1⟩)) <|
  .seq (.call (.newClass ⟨"RY", .parametric, ⟨false, some 1, none, none⟩, some 1⟩)) <|
  .seq (.call (.newClass ⟨"RZ", .parametric, ⟨false, some 1, none, none⟩, some 1⟩)) <|
  .seq (.call (.newClass ⟨"CX", .controlled, ⟨true, none, some 1, some 1⟩, none⟩)) <|
  .seq (.call (.newClass ⟨"CZ", .controlled, ⟨true, none, some 1, some 1⟩, none⟩)) <|
  .seq (.call (.newClass ⟨"Measurement", .measurement, ⟨false, none, none, none⟩, none⟩)) <|
  .seq (.call (.newClass ⟨"SWAP", .plain, ⟨false, some 2, none, none⟩, none⟩)) p

/-- A circuit with three qubits, gates and two measurements. -/
def tripQirDemo : Prog Int :=
  libraryQirDemo <|
  .seq (.call (.newCirc false (some 3) (some 3))) <|
  .withCtx 0 <|
  .seq (.call (.construct 6 (some [.num 7]) (.qubits (some [1])))) <|
  .seq (.call (.construct 0 none (.qubits (some [0])))) <|
  .seq (.call (.construct 9 none (.qubits (some [1, 0])))) <|
  .seq (.call (.construct 11 none (.qubits (some [1])))) <|
  .seq (.call (.measureInto 3 [0])) <|
  .seq (.call (.construct 11 none (.qubits (some [0])))) <|
  .call (.measureInto 4 [1])

theorem tripQirDemo_reach : Reach SetsNoBit tripQirDemo.final :=
  ⟨tripQirDemo, by simp [tripQirDemo, libraryQirDemo, Prog.All, SetsNoBit], tripQirDemo.visits_run _⟩

deriving instance DecidableEq for Arity.Cls

instance (np nq : Nat) (k : OpCls) : Decidable (GateClass np nq k) := by unfold GateClass; infer_instance

theorem tripQirDemo_library : HasLibrary libQirDemo tripQirDemo.final := by
  have h : (∀ g ∈ baseGates, ∃ k ∈ tripQirDemo.final.classes[libQirDemo g.1]?, k.name = g.1 ∧ GateClass g.2.2.1 g.2.2.2 k) ∧
      ∃ k ∈ tripQirDemo.final.classes[libQirDemo "Measurement"]?, k.name = "Measurement" ∧ k.kind = .measurement ∧ k.ar = ⟨false, none, none, none⟩ := by
    decide +kernel
  exact h

theorem tripQirDemo_ops : FromLibrary libQirDemo tripQirDemo.final [0, 1, 2, 3, 4] := by
  have h : ∀ o ∈ [0, 1, 2, 3, 4], ∃ op ∈ tripQirDemo.final.ops[o]?, ((∃ g ∈ baseGates, op.cls = libQirDemo g.1) ∨ op.cls = libQirDemo "Measurement") := by
    decide +kernel
  exact h

/-- The demo program meets the hypotheses of `C65_partial`. -/
example : tripQirDemo.final.active = none ∧ tripQirDemo.final.circs[0]?.map Circ.ops = some [0, 1, 2, 3, 4] := by decide +kernel

example : ∃ C, tripQirDemo.final.circs[0]? = some C ∧ Shows C.q [(.str "qreg0", [0, 1, 2])] := shows_circ Circ.q (by decide +kernel)

example : ∃ C, tripQirDemo.final.circs[0]? = some C ∧ Shows C.c [(.str "creg0", [0, 1, 2])] := shows_circ Circ.c (by decide +kernel)

/-- The program of the demo circuit. -/
def tripProgramQirDemo : QirProgram Int :=
  mainProgram [.call "__quantum__qis__rx__body" [.dbl 7, .qubit 1], .call "__quantum__qis__x__body" [.qubit 0],
    .call "__quantum__qis__cnot__body" [.qubit 1, .qubit 0]] [(1, 0), (0, 1)]

example : (toQir uniqDemo 0 false tripQirDemo.final).1 = .ok tripProgramQirDemo := by decide +kernel

/-- Indices of objects in the registers of a circuit. -/
def indicesQirDemo (b : Bank) (l : Option (List Nat)) : Option (List Nat) :=
  l.map fun l => l.map fun x => (b.regs.flatMap fun r => match r.2.cy.iter with | .ok l => l | .error _ => []).idxOf (.obj x)

/-- What can be seen of an operation: its class, parameters, the indices of its qubits and bits, and whether it has a condition. -/
structure OpQirDemo where
  name : String
  params : List (OpParam Int)
  qubits : Option (List Nat)
  bits : Option (List Nat)
  cond : Bool
  deriving DecidableEq

/-- What can be seen of circuit `c`: the numbers of qubits and bits, and the operations. -/
def viewQirDemo (c : Nat) (w : World Int) : Option (Nat × Nat × List (Option OpQirDemo)) :=
  w.circs[c]?.map fun C => ((C.q.regs.map fun r => r.2.cy.stop).sum, (C.c.regs.map fun r => r.2.cy.stop).sum,
    C.ops.map fun o => w.ops[o]?.map fun op => ⟨(w.classes[op.cls]?.map OpCls.name).getD "", op.params, indicesQirDemo C.q op.qubits, indicesQirDemo C.c op.bits,
      op.cond.isSome⟩)

/-- The circuit that a program is loaded to. -/
def loadedQirDemo (P : QirProgram Int) (w : World Int) : Except Err (Option (Nat × Nat × List (Option OpQirDemo))) :=
  match fromQir libQirDemo P w with
  | (.ok c, w') => .ok (viewQirDemo c w')
  | (.error e, _) => .error e

example : viewQirDemo 0 tripQirDemo.final = some (3, 3, [some ⟨"RX", [.num 7], some [1], none, false⟩, some ⟨"X", [], some [0], none, false⟩,
    some ⟨"CX", [], some [1, 0], none, false⟩, some ⟨"Measurement", [], some [1], some [0], false⟩, some ⟨"Measurement", [], some [0], some [1], false⟩]) := by
  decide +kernel

/-- C65 is violated: the circuit that is loaded has two qubits and bits instead of three, and one measurement instead of two. -/
theorem C65_violated : loadedQirDemo tripProgramQirDemo (toQir uniqDemo 0 false tripQirDemo.final).2 = .ok (some (2, 2,
    [some ⟨"RX", [.num 7], some [1], none, false⟩, some ⟨"X", [], some [0], none, false⟩, some ⟨"CX", [], some [1, 0], none, false⟩,
      some ⟨"Measurement", [], some [1, 0], some [0, 1], false⟩])) := by decide +kernel

/-- A circuit whose second qubit is only measured. -/
def untouchedQirDemo : Prog Int :=
  libraryQirDemo <|
  .seq (.call (.newCirc false (some 2) (some 2))) <|
  .withCtx 0 <|
  .seq (.call (.construct 0 none (.qubits (some [0])))) <|
  .seq (.call (.construct 11 none (.qubits (some [0, 1])))) <|
  .call (.measureInto 1 [0, 1])

/-- C65 is violated: a program that measures a qubit after the last one that a gate acts on cannot be loaded. -/
theorem C65_untouched_violated :
    (toQir uniqDemo 0 false untouchedQirDemo.final).1 = .ok (mainProgram [.call "__quantum__qis__x__body" [.qubit 0]] [(0, 0), (1, 1)]) ∧
    loadedQirDemo (mainProgram [.call "__quantum__qis__x__body" [.qubit 0]] [(0, 0), (1, 1)]) (toQir uniqDemo 0 false untouchedQirDemo.final).2 =
      .error .indexError := by decide +kernel

/-- A circuit with a conditional gate. -/
def conditionalQirDemo : Prog Int :=
  libraryQirDemo <|
  .seq (.call (.newCirc false (some 1) (some 1))) <|
  .withCtx 0 <|
  .seq (.call (.construct 0 none (.qubits (some [0])))) <|
  .call (.conditional 0 [0])

/-- C65 is violated: a conditional gate is compiled to the gate without its condition, without an exception. -/
theorem C65_conditional_violated :
    viewQirDemo 0 conditionalQirDemo.final = some (1, 1, [some ⟨"X", [], some [0], none, true⟩]) ∧
    (toQir uniqDemo 0 false conditionalQirDemo.final).1 = .ok (mainProgram [.call "__quantum__qis__x__body" [.qubit 0]] []) ∧
    loadedQirDemo (mainProgram [.call "__quantum__qis__x__body" [.qubit 0]] []) (toQir uniqDemo 0 false conditionalQirDemo.final).2 =
      .ok (some (1, 0, [some ⟨"X", [], some [0], none, false⟩])) := by decide +kernel

/-- A circuit with two `SWAP`s. -/
def swapsQirDemo : Prog Int :=
  libraryQirDemo <|
  .seq (.call (.newCirc false (some 2) none)) <|
  .withCtx 0 <|
  .seq (.call (.construct 12 none (.qubits (some [0, 1])))) <|
  .call (.construct 12 none (.qubits (some [0, 1])))

/-- C65 is violated for gates outside of the base profile: a program with two `SWAP`s can be compiled, but not loaded. -/
theorem C65_swaps_violated :
    (toQir uniqDemo 0 true swapsQirDemo.final).1 = .ok (mainProgram [.call "__quantum__qis__swap__body" [.qubit 0, .qubit 1],
      .call "__quantum__qis__swap__body.1" [.qubit 0, .qubit 1]] []) ∧
    loadedQirDemo (mainProgram [.call "__quantum__qis__swap__body" [.qubit 0, .qubit 1], .call "__quantum__qis__swap__body.1" [.qubit 0, .qubit 1]] [])
      (toQir uniqDemo 0 true swapsQirDemo.final).2 = .error .typeError := by decide +kernel

/-! ## C66 -/

/-- C66: the function that is called for a gate of the base profile is read as an operation of the same class, and so is the function for
measurements. -/
theorem C66_base : ∀ g ∈ baseGates, Qir.fromQis.get? g.2.1 = some g.1 := by decide +kernel

theorem C66_measurement : Qir.fromQis.get? "__quantum__qis__mz__body" = some "Measurement" := by decide +kernel

/-- C66: the function that is declared first for an external gate is read as an operation of the same class. -/
theorem C66_external : ∀ g ∈ externalGates, Qir.fromQis.get? g.2 = some g.1 := by decide +kernel

/-- C66: different gates have different functions. -/
theorem C66_distinct : (baseGates.map (fun g => g.2.1) ++ externalGates.map (fun g => g.2) ++ ["__quantum__qis__mz__body"]).Nodup := by decide +kernel

/-- C66: what is read as an operation is the function of that operation, or the other name of `CX`, or the function for the identity. -/
theorem C66_converse (f s : String) (h : Qir.fromQis.get? f = some s) :
    (∃ g ∈ baseGates, g.1 = s ∧ g.2.1 = f) ∨ (s, f) ∈ externalGates ∨ (s = "Measurement" ∧ f = "__quantum__qis__mz__body") ∨
    (s = "CX" ∧ f = "__quantum__qis__cx__body") ∨ (s = "Identity" ∧ f = "__quantum__qis__id__body") := by
  have : ∀ p ∈ Qir.fromQis, (∃ g ∈ baseGates, g.1 = p.2 ∧ g.2.1 = p.1) ∨ (p.2, p.1) ∈ externalGates ∨
      (p.2 = "Measurement" ∧ p.1 = "__quantum__qis__mz__body") ∨ (p.2 = "CX" ∧ p.1 = "__quantum__qis__cx__body") ∨
      (p.2 = "Identity" ∧ p.1 = "__quantum__qis__id__body") := by decide +kernel
  exact this _ (PyDict.get?_mem h)

/-- C66 is violated: if an external gate is used twice, LLVM renames the second function, whose name is not read as an operation. -/
theorem C66_violated : Qir.fromQis.get? (uniqDemo ["__quantum__qis__swap__body"] "__quantum__qis__swap__body") = none := by decide +kernel

/-! ## C67 -/

/-- C67: a circuit of gates and measurements each of which can be compiled is compiled if no gate comes after a measurement, and otherwise
`ValueError` is raised. -/
theorem C67_measurements_last {A : Call K → Prop} (hA : ∀ e, A e → SetsNoBit e) {w : World K} (h : Reach A w) {c : Nat} {C : Circ} (hC : w.circs[c]? = some C)
    {L LC : Layout} (hL : Shows C.q L) (hLC : Shows C.c LC) (uniq : List String → String → String) (ext : Bool)
    (hall : ∀ o ∈ C.ops, GateCompilable ext w (InRegister L) o ∨ MeasurementCompilable w (InRegister L) (InRegister LC) o) :
    ((∀ i j a b : Nat, i < j → C.ops[i]? = some a → C.ops[j]? = some b → MeasurementCompilable w (InRegister L) (InRegister LC) a →
        MeasurementCompilable w (InRegister L) (InRegister LC) b) → ∃ P, (toQir uniq c ext w).1 = .ok P) ∧
    ((∃ i j a b : Nat, i < j ∧ C.ops[i]? = some a ∧ C.ops[j]? = some b ∧ MeasurementCompilable w (InRegister L) (InRegister LC) a ∧
        GateCompilable ext w (InRegister L) b) → (toQir uniq c ext w).1 = .error .valueError) :=
  toQir_last hA h hC hL hLC uniq ext hall

/-- A circuit with a gate after a measurement. -/
def lateGateQirDemo : Prog Int :=
  classesQirDemo <|
  .seq (.call (.newCirc false (some 1) (some 1))) <|
  .withCtx 0 <|
  .seq (.call (.construct 3 none (.qubits (some [0])))) <|
  .seq (.call (.measureInto 0 [0])) <|
  .call (.construct 0 none (.qubits (some [0])))

example : (toQir uniqDemo 0 true lateGateQirDemo.final).1 = .error .valueError := by decide +kernel

/-! ## C68 -/

/-- C68, for gates: if a program is loaded, then the new circuit has one gate for each call of a gate in the program, up to the first return of each
function, in the order of the calls, on the qubits with the given indices and with the given parameters. All measurements come after the gates, as one
operation that measures all qubits, in the order of the calls. Nothing else is changed.
Missing: the order of gates and measurements, see `C68_violated`. -/
theorem C68_partial {A : Call K → Prop} (hA : ∀ e, A e → SetsNoBit e) {w : World K} (h : Reach A w) (ha : w.active = none) {lib : String → Nat}
    {P : QirProgram K} {c : Nat} {w' : World K} (e : fromQir lib P w = (.ok c, w')) :
    c = w.circs.length ∧ Loaded lib w' c (P.flatMap qisCalls) ∧ Unaffected w w' ∧ w'.active = none :=
  fromQir_loaded (Refs.reach h) (QInv.any h) (CInv.reach (s := false) (h.imp fun e he => noBits_false e (hA e he))) ha e

/-- C68: a program of gates of the base profile and measurements is loaded if every measured qubit is below a qubit that a gate acts on; otherwise
`IndexError` is raised. -/
theorem C68_base {A : Call K → Prop} (hA : ∀ e, A e → SetsNoBit e) {w : World K} (h : Reach A w) (ha : w.active = none) {lib : String → Nat}
    (hl : HasLibrary lib w) {P : QirProgram K} (hb : ∀ call ∈ P.flatMap qisCalls, BaseProfile call) :
    ((∀ i ∈ (measured (P.flatMap qisCalls)).1, i < needed (P.flatMap qisCalls)) → ∃ c w', fromQir lib P w = (.ok c, w')) ∧
    ((∃ i ∈ (measured (P.flatMap qisCalls)).1, needed (P.flatMap qisCalls) ≤ i) → ∃ w', fromQir lib P w = (.error .indexError, w')) := by
  have := fromQir_base' (Refs.reach h) (QInv.any h) (CInv.reach (s := false) (h.imp fun e he => noBits_false e (hA e he))) ha hl rfl hb
  refine ⟨fun hi => ?_, fun ⟨i, h1, h2⟩ => this.2 fun hi => absurd (hi i h1) (by omega)⟩
  obtain ⟨c, w', e, -⟩ := this.1 hi
  exact ⟨c, w', e⟩

/-- C68: a call of an unknown function of the quantum instruction set is refused. -/
theorem C68_unknown {A : Call K → Prop} (hA : ∀ e, A e → SetsNoBit e) {w : World K} (h : Reach A w) (ha : w.active = none) (lib : String → Nat)
    (P : QirProgram K) {call : String × List (QirArg K)} (hc : call ∈ P.flatMap qisCalls) (hn : ∀ g ∈ gateFunctions, g.2 ≠ call.1)
    (hm : call.1 ≠ "__quantum__qis__mz__body") : ∃ err, (fromQir lib P w).1 = .error err := by
  cases e : fromQir lib P w with
  | mk r w' =>
    cases r with
    | error err => exact ⟨err, rfl⟩
    | ok c =>
      obtain ⟨-, hl, -⟩ := C68_partial hA h ha e
      obtain ⟨C, L, LC, gates, meas, -, -, -, -, -, -, -, hg, -⟩ := hl
      have : call ∈ gateCalls (P.flatMap qisCalls) := List.mem_filter.2 ⟨hc, by rw [show isMz call = false from decide_eq_false hm]; rfl⟩
      obtain ⟨o, -, name, -, -, -, h1, -⟩ := Qir.forall₂_right hg call this
      exact absurd rfl (hn _ h1)

/-- A program that measures a qubit, applies gates and returns, and has more calls after that. -/
def programQirDemo : QirProgram Int :=
  [[[.call "__quantum__rt__initialize" [.other], .call "__quantum__qis__mz__body" [.qubit 0, .result 1], .other],
    [.call "__quantum__qis__ry__body" [.dbl 5, .qubit 2], .call "__quantum__qis__cz__body" [.qubit 2, .qubit 0], .ret, .call "__quantum__qis__x__body" [.qubit 1]],
    [.call "__quantum__qis__x__body" [.qubit 1]]]]

/-- The program meets the hypotheses of `C68_partial` and `C68_base`. -/
example : programQirDemo.flatMap qisCalls = [("__quantum__qis__mz__body", [.qubit 0, .result 1]), ("__quantum__qis__ry__body", [.dbl 5, .qubit 2]),
    ("__quantum__qis__cz__body", [.qubit 2, .qubit 0])] := by decide +kernel

/-- C68 is violated: the measurement is moved to the end, so that the circuit measures a different state. -/
theorem C68_violated : loadedQirDemo programQirDemo tripQirDemo.final = .ok (some (3, 2,
    [some ⟨"RY", [.num 5], some [2], none, false⟩, some ⟨"CZ", [], some [2, 0], none, false⟩, some ⟨"Measurement", [], some [0], some [1], false⟩])) := by
  decide +kernel

end DG.Props
