import Verif.Model.Unitary

/-!
# Simulation of circuits with operations made by `create_operation`

`dwave/gate/simulator/simulator.pyx` for operations of the classes that `create_operation` returns (base.py 80-155). They are neither measurements nor swaps
nor controlled operations, so `apply_instruction` handles them in its last branch (simulator.pyx 119-130).
-/

noncomputable section

namespace DG.Custom
open Complex Sim Unitary Kernel

/-- An instance of a class made by `create_operation(circuit)`. `classQubits` is the class attribute `_num_qubits`, the number of qubits of the circuit when
the class was made (base.py 107); `circuit` is the circuit now: the class keeps a reference to the circuit, and every access to `matrix` copies the
circuit anew (base.py 131). `params` are the parameters of the instance. Of the attributes of `SOp`, `kind` and `bits` have no meaning here. -/
structure CustomOp extends SOp where
  classQubits : Nat
  circuit : UCircuit
  parametric : Bool := false
  params : List ℝ := []

/-- The memory of a C-ordered array, as the kernel sees it through `&gate[0, 0]`. -/
def flat (M : NMat) : List ℂ := (List.range (M.dim * M.dim)).map fun k => M.e (k / M.dim) (k % M.dim)

/-- The array given to the kernel (simulator.pyx 125-127): `op.matrix`, conjugated if asked for. The matrix of a circuit without operations is `np.eye(...)`,
an array of real numbers, which the typed memoryview of the kernel's wrapper refuses (`ValueError`); after at least one `mat @ state` it is complex and
C-ordered. Nothing checks the shape. -/
def customArray (op : CustomOp) (conjugate : Bool) : Except Err (List ℂ) := do
  let M ← customMatrix op.circuit op.parametric op.params
  if op.circuit.ops.isEmpty then .error .valueError
  else pure (if conjugate then (flat M).map star else flat M)

/-- `apply_instruction` for such an operation (simulator.pyx 53-54, 119-130). For several qubits the text of the exception is made with `op.label`, which does
not exist: `AttributeError`. -/
def applyCustom (numQubits : Nat) (op : CustomOp) (targets : List Nat) (littleEndian conjugate : Bool) (w : World) : Except Err World :=
  if isBlocked op.toSOp w.bits then .ok w
  else if op.classQubits ≠ 1 then .error .attributeError
  else do
    let gate ← customArray op conjugate
    let target ← item targets 0
    let mem ← callKernel singleQubit littleEndian numQubits w.mem gate [target] []
    pure { w with mem := mem }

/-- An operation of the circuit. -/
inductive Instr
  | lib (op : SOp)
  | custom (op : CustomOp)

/-- `op.qubits`. -/
def Instr.qubits : Instr → List Nat
  | .lib op => op.qubits
  | .custom op => op.qubits

/-- The circuit as the simulator sees it. -/
structure CCircuit where
  qubits : List Nat
  ops : List Instr

/-- `[circuit.qubits.index(qb) for qb in op.qubits]` (simulator.pyx 170, 238). -/
def targets (qubits : List Nat) (op : Instr) : Except Err (List Nat) :=
  op.qubits.mapM fun q => if q ∈ qubits then .ok (qubits.idxOf q) else .error .valueError

/-- `apply_instruction` (simulator.pyx 44-130). -/
def applyAny (u : Nat → ℝ) (numQubits : Nat) (op : Instr) (targets : List Nat) (littleEndian conjugate : Bool) (w : World) : Except Err World :=
  match op with
  | .lib op => applyInstruction u numQubits op targets littleEndian conjugate w
  | .custom op => applyCustom numQubits op targets littleEndian conjugate w

/-- The body of the loop of the state-vector simulation (simulator.pyx 169-171). -/
def vectorStep (u : Nat → ℝ) (qubits : List Nat) (littleEndian : Bool) (w : World) (op : Instr) : Except Err World := do
  let ts ← targets qubits op
  applyAny u qubits.length op ts littleEndian false w

/-- `isinstance(op, ops.Measurement)`. -/
def Instr.isMeasurement : Instr → Bool
  | .lib op => match op.kind with
    | .measurement => true
    | _ => false
  | .custom _ => false

/-- The body of the loop of the density-matrix simulation (simulator.pyx 233-247). -/
def densityStep (u : Nat → ℝ) (qubits : List Nat) (w : World) (op : Instr) : Except Err World :=
  if op.isMeasurement then .error .typeError
  else do
    let ts ← targets qubits op
    let w1 ← applyAny u (2 * qubits.length) op ts false false w
    applyAny u (2 * qubits.length) op (ts.map (· + qubits.length)) false true w1

/-- `simulate(circuit, mixed_state=False, little_endian)` (simulator.pyx 133-173). -/
def simulateC (u : Nat → ℝ) (c : CCircuit) (littleEndian : Bool) (bits : Nat → Option Bool) (records : Nat → Record) : Except Err (Option World) :=
  if c.qubits.length = 0 then .ok none
  else do
    let w ← c.ops.foldlM (vectorStep u c.qubits littleEndian)
      { mem := initialState c.qubits.length, bits := bits, drawn := 0, records := records }
    assertState c.qubits.length w.mem
    pure (some w)

/-- `simulate(circuit, mixed_state=True)`. -/
def simulateMixedC (u : Nat → ℝ) (c : CCircuit) (bits : Nat → Option Bool) (records : Nat → Record) : Except Err (Option World) :=
  if c.qubits.length = 0 then .ok none
  else do
    let w ← c.ops.foldlM (densityStep u c.qubits)
      { mem := initialState (2 * c.qubits.length), bits := bits, drawn := 0, records := records }
    assertDensity w.mem
    pure (some w)

end DG.Custom
