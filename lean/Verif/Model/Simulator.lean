import Verif.Model.Gates
import Verif.Model.Kernel
import Mathlib.Analysis.Complex.Basic

/-!
# The simulator: `dwave/gate/simulator/simulator.pyx` and the generated operator sets

Exact arithmetic. Qubits and bits are identified by numbers (object identity). The random generator is an arbitrary stream
`u : Nat → ℝ` of results of `rng.uniform()` together with the number of results already drawn. Warnings are not modelled.
If an exception is raised the intermediate state is dropped (the caller never sees the array; bits already set by
earlier measurements of the failing call are not tracked).
-/

noncomputable section

namespace DG.Sim
open Complex Classical Kernel

/-- The cython wrapper of a gate kernel (operation_generation.py 504-527): typed memoryviews, then the C call with the
pointers to the first elements. The result is the new content of the state vector. -/
def callKernel (op : OpSpec ℂ) (littleEndian : Bool) (numQubits : Nat) (mem gate : List ℂ) (targets controls : List Nat) :
    Except Err (List ℂ) := do
  let r ← run op normSq littleEndian (BitVec.ofNat 64 numQubits) mem gate (targets.map (BitVec.ofNat 64))
    (controls.map (BitVec.ofNat 64)) 1
  pure r.2

/-- Conversion of a 2x2 array to `complex[:,:]`: `ValueError` (buffer dtype mismatch) unless it is complex128. -/
def memview (a : Arr2) : Except Err (List ℂ) :=
  if a.complexType then .ok a.buffer else .error .valueError

/-! ## Operator sets (operation_generation.py 536-721) -/

/-- The norm kernel of operator `E` (lines 596-605, `collect_norm=True`). -/
def normKernel (E : Nat → Nat → ℂ) : OpSpec ℂ :=
  { numTargets := 1, numControls := 0, precompiled := some E, collectNorm := true }

/-- The apply kernel of operator `E` (lines 596-605, `provide_amplitude_scale_factor=True`). -/
def applyKernel (E : Nat → Nat → ℂ) : OpSpec ℂ :=
  { numTargets := 1, numControls := 0, precompiled := some E, scale := true }

/-- `op_prob` of an operator. -/
def opProb (E : Nat → Nat → ℂ) (littleEndian : Bool) (numQubits : Nat) (mem : List ℂ) (target : Nat) : Except Err ℝ := do
  let r ← run (normKernel E) normSq littleEndian (BitVec.ofNat 64 numQubits) mem [] [BitVec.ofNat 64 target] [] 1
  pure r.1

/-- The chain of `if op_idx < 0` blocks (lines 611-648): the operators from number `idx` on, with accumulated probability `t`.
The result is the pair (op_idx, p). -/
def choose (littleEndian : Bool) (numQubits : Nat) (mem : List ℂ) (target : Nat) (u : ℝ) :
    List (Nat → Nat → ℂ) → Nat → ℝ → Except Err (Int × ℝ)
  | [], _, _ => .ok (-1, 0)
  | [E], idx, _ => do
    let p ← opProb E littleEndian numQubits mem target
    pure ((idx : Int), p)
  | E :: E' :: rest, idx, t => do
    let p ← opProb E littleEndian numQubits mem target
    if t + p > u then pure ((idx : Int), p)
    else choose littleEndian numQubits mem target u (E' :: rest) (idx + 1) (t + p)

/-- The generated cython function of an operator set (lines 667-710); `u` is the result of `rng.uniform()`. -/
def opSet (ops : List (Nat → Nat → ℂ)) (littleEndian applyOperator : Bool) (numQubits : Nat) (mem : List ℂ) (target : Nat)
    (u : ℝ) : Except Err (Int × List ℂ) := do
  let (idx, p) ← choose littleEndian numQubits mem target u ops 0 0
  if p = 0 then .error .runtimeError
  else
    let factor : ℂ := ((1 / Real.sqrt p : ℝ) : ℂ)
    if applyOperator then
      match ops[idx.toNat]? with
      | none => pure (idx, mem)
      | some E => do
        let r ← run (applyKernel E) normSq littleEndian (BitVec.ofNat 64 numQubits) mem [] [BitVec.ofNat 64 target] [] factor
        pure (idx, r.2)
    else pure (idx, mem)

/-- `measurement_0` (line 757). -/
def measurement0 (i j : Nat) : ℂ := if i = 0 ∧ j = 0 then 1 else 0
/-- `measurement_1` (line 758). -/
def measurement1 (i j : Nat) : ℂ := if i = 1 ∧ j = 1 then 1 else 0

/-- `dephase0` with `eps = 0.01` (lines 749-751). -/
def dephase0 (i j : Nat) : ℂ :=
  if i = 0 ∧ j = 0 then ((Real.sqrt (1 - 1 / 100) : ℝ) : ℂ)
  else if i = 1 ∧ j = 1 then ((Real.sqrt (1 - 1 / 100) : ℝ) : ℂ) else 0
/-- `dephase1` (line 752). -/
def dephase1 (i j : Nat) : ℂ :=
  if i = 0 ∧ j = 0 then ((Real.sqrt (1 / 100) : ℝ) : ℂ)
  else if i = 1 ∧ j = 1 then -((Real.sqrt (1 / 100) : ℝ) : ℂ) else 0
/-- `amp_damp0` (line 754). -/
def ampDamp0 (i j : Nat) : ℂ :=
  if i = 0 ∧ j = 0 then 1 else if i = 1 ∧ j = 1 then ((Real.sqrt (1 - 1 / 100) : ℝ) : ℂ) else 0
/-- `amp_damp1` (line 755). -/
def ampDamp1 (i j : Nat) : ℂ := if i = 0 ∧ j = 1 then ((Real.sqrt (1 / 100) : ℝ) : ℂ) else 0

/-- The operator sets for which code is generated (lines 774-778): `measurement_computational_basis`, `dephase_noise`,
`amplitude_dampening_noise`. -/
def measurementOps : List (Nat → Nat → ℂ) := [measurement0, measurement1]
def dephaseOps : List (Nat → Nat → ℂ) := [dephase0, dephase1]
def ampDampOps : List (Nat → Nat → ℂ) := [ampDamp0, ampDamp1]

/-- `sample_qubit` (simulator.pyx 176-205). The number of qubits is computed as `round(np.log2(state.shape[0]))`, modelled by
`Nat.log2`, which agrees on powers of two. -/
def sampleQubit (qubit : Nat) (mem : List ℂ) (u : ℝ) (collapse littleEndian : Bool) : Except Err (Int × List ℂ) :=
  opSet measurementOps littleEndian collapse mem.length.log2 mem qubit u

/-! ## Simulation -/

/-- An operation of a circuit. `oid` identifies the object, `qubits`, `cond`, `bits` are the attributes `_qubits`, `_cond`,
`_bits` (base.py 196-197, 664). -/
structure SOp where
  oid : Nat
  kind : Kind
  qubits : List Nat
  cond : Option (List Nat) := none
  bits : Option (List Nat) := none

/-- What a measurement records: `_measured_state` and `_measured_qubit_indices` (base.py 665-667). -/
structure Record where
  state : Option (List ℂ) := none
  indices : List Nat := []

/-- State of a running simulation. -/
structure World where
  /-- the local array `state` -/
  mem : List ℂ
  /-- `Bit._value` of every bit -/
  bits : Nat → Option Bool
  /-- number of random numbers drawn -/
  drawn : Nat
  /-- the records of the measurement objects -/
  records : Nat → Record

/-- `Bit.__bool__` (primitives.py 141-145). -/
def bitTrue : Option Bool → Bool
  | some b => b
  | none => true

/-- `Operation.is_blocked` (base.py 311-321): an empty or missing sequence of condition bits does not block. -/
def isBlocked (op : SOp) (bits : Nat → Option Bool) : Bool :=
  match op.cond with
  | none => false
  | some [] => false
  | some (b :: bs) => !((b :: bs).all fun b => bitTrue (bits b))

/-- `op.num_qubits` as used in simulator.pyx 121 (base.py 286-293). -/
def numQubitsOf (op : SOp) : Nat :=
  match op.kind with
  | .single _ => 1
  | .swap => 2
  | .cswap => 3
  | .ccx => 3
  | _ => op.qubits.length

/-- `targets[i]`. -/
def item (targets : List Nat) (i : Nat) : Except Err Nat :=
  match targets[i]? with
  | some t => .ok t
  | none => .error .indexError

/-- `op.bits[idx].set(m, force=True)` with the `except (IndexError, TypeError)` (simulator.pyx 214-217;
primitives.py 122-135). -/
def storeBit (bits : Option (List Nat)) (idx : Nat) (m : Int) (vals : Nat → Option Bool) : Nat → Option Bool :=
  match bits with
  | none => vals
  | some bs => match bs[idx]? with
    | none => vals
    | some b => Function.update vals b (some (decide (m ≠ 0)))

/-- Loop of `_measure` (simulator.pyx 211-219). -/
def measureLoop (u : Nat → ℝ) (op : SOp) : List Nat → Nat → World → Except Err World
  | [], _, w => .ok w
  | t :: ts, idx, w => do
    let (m, mem) ← sampleQubit t w.mem (u w.drawn) true false
    let rec_ := w.records op.oid
    measureLoop u op ts (idx + 1)
      { mem := mem, bits := storeBit op.bits idx m w.bits, drawn := w.drawn + 1,
        records := Function.update w.records op.oid { rec_ with indices := rec_.indices ++ [t] } }

/-- `_measure` (simulator.pyx 208-219). -/
def measure (u : Nat → ℝ) (op : SOp) (targets : List Nat) (w : World) : Except Err World :=
  measureLoop u op targets 0
    { w with records := Function.update w.records op.oid { (w.records op.oid) with state := some w.mem } }

/-- The array given to the kernel for a single-qubit matrix, conjugated if asked for (simulator.pyx 98-100, 125-127). -/
def gateArray (b : Base) (conjugate : Bool) : Except Err (List ℂ) := do
  let g ← b.matrix
  memview (if conjugate then g.conj else g)

/-- `apply_instruction` (simulator.pyx 44-130). -/
def applyInstruction (u : Nat → ℝ) (numQubits : Nat) (op : SOp) (targets : List Nat) (littleEndian conjugate : Bool)
    (w : World) : Except Err World :=
  if isBlocked op w.bits then .ok w
  else match op.kind with
    | .measurement =>
      if littleEndian then .error .circuitError else measure u op targets w
    | .swap => do
      let target0 ← item targets 1
      let target1 ← item targets 0
      let mem ← callKernel swapOp littleEndian numQubits w.mem [] [target0, target1] []
      pure { w with mem := mem }
    | .cswap => do
      let target0 ← item targets 1
      let target1 ← item targets 2
      let control ← item targets 0
      let mem ← callKernel cswapOp littleEndian numQubits w.mem [] [target0, target1] [control]
      pure { w with mem := mem }
    | .ccx => do
      let target ← item targets 2
      let control0 ← item targets 0
      let control1 ← item targets 1
      let mem ← callKernel gateTwoControl littleEndian numQubits w.mem [0, 1, 1, 0] [target] [control0, control1]
      pure { w with mem := mem }
    | .controlled nc b => do
      let gate ← gateArray b conjugate
      if nc = 1 then do
        let target ← item targets 1
        let control ← item targets 0
        let mem ← callKernel gateControl littleEndian numQubits w.mem gate [target] [control]
        pure { w with mem := mem }
      else if nc = 2 then do
        let target ← item targets 2
        let control0 ← item targets 0
        let control1 ← item targets 1
        let mem ← callKernel gateTwoControl littleEndian numQubits w.mem gate [target] [control0, control1]
        pure { w with mem := mem }
      else pure w
    | .single b => do
      let gate ← gateArray b conjugate
      let target ← item targets 0
      let mem ← callKernel singleQubit littleEndian numQubits w.mem gate [target] []
      pure { w with mem := mem }
    | .barrier =>
      /- `op.label` does not exist (line 123); for one qubit `op.matrix` is `None` (base.py 335-341), which the kernel
      wrapper cannot index -/
      if numQubitsOf op ≠ 1 then .error .attributeError
      else if conjugate then .error .attributeError else .error .indexError
    | .opaque => .error .attributeError

/-- The circuit as the simulator sees it. -/
structure SCircuit where
  qubits : List Nat
  ops : List SOp

/-- `[circuit.qubits.index(qb) for qb in op.qubits]` (simulator.pyx 170, 238). -/
def targetsOf (c : SCircuit) (op : SOp) : Except Err (List Nat) :=
  op.qubits.mapM fun q => if q ∈ c.qubits then .ok (c.qubits.idxOf q) else .error .valueError

/-- `np.zeros(1 << n)` with entry 0 set to 1 (simulator.pyx 166-167, 230-231). -/
def initialState (n : Nat) : List ℂ := (List.replicate (1 <<< n) 0).set 0 1

/-- The loop of the state-vector simulation (simulator.pyx 169-171). -/
def loop (u : Nat → ℝ) (c : SCircuit) (littleEndian : Bool) (w : World) : Except Err World :=
  c.ops.foldlM (fun w op => do
    let targets ← targetsOf c op
    applyInstruction u c.qubits.length op targets littleEndian false w) w

/-- `np.isclose(x, 1)` with default tolerances. -/
def isCloseOne (x : ℝ) : Prop := |x - 1| ≤ 1 / 10 ^ 8 + 1 / 10 ^ 5

/-- `np.linalg.norm` of an array, given by its entries in any order. -/
def norm2 (v : List ℂ) : ℝ := Real.sqrt (v.map normSq).sum

/-- `Circuit._assert_state` for a state vector (circuit.py 285-292). -/
def assertState (n : Nat) (v : List ℂ) : Except Err Unit :=
  if v.length ≠ 2 <<< (n - 1) then .error .valueError
  else if isCloseOne (norm2 v) then .ok () else .error .valueError

/-- `simulate(circuit, mixed_state=False, little_endian)` (simulator.pyx 133-173): the new `circuit.state` and the bits.
`none`: the circuit has no qubits and nothing happens. `bits` and `records` are the values before. -/
def simulate (u : Nat → ℝ) (c : SCircuit) (littleEndian : Bool) (bits : Nat → Option Bool) (records : Nat → Record) :
    Except Err (Option World) :=
  if c.qubits.length = 0 then .ok none
  else do
    let w ← loop u c littleEndian { mem := initialState c.qubits.length, bits := bits, drawn := 0, records := records }
    assertState c.qubits.length w.mem
    pure (some w)

/-- The loop of `_simulate_circuit_density_matrix` (simulator.pyx 233-247). `_measure(op, state, circuit, rng)` enumerates
the circuit object, which is not iterable: `TypeError`. The endianness argument is never passed (line 164). -/
def densityLoop (u : Nat → ℝ) (c : SCircuit) (w : World) : Except Err World :=
  c.ops.foldlM (fun w op => do
    match op.kind with
    | .measurement => .error .typeError
    | _ =>
      let targets ← targetsOf c op
      let w1 ← applyInstruction u (2 * c.qubits.length) op targets false false w
      applyInstruction u (2 * c.qubits.length) op (targets.map (· + c.qubits.length)) false true w1) w

/-- `_assert_state` for a square array with the given entries (circuit.py 285-292); the shape is right by
`reshape` (simulator.pyx 248). -/
def assertDensity (v : List ℂ) : Except Err Unit :=
  if isCloseOne (norm2 v) then .ok () else .error .valueError

/-- `simulate(circuit, mixed_state=True, little_endian)`: the flattened (row-major) density matrix. -/
def simulateMixed (u : Nat → ℝ) (c : SCircuit) (_littleEndian : Bool) (bits : Nat → Option Bool) (records : Nat → Record) :
    Except Err (Option World) :=
  if c.qubits.length = 0 then .ok none
  else do
    let w ← densityLoop u c { mem := initialState (2 * c.qubits.length), bits := bits, drawn := 0, records := records }
    assertDensity w.mem
    pure (some w)

/-! ## Results -/

/-- `Circuit.density_matrix` of a pure state (circuit.py 250-255): `state.reshape(-1, 1) @ state.reshape(1, -1)`, entry
(i, j). -/
def densityEntry (state : List ℂ) (i j : Nat) : Except Err ℂ := do
  match state[i]?, state[j]? with
  | some a, some b => pure (a * b)
  | _, _ => .error .indexError

/-- One entry of `samples`: `[sample_qubit(qb, state_copy, rng, collapse_state=True) for qb in qubits]` (base.py 738-740).
Negative indices cannot be converted to `uint64_t`: `OverflowError`. Returns the sample, the final content of the array that
was sampled, and the number of random numbers drawn. -/
def sampleRow (u : Nat → ℝ) : List Int → List ℂ → Nat → Except Err (List Int × List ℂ × Nat)
  | [], mem, k => .ok ([], mem, k)
  | q :: qs, mem, k => do
    if q < 0 then .error .overflowError
    else
      let (m, mem1) ← sampleQubit q.toNat mem (u k) true false
      let (row, mem2, k2) ← sampleRow u qs mem1 (k + 1)
      pure (m :: row, mem2, k2)

/-- The loop over `range(num_samples)` (base.py 735-740). `state` is the recorded state; every iteration works on a copy, so
the array left over by `sampleRow` is dropped and `state` is passed on. -/
def sampleLoop (u : Nat → ℝ) (qubits : List Int) : Nat → List ℂ → Nat → Except Err (List (List Int) × List ℂ)
  | 0, state, _ => .ok ([], state)
  | k + 1, state, drawn => do
    let stateCopy := state
    let (row, _, drawn') ← sampleRow u qubits stateCopy drawn
    let (rows, state') ← sampleLoop u qubits k state drawn'
    pure (row :: rows, state')

/-- `Measurement.sample(qubits, num_samples)` (base.py 701-744, `as_bitstring=False`): the samples and the record afterwards.
`len(state).bit_length() - 1` is `log2`. -/
def sample (u : Nat → ℝ) (r : Record) (qubits : Option (List Int)) (numSamples : Nat) :
    Except Err (List (List Int) × Record) :=
  match r.state with
  | none => .error .circuitError
  | some state => do
    let qs : List Int := match qubits with
      | some qs => qs
      | none => r.indices.map Int.ofNat
    match qs.max? with
    | none => .error .valueError
    | some m =>
      if m ≥ (state.length.log2 : Int) then .error .valueError
      else
        let (rows, state') ← sampleLoop u qs numSamples state 0
        pure (rows, { r with state := some state' })

end DG.Sim
