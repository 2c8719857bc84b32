import Verif.Model.Simulator

/-!
# The code generator for any number of targets and controls: `dwave/gate/simulator/operation_generation.py`

`Model/Kernel.lean` has the behaviour of a generated C function; here are `generate_op` and `generate_op_set` themselves, for all
arguments: the names the C code declares, the check of the operators, and the cython function of an operator set with several targets and
with controls. Numbers of precompiled matrices are printed into the C code; the model takes them as they are (no rounding; Python prints a
complex number with non-zero imaginary part in a way that is not C++).
-/

namespace DG.Kernel

section
variable {R : Type} [Zero R] [One R] [Add R] [Mul R] [DecidableEq R]

/-- The name of the variable for an entry of the gate matrix (operation_generation.py 216). -/
def gateName (i j : Nat) : String := "gate_value" ++ (toString i ++ toString j)

/-- The names of the variables that the initialisers declare for the gate matrix (lines 215-226), all in the same block. -/
def OpSpec.gateNames (op : OpSpec R) : List String :=
  match op.precompiled with
  | some _ => []
  | none => (List.range op.size).flatMap fun i => ((List.range op.size).filter fun j => op.mask i j).map fun j => gateName i j

variable {N : Type} [Add N] [Zero N]

/-- The behaviour of a generated function: endianness, number of qubits, state vector, gate matrix, targets, controls, amplitude factor. -/
abbrev CFun (R N : Type) :=
  Bool → BitVec 64 → List R → List R → List (BitVec 64) → List (BitVec 64) → R → Except Err (N × List R)

/-- The C compiler on the function generated for `op` (lines 302-417): no function if a block declares a name twice. The other declared
names (`state{i}`, `amp{i}`, `amp_result{i}`, `target_mask{i}`, `mask{i}`, ...) end in one number each and are different. -/
def compileC (op : OpSpec R) (normSq : R → N) : Option (CFun R N) :=
  if op.gateNames.Nodup then some (run op normSq) else none

/-- `generate_op` (lines 440-533): both versions of the function, with the compiled C code; the amplitude factor is not used. -/
def generateOp (normSq : R → N) (numTargets numControls : Nat) (mask : Nat → Nat → Bool) (precompiled : Option (Nat → Nat → R))
    (collectNorm : Bool) : Option (CFun R N) :=
  compileC { numTargets := numTargets, numControls := numControls, precompiled := precompiled, mask := mask, collectNorm := collectNorm } normSq

end
end DG.Kernel

noncomputable section

namespace DG.Sim
open Complex Classical Kernel

/-- `np.isclose` with its default tolerances (used in line 581). -/
def isClose (a b : ℂ) : Prop := ‖a - b‖ ≤ 1 / 10 ^ 8 + 1 / 10 ^ 5 * ‖b‖

/-- An entry of `op_sum` (line 580). -/
def opSum (size : Nat) (ops : List (Nat → Nat → ℂ)) (a b : Nat) : ℂ :=
  (ops.map fun E => ∑ k ∈ Finset.range size, (starRingEnd ℂ) (E k a) * E k b).sum

/-- The norm kernel of an operator (lines 596-605, `collect_norm=True`). -/
def normKernelN (k m : Nat) (E : Nat → Nat → ℂ) : OpSpec ℂ :=
  { numTargets := k, numControls := m, precompiled := some E, collectNorm := true }

/-- The apply kernel of an operator (lines 596-605, `provide_amplitude_scale_factor=True`). -/
def applyKernelN (k m : Nat) (E : Nat → Nat → ℂ) : OpSpec ℂ :=
  { numTargets := k, numControls := m, precompiled := some E, scale := true }

/-- `op_prob` of an operator. -/
def opProbN (k m : Nat) (E : Nat → Nat → ℂ) (littleEndian : Bool) (numQubits : Nat) (mem : List ℂ) (targets controls : List Nat) :
    Except Err ℝ := do
  let r ← run (normKernelN k m E) normSq littleEndian (BitVec.ofNat 64 numQubits) mem [] (targets.map (BitVec.ofNat 64))
    (controls.map (BitVec.ofNat 64)) 1
  pure r.1

/-- The chain of `if op_idx < 0` blocks (lines 611-648): the operators from number `idx` on, with accumulated probability `t`. -/
def chooseN (k m : Nat) (littleEndian : Bool) (numQubits : Nat) (mem : List ℂ) (targets controls : List Nat) (u : ℝ) :
    List (Nat → Nat → ℂ) → Nat → ℝ → Except Err (Int × ℝ)
  | [], _, _ => .ok (-1, 0)
  | [E], idx, _ => do
    let p ← opProbN k m E littleEndian numQubits mem targets controls
    pure ((idx : Int), p)
  | E :: E' :: rest, idx, t => do
    let p ← opProbN k m E littleEndian numQubits mem targets controls
    if t + p > u then pure ((idx : Int), p)
    else chooseN k m littleEndian numQubits mem targets controls u (E' :: rest) (idx + 1) (t + p)

/-- The generated cython function of an operator set (lines 667-710); `u` is the result of `rng.uniform()`. -/
def opSetN (k m : Nat) (ops : List (Nat → Nat → ℂ)) (littleEndian applyOperator : Bool) (numQubits : Nat) (mem : List ℂ)
    (targets controls : List Nat) (u : ℝ) : Except Err (Int × List ℂ) := do
  let (idx, p) ← chooseN k m littleEndian numQubits mem targets controls u ops 0 0
  if p = 0 then .error .runtimeError
  else
    let factor : ℂ := ((1 / Real.sqrt p : ℝ) : ℂ)
    if applyOperator then
      match ops[idx.toNat]? with
      | none => pure (idx, mem)
      | some E => do
        let r ← run (applyKernelN k m E) normSq littleEndian (BitVec.ofNat 64 numQubits) mem [] (targets.map (BitVec.ofNat 64))
          (controls.map (BitVec.ofNat 64)) factor
        pure (idx, r.2)
    else pure (idx, mem)

/-- The behaviour of the function of an operator set: endianness, `apply_operator`, number of qubits, state vector, targets, controls and the
random number. -/
abbrev SetFun := Bool → Bool → Nat → List ℂ → List Nat → List Nat → ℝ → Except Err (Int × List ℂ)

/-- `generate_op_set` (lines 536-721): the operators have to satisfy `sum_k E_k^dagger E_k = I` up to the tolerances of numpy. All
operators have the shape 2^numTargets x 2^numTargets; other shapes are not modelled. -/
def generateOpSet (numTargets numControls : Nat) (ops : List (Nat → Nat → ℂ)) : Except Err SetFun :=
  if ∀ a < 2 ^ numTargets, ∀ b < 2 ^ numTargets, isClose (opSum (2 ^ numTargets) ops a b) (if a = b then 1 else 0) then
    .ok (opSetN numTargets numControls ops)
  else .error .valueError

end DG.Sim
