import Verif.Model.Py
import Mathlib.Algebra.Ring.Defs
import Mathlib.Data.List.Sort

/-!
# The generated simulator kernels: `dwave/gate/simulator/operation_generation.py`

`generate_op_c_code` prints a C function; the model is the behaviour of that function for given generator arguments.
Amplitudes range over an arbitrary type `R` with addition and multiplication: `ℂ`, or, for rounding, `Fl` (`Model/Rounding.lean`).
The state vector is the list of memory cells the pointer `state_vector` points to; an access outside of it, and every
other undefined behaviour of C, is the error `undefinedBehaviour`.  C's `uint64_t` is `BitVec 64`.
-/

namespace DG.Kernel

/-- An entry of the gate matrix at generation time: a number (`precompile_gate`) or the C variable `gate_value{i}{j}`
(operation_generation.py 215-218). -/
inductive Entry (R : Type)
  | num (x : R)
  | var (i j : Nat)

section
variable {R : Type} [Zero R] [One R] [Add R] [Mul R] [DecidableEq R]

/-- `np.nonzero` on an entry (line 65): a variable is a non-empty string. -/
def Entry.nonzero : Entry R → Bool
  | .num x => decide (x ≠ 0)
  | .var _ _ => true

/-- `entry == 1` (lines 67, 280). -/
def Entry.isOne : Entry R → Bool
  | .num x => decide (x = 1)
  | .var _ _ => false

/-- The instructions computed by `compile_gate` (lines 29-82): the output sub-states in ascending order, each with its
list of (input sub-state, entry). -/
def compileGate (size : Nat) (G : Nat → Nat → Entry R) (skipIdentity skipZeros : Bool) :
    List (Nat × List (Nat × Entry R)) :=
  (List.range size).filterMap fun i =>
    let nz := (List.range size).filter fun j => (G i j).nonzero
    if skipIdentity && decide (nz = [i]) && (G i i).isOne then none
    else if skipZeros && nz.isEmpty then none
    else some (i, nz.map fun j => (j, G i j))

/-- `dependent_sub_states` (lines 58, 79), sorted. -/
def dependents (size : Nat) (ins : List (Nat × List (Nat × Entry R))) : List Nat :=
  (List.range size).filter fun j => ins.any fun p => p.2.any fun q => q.1 == j

/-- `binary(i, n)[j]` (lines 24-26). -/
def bit (i j : Nat) : Nat := (i >>> j) &&& 1

/-- The C expression `(b << k)` with `b` a literal of type `int` (lines 193-194) and `k` of type `uint64_t`; the result
is an `int`. Undefined if `k ≥ 32` or the result is not representable (INT_MAX = 2^31 - 1). -/
def shl (b : Nat) (k : BitVec 64) : Except Err Nat :=
  if k.toNat ≥ 32 ∨ b * 2 ^ k.toNat ≥ 2 ^ 31 then .error .undefinedBehaviour
  else .ok (b * 2 ^ k.toNat)

/-- `qubit_index` (lines 188-191). -/
def qubitIndex (littleEndian : Bool) (numQubits q : BitVec 64) : BitVec 64 :=
  if littleEndian then q else numQubits - q - 1

/-- `"0" | e_1 | ... | e_k` (lines 259-273), an `int` converted to `uint64_t`. -/
def orAll (es : List Nat) : BitVec 64 := BitVec.ofNat 64 (es.foldl (· ||| ·) 0)

/-- `(1 << positions[i]) - 1` (line 320). -/
def maskOf (p : BitVec 64) : Except Err (BitVec 64) := do
  let s ← shl 1 p
  pure (BitVec.ofNat 64 (s - 1))

/-- `control_mask` (lines 259-261, 323). -/
def controlMask (controls : List (BitVec 64)) : Except Err (BitVec 64) := do
  let es ← controls.mapM fun c => shl 1 c
  pure (orAll es)

/-- `target_mask{state}` (lines 263-273, 324-327). `targets` are the bit positions of the targets. -/
def targetMask (targets : List (BitVec 64)) (st : Nat) : Except Err (BitVec 64) := do
  let es ← (targets.zipIdx).mapM fun p => shl (bit st p.2) p.1
  pure (orAll es)

/-- One line `basis_template = ((basis_template & ~mask) << 1) | (basis_template & mask)` (lines 340-349). -/
def insertZero (t m : BitVec 64) : BitVec 64 := ((t &&& ~~~m) <<< 1) ||| (t &&& m)

/-- `basis_template` of an iteration (lines 339-354). -/
def template (masks : List (BitVec 64)) (cmask partialBasis : BitVec 64) : BitVec 64 :=
  masks.foldl insertZero partialBasis ||| cmask

/-- `state_vector[i]` as an r-value. -/
def load (mem : List R) (i : BitVec 64) : Except Err R :=
  match mem[i.toNat]? with
  | some v => .ok v
  | none => .error .undefinedBehaviour

/-- `state_vector[i] = v`. -/
def store (mem : List R) (i : BitVec 64) (v : R) : Except Err (List R) :=
  if i.toNat < mem.length then .ok (mem.set i.toNat v) else .error .undefinedBehaviour

/-- Generator arguments (lines 97-106). `precompiled` is `precompile_gate`. -/
structure OpSpec (R : Type) where
  numTargets : Nat
  numControls : Nat
  precompiled : Option (Nat → Nat → R) := none
  /-- `sparse_gate_mask`, by default all ones (lines 204-205); ignored for a precompiled gate. -/
  mask : Nat → Nat → Bool := fun _ _ => true
  collectNorm : Bool := false
  scale : Bool := false

/-- `gate_matrix_size` (line 200). -/
def OpSpec.size (op : OpSpec R) : Nat := 1 <<< op.numTargets

/-- The compiled instructions (lines 207-235). In a row of the masked matrix (lines 229-231) that has a variable numpy turns the zeros
into non-empty strings; `compile_gate` then drops them with `entry != 0` (line 78), so that they give no instruction either. -/
def OpSpec.instructions (op : OpSpec R) : List (Nat × List (Nat × Entry R)) :=
  match op.precompiled with
  | some G => compileGate op.size (fun i j => .num (G i j)) (!op.scale && !op.collectNorm) op.collectNorm
  | none => compileGate op.size (fun i j => if op.mask i j then .var i j else .num 0) true false

/-- Value of an entry; `gate` is the flat row-major buffer behind `gate_matrix` (lines 219-226). The initialisers read
it before the loop. -/
def Entry.value (size : Nat) (gate : List R) : Entry R → Except Err R
  | .num x => .ok x
  | .var i j =>
    match gate[i * size + j]? with
    | some v => .ok v
    | none => .error .undefinedBehaviour

/-- `multiply_val_and_amps` (lines 275-287): `t_1 + ... + t_k`, or `0.0`. -/
def sumTerms : List R → R
  | [] => 0
  | t :: ts => ts.foldl (· + ·) t

/-- One term (lines 279-283). -/
def term (size : Nat) (gate : List R) (amps : PyDict Nat R) (p : Nat × Entry R) : Except Err R :=
  match amps.get? p.1 with
  | none => .error .keyError
  | some a =>
    if p.2.isOne then .ok a
    else do
      let v ← p.2.value size gate
      pure (v * a)

/-- `amp_result{i}` (lines 369-383). -/
def ampResult (op : OpSpec R) (gate : List R) (factor : R) (amps : PyDict Nat R)
    (p : Nat × List (Nat × Entry R)) : Except Err (Nat × R) := do
  let ts ← p.2.mapM (term op.size gate amps)
  let r := sumTerms ts
  pure (p.1, if op.scale then factor * r else r)

/-- `all_sub_states` (line 237), sorted. -/
def subStates (op : OpSpec R) : List Nat :=
  (List.range op.size).filter fun i =>
    (op.instructions.any fun p => p.1 == i) || (dependents op.size op.instructions).contains i

variable {N : Type} [Add N] [Zero N]

/-- Body of the loop (lines 336-402) for one `partial_basis`. State: the accumulated norm and the memory.
`normSq` is `std::norm`. -/
def body (op : OpSpec R) (normSq : R → N) (gate : List R) (factor : R) (masks : List (BitVec 64)) (cmask : BitVec 64)
    (tmask : Nat → Except Err (BitVec 64)) (s : N × List R) (partialBasis : BitVec 64) : Except Err (N × List R) := do
  let t := template masks cmask partialBasis
  let amps ← (dependents op.size op.instructions).mapM fun j => do
    let m ← tmask j
    let v ← load s.2 (t ||| m)
    pure (j, v)
  let results ← op.instructions.mapM (ampResult op gate factor amps)
  if op.collectNorm then
    pure (results.foldl (fun acc p => acc + normSq p.2) s.1, s.2)
  else do
    let mem ← results.foldlM (fun mem p => do
      let m ← tmask p.1
      store mem (t ||| m) p.2) s.2
    pure (s.1, mem)

/-- The initialisers `gate_value{i}{j} = gate_matrix[...]` (lines 219-226) for the entries in the mask; nothing is read for a precompiled
gate. -/
def readGate (op : OpSpec R) (gate : List R) : Except Err Unit :=
  match op.precompiled with
  | some _ => .ok ()
  | none =>
    if (List.range op.size).all fun i => (List.range op.size).all fun j => !op.mask i j || decide (i * op.size + j < gate.length) then .ok ()
    else .error .undefinedBehaviour

/-- `std::sort` of the positions (lines 313-317), as insertion sort. -/
def sorted (l : List (BitVec 64)) : List (BitVec 64) := l.insertionSort (fun a b => a.toNat ≤ b.toNat)

/-- Everything before the loop (lines 302-329): masks, control mask and number of iterations. -/
def setup (op : OpSpec R) (littleEndian : Bool) (numQubits : BitVec 64) (gate : List R)
    (targets controls : List (BitVec 64)) : Except Err (List (BitVec 64) × BitVec 64 × BitVec 64) := do
  let numStates ← shl 1 numQubits
  let positions := sorted ((targets ++ controls).map (qubitIndex littleEndian numQubits))
  let masks ← positions.mapM maskOf
  let cmask ← controlMask (controls.map (qubitIndex littleEndian numQubits))
  let _ ← (subStates op).mapM (targetMask (targets.map (qubitIndex littleEndian numQubits)))
  readGate op gate
  pure (masks, cmask, BitVec.ofNat 64 numStates >>> (op.numTargets + op.numControls))

/-- The sequence of values of `partial_basis` (lines 332-335). -/
def iterations (n : BitVec 64) : List (BitVec 64) := (List.range n.toNat).map (BitVec.ofNat 64)

/-- The generated function with the iterations performed in the order `order (iterations n)`. Returns the norm
(if collected) and the memory. -/
def runOrder (op : OpSpec R) (normSq : R → N) (littleEndian : Bool) (numQubits : BitVec 64) (mem gate : List R)
    (targets controls : List (BitVec 64)) (factor : R) (order : List (BitVec 64) → List (BitVec 64)) :
    Except Err (N × List R) := do
  let (masks, cmask, iters) ← setup op littleEndian numQubits gate targets controls
  let tmask := targetMask (targets.map (qubitIndex littleEndian numQubits))
  (order (iterations iters)).foldlM (body op normSq gate factor masks cmask tmask) (0, mem)

/-- The generated function (lines 302-417): iterations in ascending order. -/
def run (op : OpSpec R) (normSq : R → N) (littleEndian : Bool) (numQubits : BitVec 64) (mem gate : List R)
    (targets controls : List (BitVec 64)) (factor : R) : Except Err (N × List R) :=
  runOrder op normSq littleEndian numQubits mem gate targets controls factor id

/-- `swap_matrix` (lines 739-747). -/
def swapMatrix (i j : Nat) : R :=
  if (i = 0 ∧ j = 0) ∨ (i = 1 ∧ j = 2) ∨ (i = 2 ∧ j = 1) ∨ (i = 3 ∧ j = 3) then 1 else 0

/-- `single_qubit` (line 761). -/
def singleQubit : OpSpec R := { numTargets := 1, numControls := 0 }
/-- `apply_gate_control` (line 762). -/
def gateControl : OpSpec R := { numTargets := 1, numControls := 1 }
/-- `apply_gate_two_control` (line 763). -/
def gateTwoControl : OpSpec R := { numTargets := 1, numControls := 2 }
/-- `apply_swap` (line 764). -/
def swapOp : OpSpec R := { numTargets := 2, numControls := 0, precompiled := some swapMatrix }
/-- `apply_cswap` (line 765). -/
def cswapOp : OpSpec R := { numTargets := 2, numControls := 1, precompiled := some swapMatrix }

end
end DG.Kernel
