import Verif.Model.Simulator

/-!
# The state-vector simulation with rounded arithmetic

`Model/Simulator.lean` computes with exact complex numbers. Here the same code is modelled for any arithmetic: `Arith` says what the C++ operations on
`std::complex<double>` and the Python code of the `matrix` properties return. Only gates: measurements are not modelled here. Infinities and NaN are not
modelled (the theorems show that all numbers stay small).
-/

noncomputable section

namespace DG.Sim
open Classical Kernel

/-- Arithmetic on `complex128`. -/
structure Arith where
  /-- `std::complex<double>::operator+` -/
  add : ℂ → ℂ → ℂ
  /-- `std::complex<double>::operator*` -/
  mul : ℂ → ℂ → ℂ
  /-- `op.matrix` -/
  matrix : Base → Except Err Arr2
  /-- `np.linalg.norm` -/
  norm : List ℂ → ℝ

/-- Amplitudes that are added and multiplied with the given arithmetic. -/
def Fl (_ : Arith) : Type := ℂ

namespace Fl
variable (A : Arith)
instance : Zero (Fl A) := ⟨(0 : ℂ)⟩
instance : One (Fl A) := ⟨(1 : ℂ)⟩
instance : Add (Fl A) := ⟨A.add⟩
instance : Mul (Fl A) := ⟨A.mul⟩
instance : DecidableEq (Fl A) := fun _ _ => propDecidable _
end Fl

/-- The arithmetic of `Model/Simulator.lean`. -/
def exactArith : Arith := ⟨(· + ·), (· * ·), Base.matrix, norm2⟩

/-- Complex addition in terms of real additions rounded by `r`. -/
def addBy (r : ℝ → ℝ) (z w : ℂ) : ℂ := ⟨r (z.re + w.re), r (z.im + w.im)⟩

/-- Complex multiplication in terms of real operations rounded by `r`. -/
def mulBy (r : ℝ → ℝ) (z w : ℂ) : ℂ := ⟨r (r (z.re * w.re) - r (z.im * w.im)), r (r (z.re * w.im) + r (z.im * w.re))⟩

/-- The cython wrapper of a gate kernel (operation_generation.py 504-527), as `callKernel`. The kernels for gates do not collect norms. -/
def callKernelBy (A : Arith) (op : OpSpec (Fl A)) (littleEndian : Bool) (numQubits : Nat) (mem gate : List (Fl A)) (targets controls : List Nat) :
    Except Err (List (Fl A)) := do
  let r ← run (N := ℝ) op Complex.normSq littleEndian (BitVec.ofNat 64 numQubits) mem gate (targets.map (BitVec.ofNat 64)) (controls.map (BitVec.ofNat 64)) 1
  pure r.2

/-- The array given to the kernel (simulator.pyx 98, 125). -/
def gateArrayBy (A : Arith) (b : Base) : Except Err (List (Fl A)) := do
  let g ← A.matrix b
  memview g

/-- `apply_instruction` (simulator.pyx 44-130), with `conjugate_gate=False`, on the array `mem`. Measurements are not modelled here. -/
def applyBy (A : Arith) (numQubits : Nat) (op : SOp) (targets : List Nat) (littleEndian : Bool) (bits : Nat → Option Bool) (mem : List (Fl A)) :
    Except Err (List (Fl A)) :=
  if isBlocked op bits then .ok mem
  else match op.kind with
    | .measurement => .error .undefinedBehaviour
    | .swap => do
      let target0 ← item targets 1
      let target1 ← item targets 0
      callKernelBy A swapOp littleEndian numQubits mem [] [target0, target1] []
    | .cswap => do
      let target0 ← item targets 1
      let target1 ← item targets 2
      let control ← item targets 0
      callKernelBy A cswapOp littleEndian numQubits mem [] [target0, target1] [control]
    | .ccx => do
      let target ← item targets 2
      let control0 ← item targets 0
      let control1 ← item targets 1
      callKernelBy A gateTwoControl littleEndian numQubits mem [0, 1, 1, 0] [target] [control0, control1]
    | .controlled nc b => do
      let gate ← gateArrayBy A b
      if nc = 1 then do
        let target ← item targets 1
        let control ← item targets 0
        callKernelBy A gateControl littleEndian numQubits mem gate [target] [control]
      else if nc = 2 then do
        let target ← item targets 2
        let control0 ← item targets 0
        let control1 ← item targets 1
        callKernelBy A gateTwoControl littleEndian numQubits mem gate [target] [control0, control1]
      else pure mem
    | .single b => do
      let gate ← gateArrayBy A b
      let target ← item targets 0
      callKernelBy A singleQubit littleEndian numQubits mem gate [target] []
    | .barrier => if numQubitsOf op ≠ 1 then .error .attributeError else .error .indexError
    | .opaque => .error .attributeError

/-- The loop of the state-vector simulation (simulator.pyx 169-171). -/
def loopBy (A : Arith) (c : SCircuit) (littleEndian : Bool) (bits : Nat → Option Bool) (mem : List (Fl A)) : Except Err (List (Fl A)) :=
  c.ops.foldlM (fun mem op => do
    let targets ← targetsOf c op
    applyBy A c.qubits.length op targets littleEndian bits mem) mem

/-- `Circuit._assert_state` for a state vector (circuit.py 285-292). -/
def assertStateBy (A : Arith) (n : Nat) (v : List ℂ) : Except Err Unit :=
  if v.length ≠ 2 <<< (n - 1) then .error .valueError
  else if isCloseOne (A.norm v) then .ok () else .error .valueError

/-- `simulate(circuit, mixed_state=False, little_endian)` (simulator.pyx 133-173): the new `circuit.state`. -/
def simulateBy (A : Arith) (c : SCircuit) (littleEndian : Bool) (bits : Nat → Option Bool) : Except Err (Option (List ℂ)) :=
  if c.qubits.length = 0 then .ok none
  else do
    let mem ← loopBy A c littleEndian bits (initialState c.qubits.length)
    assertStateBy A c.qubits.length mem
    pure (some mem)

end DG.Sim
