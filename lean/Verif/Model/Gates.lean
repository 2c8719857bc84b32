import Verif.Model.Py
import Mathlib.Analysis.SpecialFunctions.Trigonometric.Basic

/-!
# Operations and their matrices: `dwave/gate/operations/operations.py`

Numbers are exact: floating-point complex numbers are modelled by `ℂ`, real parameters by `ℝ`. The annotated parameter type
is `complex`; for non-real values `math.cos` raises, so only real numbers are modelled.
-/

noncomputable section

namespace DG
open Complex

/-- A parameter of an operation: a number or a `Variable` object (identified by a number). -/
inductive Param
  | num (x : ℝ)
  | var (v : Nat)

/-- Arithmetic on a parameter: a `Variable` supports none (primitives.py 148-203), so `theta / 2` raises `TypeError`. -/
def Param.real : Param → Except Err ℝ
  | .num x => .ok x
  | .var _ => .error .typeError

/-- A 2x2 numpy array: its four entries, whether its memory is in C order, and whether its dtype is complex128. -/
@[ext] structure Arr2 where
  e00 : ℂ
  e01 : ℂ
  e10 : ℂ
  e11 : ℂ
  cOrder : Bool := true
  complexType : Bool := true

/-- The memory of the array, as seen through `&gate_matrix[0, 0]`. -/
def Arr2.buffer (a : Arr2) : List ℂ :=
  if a.cOrder then [a.e00, a.e01, a.e10, a.e11] else [a.e00, a.e10, a.e01, a.e11]

/-- `np.ascontiguousarray(gate.conjugate())` (simulator.pyx 100, 127). -/
def Arr2.conj (a : Arr2) : Arr2 :=
  { e00 := star a.e00, e01 := star a.e01, e10 := star a.e10, e11 := star a.e11, complexType := a.complexType }

/-- Single-qubit operations of the library, and user-defined ones given by the array their `matrix` property returns. -/
inductive Base
  | identity | x | y | z | hadamard | s | t
  | rx (p : Param) | ry (p : Param) | rz (p : Param)
  | rotation (beta gamma delta : Param)
  | user (a : Arr2)

/-- The `matrix` property of the single-qubit operations. -/
def Base.matrix : Base → Except Err Arr2
  /- operations.py 102-106 -/
  | .identity => .ok ⟨1, 0, 0, 1, true, true⟩
  /- 133-137 -/
  | .x => .ok ⟨0, 1, 1, 0, true, true⟩
  /- 164-168 -/
  | .y => .ok ⟨0, -1 * I, I, 0, true, true⟩
  /- 196-200 -/
  | .z => .ok ⟨1, 0, 0, -1, true, true⟩
  /- 227-231 -/
  | .hadamard =>
    let f : ℂ := ((Real.sqrt 2 / 2 : ℝ) : ℂ)
    .ok ⟨f * 1, f * 1, f * 1, f * -1, true, true⟩
  /- 258-262 -/
  | .s => .ok ⟨1, 0, 0, I, true, true⟩
  /- 293-297 -/
  | .t => .ok ⟨1, 0, 0, exp (I * (Real.pi : ℂ) / 4), true, true⟩
  /- 333-341 -/
  | .rx p => do
    let theta ← p.real
    let diag0 : ℂ := ((Real.cos (theta / 2) : ℝ) : ℂ)
    let diag1 : ℂ := -1 * I * ((Real.sin (theta / 2) : ℝ) : ℂ)
    pure ⟨diag0, diag1, diag1, diag0, true, true⟩
  /- 372-380 -/
  | .ry p => do
    let theta ← p.real
    let diag0 : ℂ := ((Real.cos (theta / 2) : ℝ) : ℂ)
    let diag1 : ℂ := ((Real.sin (theta / 2) : ℝ) : ℂ)
    pure ⟨diag0, -diag1, diag1, diag0, true, true⟩
  /- 411-419 -/
  | .rz p => do
    let theta ← p.real
    let term0 : ℂ := exp (-1 * I * (theta : ℂ) / 2)
    let term1 : ℂ := exp (I * (theta : ℂ) / 2)
    pure ⟨term0, 0, 0, term1, true, true⟩
  /- 461-475; 0.5j is I / 2 -/
  | .rotation b g d => do
    let beta ← b.real
    let gamma ← g.real
    let delta ← d.real
    let mcos : ℂ := ((Real.cos (gamma / 2) : ℝ) : ℂ)
    let msin : ℂ := ((Real.sin (gamma / 2) : ℝ) : ℂ)
    let term0 := exp (-(I / 2) * ((beta : ℂ) + (delta : ℂ))) * mcos
    let term1 := -exp (I / 2 * ((beta : ℂ) - (delta : ℂ))) * msin
    let term2 := exp (-(I / 2) * ((beta : ℂ) - (delta : ℂ))) * msin
    let term3 := exp (I / 2 * ((beta : ℂ) + (delta : ℂ))) * mcos
    pure ⟨term0, term1, term2, term3, true, true⟩
  | .user a => .ok a

/-- A numeric table as a matrix. -/
def tableEntry (t : List (List Nat)) (i j : Nat) : ℂ :=
  match t[i]? with
  | some row => match row[j]? with
    | some v => (v : ℂ)
    | none => 0
  | none => 0

/-- `SWAP.matrix` (operations.py 753-766). -/
def swapTable : List (List Nat) :=
  [[1, 0, 0, 0],
   [0, 0, 1, 0],
   [0, 1, 0, 0],
   [0, 0, 0, 1]]

/-- `CSWAP.matrix` (operations.py 801-818). -/
def cswapTable : List (List Nat) :=
  [[1, 0, 0, 0, 0, 0, 0, 0],
   [0, 1, 0, 0, 0, 0, 0, 0],
   [0, 0, 1, 0, 0, 0, 0, 0],
   [0, 0, 0, 1, 0, 0, 0, 0],
   [0, 0, 0, 0, 1, 0, 0, 0],
   [0, 0, 0, 0, 0, 0, 1, 0],
   [0, 0, 0, 0, 0, 1, 0, 0],
   [0, 0, 0, 0, 0, 0, 0, 1]]

/-- `CCX.matrix` (operations.py 849-866). -/
def ccxTable : List (List Nat) :=
  [[1, 0, 0, 0, 0, 0, 0, 0],
   [0, 1, 0, 0, 0, 0, 0, 0],
   [0, 0, 1, 0, 0, 0, 0, 0],
   [0, 0, 0, 1, 0, 0, 0, 0],
   [0, 0, 0, 0, 1, 0, 0, 0],
   [0, 0, 0, 0, 0, 1, 0, 0],
   [0, 0, 0, 0, 0, 0, 0, 1],
   [0, 0, 0, 0, 0, 0, 1, 0]]

/-- Classes of operations as far as the simulator distinguishes them. `controlled nc b`: a `ControlledOperation` whose class
attribute `_num_control` is `nc` and whose target operation is `b` with the parameters of the operation (CX, CY, CZ,
CHadamard, CRX, CRY, CRZ, CRotation: operations.py 483-718, all with `nc = 1`; subclasses by users may have other values).
`opaque`: any other operation that is not on a single qubit. -/
inductive Kind
  | single (b : Base)
  | controlled (nc : Nat) (b : Base)
  | swap | cswap | ccx
  | measurement
  | barrier
  | opaque

/-! ## Decompositions and gate definitions

In circuit order: the first operation is applied first. -/

/-- `Z._decomposition` (operations.py 180), on one qubit. -/
def zDecomposition {α : Type} (q : α) : List (Kind × List α) :=
  [(.single .hadamard, [q]), (.single .x, [q]), (.single .hadamard, [q])]

/-- `Rotation._decomposition` (operations.py 434) with the parameters as in `Rotation._qasm_decl` (435-437) and
`to_qasm` (440-459): rz(beta); ry(gamma); rz(delta). -/
def rotDecl {α : Type} (beta gamma delta : Param) (q : α) : List (Kind × List α) :=
  [(.single (.rz beta), [q]), (.single (.ry gamma), [q]), (.single (.rz delta), [q])]

/-- `SWAP._qasm_decl` (operations.py 730): cx b, a; cx a, b; cx b, a. -/
def swapDecl {α : Type} (a b : α) : List (Kind × List α) :=
  [(.controlled 1 .x, [b, a]), (.controlled 1 .x, [a, b]), (.controlled 1 .x, [b, a])]

/-- `CSWAP._qasm_decl` (operations.py 778): cx b, a; ccx c, a, b; cx b, a. -/
def cswapDecl {α : Type} (c a b : α) : List (Kind × List α) :=
  [(.controlled 1 .x, [b, a]), (.ccx, [c, a, b]), (.controlled 1 .x, [b, a])]

end DG
