import Verif.Model.CircuitState
import Mathlib.Analysis.Matrix.Normed
import Mathlib.Analysis.Matrix.PosDef
import Mathlib.Analysis.InnerProductSpace.PiL2

/-! Vectors and matrices of Mathlib as numpy arrays. -/

namespace DG.Spec
open scoped ComplexOrder

/-- A vector as an array. -/
def ofVec {m : Nat} (v : Fin m → ℂ) : NDArr := ⟨[m], List.ofFn v, by simp⟩

/-- A matrix as an array (row by row). -/
def ofMat {m k : Nat} (M : Matrix (Fin m) (Fin k) ℂ) : NDArr :=
  ⟨[m, k], (List.ofFn fun i => List.ofFn (M i)).flatten, by simp [List.length_flatten, Function.comp_def]⟩

/-- The Frobenius norm. -/
noncomputable def frobeniusNorm {m k : Nat} (M : Matrix (Fin m) (Fin k) ℂ) : ℝ := letI := @Matrix.frobeniusNormedAddCommGroup; ‖M‖

/-- A density matrix: positive semidefinite with trace 1. -/
def IsDensity {m : Nat} (M : Matrix (Fin m) (Fin m) ℂ) : Prop := M.PosSemidef ∧ M.trace = 1

/-- What can be done with the state of a circuit with `n` qubits: set it, or read one of the two attributes. -/
inductive StateCall
  | set (a : NDArr) (force normalize : Bool)
  | readState
  | readDm

/-- The effect of a sequence of calls, where exceptions are caught. -/
noncomputable def runCalls (n : Nat) : List StateCall → StateSlot → StateSlot
  | [], s => s
  | .set a f z :: l, s => runCalls n l (s.setState n a f z).2
  | .readState :: l, s => runCalls n l s
  | .readDm :: l, s => runCalls n l s.getDm.2

/-- `x` equals one up to the default tolerances of `numpy.isclose` (absolute 1e-8 plus relative 1e-5 of the value one). -/
def NearOne (x : ℝ) : Prop := 1 - 0.00001001 ≤ x ∧ x ≤ 1 + 0.00001001

end DG.Spec
