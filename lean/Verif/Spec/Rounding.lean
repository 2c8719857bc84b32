import Verif.Spec.Simulation
import Verif.Model.Rounding
import Mathlib.Data.Int.Log

/-!
# Specification: rounding errors
-/

noncomputable section

namespace DG.Spec
open Complex DG.Sim

/-- Distance of two states: the Euclidean norm of their difference. -/
def stateDist {n : Nat} (φ ψ : State n ℂ) : ℝ := Real.sqrt (normSq fun x => φ x - ψ x)

/-- Addition and multiplication of (not too large) complex numbers have relative error at most `ε`, apart from an absolute error of at most `η` (underflow). -/
structure Accurate (A : Arith) (ε η : ℝ) : Prop where
  add : ∀ z w : ℂ, ‖z‖ ≤ 4 → ‖w‖ ≤ 4 → ‖A.add z w - (z + w)‖ ≤ ε * ‖z + w‖ + η
  mul : ∀ z w : ℂ, ‖z‖ ≤ 4 → ‖w‖ ≤ 4 → ‖A.mul z w - z * w‖ ≤ ε * (‖z‖ * ‖w‖) + η

/-- The operation has a single-qubit matrix: that of the operation, or of its target operation. -/
def HasBase (op : SOp) (b : Base) : Prop := op.kind = .single b ∨ ∃ nc, op.kind = .controlled nc b

/-- The computed matrices of the operations are arrays as the kernels expect them, and their entries have errors of at most `δ`. -/
def MatricesWithin (A : Arith) (ops : List SOp) (δ : ℝ) : Prop :=
  ∀ op ∈ ops, ∀ b a, HasBase op b → b.matrix = .ok a →
    ∃ a', A.matrix b = .ok a' ∧ a'.cOrder = true ∧ a'.complexType = true ∧ ∀ i j, ‖gateOf a' i j - gateOf a i j‖ ≤ δ

/-- Norms of vectors of `2^n` amplitudes (that are not too large) are computed with errors of at most `ν`. -/
def NormWithin (A : Arith) (n : Nat) (ν : ℝ) : Prop := ∀ v : List ℂ, v.length = 2 ^ n → norm2 v ≤ 2 → |A.norm v - norm2 v| ≤ ν

/-- The probability of measuring one of the basis states in `S`. -/
def probIn {n : Nat} (S : Finset (Basis n)) (ψ : State n ℂ) : ℝ := ∑ x ∈ S, Complex.normSq (ψ x)

/-- The relative error that a gate on `n` qubits may add. -/
def gateError (ε η δ : ℝ) (n : Nat) : ℝ := 6 * ε + 2 * δ + 4 * η * Real.sqrt (2 ^ n)

/-- Rounding of a real number to the nearest `double`, for numbers that are not too large: a multiple of `2^(k-52)`, if `2^k ≤ |x| < 2^(k+1)`, but
at least of `2^-1074` (the exponents of subnormal numbers). Of two equally near numbers this chooses the larger one, not the even one. -/
def toDouble (x : ℝ) : ℝ :=
  let ulp : ℝ := (2 : ℝ) ^ max (Int.log 2 |x| - 52) (-1074)
  round (x / ulp) * ulp

/-- Complex arithmetic with doubles, given how matrices and norms are computed. -/
def doubleArith (matrix : Base → Except Err Arr2) (norm : List ℂ → ℝ) : Arith := ⟨addBy toDouble, mulBy toDouble, matrix, norm⟩

/-- An array with every number rounded to a double. -/
def roundArr (a : Arr2) : Arr2 :=
  let r (z : ℂ) : ℂ := ⟨toDouble z.re, toDouble z.im⟩
  { a with e00 := r a.e00, e01 := r a.e01, e10 := r a.e10, e11 := r a.e11 }

/-- Complex arithmetic with doubles and correctly rounded matrices and norms. -/
def bestDouble : Arith := doubleArith (fun b => b.matrix.map roundArr) fun v => toDouble (norm2 v)

end DG.Spec
