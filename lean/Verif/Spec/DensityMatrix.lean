import Mathlib.LinearAlgebra.Matrix.PosDef
import Mathlib.Analysis.Complex.Order

/-!
# Specification for C118: density matrices
-/

noncomputable section

namespace DG.Spec
open Matrix ComplexOrder

/-- A density matrix: Hermitian, of trace 1 and positive. -/
structure DensityMatrix {m : Type} [Fintype m] (ρ : Matrix m m ℂ) : Prop where
  hermitian : ρᴴ = ρ
  trace : ρ.trace = 1
  positive : ∀ x : m → ℂ, 0 ≤ star x ⬝ᵥ (ρ *ᵥ x)

/-- The matrix in a row-major array of `d * d` numbers. -/
def rows (d : Nat) (mem : List ℂ) : Matrix (Fin d) (Fin d) ℂ := fun i j => mem.getD (i * d + j) 0

end DG.Spec
