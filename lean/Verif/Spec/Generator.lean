import Verif.Spec.Kraus

/-!
# Specification of gates and operator sets on several qubits

Nothing here refers to the code. A matrix with 2^k rows acts on a list of k qubits; the first qubit of the list is the least significant
bit of the row and column numbers.
-/

noncomputable section

namespace DG.Spec
open Complex

/-- The values of the qubits `ts` in the basis state `x`, as a number; the first qubit is the least significant bit. -/
def number {n : Nat} (ts : List (Fin n)) (x : Basis n) : Nat := Nat.ofBits fun k : Fin ts.length => x ts[k]

/-- The basis states that differ from `x` at most in the qubits `ts`. -/
def sameElsewhere {n : Nat} (ts : List (Fin n)) (x : Basis n) : Finset (Basis n) :=
  Finset.univ.filter fun z => ∀ q, q ∉ ts → z q = x q

/-- The matrix `M` on the qubits `ts`, where all qubits `cs` are 1: the amplitude of `x` becomes the sum of `M (bits of x) (bits of z)` times
the amplitude of `z` over all `z` that differ from `x` at most in `ts`. -/
def applyOnTargets {n : Nat} {R : Type} [Semiring R] (ts cs : List (Fin n)) (M : Nat → Nat → R) (ψ : State n R) : State n R :=
  fun x => if ∀ c ∈ cs, x c = true then ∑ z ∈ sameElsewhere ts x, M (number ts x) (number ts z) * ψ z else ψ x

/-- The squared norm of the part of a state in which all qubits `cs` are 1. -/
def normWhere {n : Nat} (cs : List (Fin n)) (ψ : State n ℂ) : ℝ := ∑ x with ∀ c ∈ cs, x c = true, Complex.normSq (ψ x)

/-- `∑ E†E = I` for matrices with `size` rows. -/
def CompleteN (size : Nat) (ops : List (Nat → Nat → ℂ)) : Prop :=
  ∀ a < size, ∀ b < size, (ops.map fun E => ∑ k ∈ Finset.range size, star (E k a) * E k b).sum = if a = b then 1 else 0

/-- The index that a random number `u` selects, if the last one is selected for all numbers that lie beyond the intervals. -/
def SelectsOrLast (ps : List ℝ) (u : ℝ) (i : Nat) : Prop :=
  i < ps.length ∧ (ps.take i).sum ≤ u ∧ (u < (ps.take (i + 1)).sum ∨ i + 1 = ps.length)

end DG.Spec
