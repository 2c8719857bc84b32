import Batteries.Data.Nat.Basic
import Mathlib.Algebra.BigOperators.Group.Finset.Basic
import Mathlib.Algebra.Ring.Defs
import Mathlib.Data.Fintype.Pi
import Mathlib.Data.Fintype.BigOperators

/-!
# Specification of state vectors and gates

Nothing here refers to the code. A basis state of `n` qubits assigns a bit to every qubit; a state assigns an amplitude
to every basis state; gates act on states by the textbook formulas.
-/

namespace DG.Spec

/-- A computational basis state: the value of every qubit. -/
abbrev Basis (n : Nat) := Fin n → Bool

/-- A state vector. -/
abbrev State (n : Nat) (R : Type) := Basis n → R

/-- Index of a basis state in the flat vector: little-endian means qubit 0 is the least significant bit,
big-endian means qubit 0 is the most significant bit. `Nat.ofBits f` is the number with binary digits `f 0, f 1, ...`
from the least significant on. -/
def index {n : Nat} (littleEndian : Bool) (x : Basis n) : Nat :=
  Nat.ofBits (fun i => x (if littleEndian then i else i.rev))

/-- `mem` is the flat vector of the state `ψ`. -/
def Stores {n : Nat} {R : Type} (littleEndian : Bool) (mem : List R) (ψ : State n R) : Prop :=
  mem.length = 2 ^ n ∧ ∀ x, mem[index littleEndian x]? = some (ψ x)

section
variable {n : Nat} {R : Type} [Semiring R]

/-- The gate `G` on qubit `t`: `(G ψ)(x) = ∑_j G (x t) j ψ(x with qubit t set to j)`. -/
def applyGate (t : Fin n) (G : Bool → Bool → R) (ψ : State n R) : State n R :=
  fun x => ∑ j : Bool, G (x t) j * ψ (Function.update x t j)

/-- `G` on qubit `t` controlled by all qubits in `cs`. -/
def applyControlled (cs : List (Fin n)) (t : Fin n) (G : Bool → Bool → R) (ψ : State n R) : State n R :=
  fun x => if ∀ c ∈ cs, x c = true then applyGate t G ψ x else ψ x

/-- Exchange of qubits `a` and `b`. -/
def applySwap (a b : Fin n) (ψ : State n R) : State n R :=
  fun x => ψ (x ∘ Equiv.swap a b)

/-- Exchange of qubits `a` and `b` where qubit `c` is 1. -/
def applyCSwap (c a b : Fin n) (ψ : State n R) : State n R :=
  fun x => if x c = true then applySwap a b ψ x else ψ x

end
end DG.Spec
