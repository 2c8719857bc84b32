import Verif.Spec.Gates

/-! # Specification of probabilistic operators -/

noncomputable section

namespace DG.Spec
open Complex

/-- A 2x2 operator, given by numeric indices, indexed by bits. -/
def bitMat (E : Nat → Nat → ℂ) : Bool → Bool → ℂ := fun a b => E a.toNat b.toNat

/-- `∑ E†E = I`. -/
def Complete (ops : List (Nat → Nat → ℂ)) : Prop :=
  ∀ a b : Bool, (ops.map fun E => ∑ k : Bool, star (bitMat E k a) * bitMat E k b).sum = if a = b then 1 else 0

/-- Probability of the operator `E` on qubit `t`: the norm of `E ψ`. -/
def prob {n : Nat} (t : Fin n) (ψ : State n ℂ) (E : Nat → Nat → ℂ) : ℝ := normSq (applyGate t (bitMat E) ψ)

/-- The index selected by the number `u` from a list of probabilities: the interval [0, 1) is divided into consecutive
intervals of the given lengths and `u` lies in interval number `i`. -/
def Selects (ps : List ℝ) (u : ℝ) (i : Nat) : Prop :=
  i < ps.length ∧ (ps.take i).sum ≤ u ∧ u < (ps.take (i + 1)).sum

/-- The state after operator `E`, normalised. -/
def collapsed {n : Nat} (t : Fin n) (ψ : State n ℂ) (E : Nat → Nat → ℂ) : State n ℂ :=
  fun x => ((1 / Real.sqrt (prob t ψ E) : ℝ) : ℂ) * applyGate t (bitMat E) ψ x

end DG.Spec
