import Verif.Spec.Simulation
import Mathlib.MeasureTheory.Measure.Lebesgue.Basic
import Mathlib.MeasureTheory.Integral.Bochner.Set

/-!
# Specification of sampling

Probabilities are Lebesgue measures: `numpy.random.Generator.random()` is taken to give independent, uniformly distributed numbers in [0, 1).
-/

noncomputable section

namespace DG.Spec
open MeasureTheory

/-- The Born rule for several qubits: the probability to find them in the states `ms`. -/
def jointBorn {n : Nat} (ts : List (Fin n)) (ms : List Bool) (ψ : State n ℂ) : ℝ := ∑ x, if ts.map x = ms then Complex.normSq (ψ x) else 0

/-- A stream of random numbers that starts with `v`. -/
def stream {N : Nat} (v : Fin N → ℝ) : Nat → ℝ := fun k => if h : k < N then v ⟨k, h⟩ else 0

/-- The possible values of `N` random numbers. -/
def cube (N : Nat) : Set (Fin N → ℝ) := {v | ∀ j, 0 ≤ v j ∧ v j < 1}

/-- The probability of an event that depends on `N` random numbers. -/
def chance (N : Nat) (E : (Nat → ℝ) → Prop) : ENNReal := volume {v | v ∈ cube N ∧ E (stream v)}

/-- The expected value of a number that depends on `N` random numbers. -/
def expected (N : Nat) (f : (Nat → ℝ) → ℝ) : ℝ := ∫ v in cube N, f (stream v)

end DG.Spec
