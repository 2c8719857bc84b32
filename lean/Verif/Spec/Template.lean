import Verif.Spec.Run

/-!
# Specification of a unitary applied to some of the qubits
-/

noncomputable section

namespace DG.Spec

/-- The map `U` on states of `k` qubits, applied to the qubits `ι 0, ..., ι (k-1)` of a state of `n` qubits: the amplitude of `x` is that of the part
of `x` on these qubits, after applying `U` to the state of these qubits for fixed values of the others. -/
def onQubits {k n : Nat} (ι : Fin k → Fin n) (U : State k ℂ → State k ℂ) (ψ : State n ℂ) : State n ℂ :=
  fun x => U (fun y => ψ (Function.extend ι y x)) (x ∘ ι)

/-- The operations `S` of a circuit with the qubits `qs` mean the map `U`: from every state, for all random numbers, they give the state after `U` and
change nothing else. -/
def MeansMap (qs : List Nat) (S : List Sim.SOp) (U : State qs.length ℂ → State qs.length ℂ) : Prop :=
  ∀ (u : Nat → ℝ) (ψ : State qs.length ℂ) (bits : Nat → Option Bool) (d : Nat), Exec ⟨qs, S⟩ u S ⟨ψ, bits, d⟩ ⟨U ψ, bits, d⟩

end DG.Spec
