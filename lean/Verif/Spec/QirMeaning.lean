import Verif.Spec.Qir
import Verif.Spec.Simulation

/-!
# Specification of what QIR programs mean

Nothing here refers to the code, apart from the type of programs. A program of the base profile calls, one after the other, functions of the quantum
instruction set, whose names contain `__qis__`; the other instructions (initialisation, jumps to the next block, recording of results) change neither the
state of the qubits nor the results.
-/

noncomputable section

namespace DG.Spec
open Complex

/-- A matrix, row by row. -/
def mat2 (a b c d : ℂ) : Bool → Bool → ℂ
  | false, false => a
  | false, true => b
  | true, false => c
  | true, true => d

/-- The gates of the base profile: the function, the numbers and the qubits that it is called with, and the map that it means. -/
inductive QisGate {n : Nat} : String → List ℝ → List (Fin n) → (State n ℂ → State n ℂ) → Prop
  | x (t : Fin n) : QisGate "__quantum__qis__x__body" [] [t] (applyGate t (mat2 0 1 1 0))
  | y (t : Fin n) : QisGate "__quantum__qis__y__body" [] [t] (applyGate t (mat2 0 (-I) I 0))
  | z (t : Fin n) : QisGate "__quantum__qis__z__body" [] [t] (applyGate t (mat2 1 0 0 (-1)))
  | h (t : Fin n) : QisGate "__quantum__qis__h__body" [] [t]
      (applyGate t (mat2 ((1 / Real.sqrt 2 : ℝ) : ℂ) ((1 / Real.sqrt 2 : ℝ) : ℂ) ((1 / Real.sqrt 2 : ℝ) : ℂ) (-(1 / Real.sqrt 2 : ℝ) : ℂ)))
  | s (t : Fin n) : QisGate "__quantum__qis__s__body" [] [t] (applyGate t (mat2 1 0 0 I))
  | t (t : Fin n) : QisGate "__quantum__qis__t__body" [] [t] (applyGate t (mat2 1 0 0 (exp (I * (Real.pi / 4)))))
  | rx (θ : ℝ) (t : Fin n) : QisGate "__quantum__qis__rx__body" [θ] [t]
      (applyGate t (mat2 (Real.cos (θ / 2)) (-I * Real.sin (θ / 2)) (-I * Real.sin (θ / 2)) (Real.cos (θ / 2))))
  | ry (θ : ℝ) (t : Fin n) : QisGate "__quantum__qis__ry__body" [θ] [t]
      (applyGate t (mat2 (Real.cos (θ / 2)) (-Real.sin (θ / 2)) (Real.sin (θ / 2)) (Real.cos (θ / 2))))
  | rz (θ : ℝ) (t : Fin n) : QisGate "__quantum__qis__rz__body" [θ] [t] (applyGate t (mat2 (exp (-(I * (θ / 2)))) 0 0 (exp (I * (θ / 2)))))
  | cnot {c t : Fin n} : c ≠ t → QisGate "__quantum__qis__cnot__body" [] [c, t] (applyControlled [c] t (mat2 0 1 1 0))
  | cz {c t : Fin n} : c ≠ t → QisGate "__quantum__qis__cz__body" [] [c, t] (applyControlled [c] t (mat2 1 0 0 (-1)))

/-- The state of `n` qubits, the results, and the number of random numbers that have been used. -/
structure QirState (n : Nat) where
  ψ : State n ℂ
  results : Nat → Option Bool
  drawn : Nat

/-- All qubits are 0, and there are no results. -/
def QirState.start (n : Nat) : QirState n := ⟨zeroState n, fun _ => none, 0⟩

/-- The effect of a call. Numbers come before qubits. -/
inductive QirStep (u : Nat → ℝ) {n : Nat} : String × List (QirArg ℝ) → QirState n → QirState n → Prop
  | gate {f : String} {xs : List ℝ} {ts : List (Fin n)} {g : State n ℂ → State n ℂ} {s : QirState n} : QisGate f xs ts g →
      QirStep u (f, xs.map QirArg.dbl ++ ts.map fun t => QirArg.qubit t.val) s { s with ψ := g s.ψ }
  | measure {t : Fin n} {r : Nat} {s : QirState n} :
      QirStep u ("__quantum__qis__mz__body", [.qubit t.val, .result r]) s
        { ψ := project t (outcome t s.ψ (u s.drawn)) s.ψ
          results := Function.update s.results r (some (outcome t s.ψ (u s.drawn)))
          drawn := s.drawn + 1 }

/-- The effect of calls, one after the other. -/
inductive QirExec (u : Nat → ℝ) {n : Nat} : List (String × List (QirArg ℝ)) → QirState n → QirState n → Prop
  | nil {s} : QirExec u [] s s
  | cons {call calls s s' s''} : QirStep u call s s' → QirExec u calls s' s'' → QirExec u (call :: calls) s s''

/-- No gate acts on a qubit after it has been measured. -/
def MeasuredLast (calls : List (String × List (QirArg ℝ))) : Prop :=
  calls.Pairwise fun a b => isMz a = true → isMz b = false → ∀ i ∈ qubitArgs a.2, i ∉ qubitArgs b.2

end DG.Spec
