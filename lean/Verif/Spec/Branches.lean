import Verif.Spec.Sampling
import Verif.Spec.Template

/-!
# Specification of the possible results of a circuit with measurements

Every sequence of measurement results is a branch: a linear map (the gates and, for every measurement, the part of the state with the given values of
the measured qubits, not normalised) and the bits that are written.  The squared norm of the resulting vector is the probability of the branch.
-/

noncomputable section

namespace DG.Spec
open DG.Sim

/-- The part of a state in which the qubits `ts` have the values `ms`. -/
def restrict {n : Nat} (ts : List (Fin n)) (ms : List Bool) (ψ : State n ℂ) : State n ℂ := fun x => if ts.map x = ms then ψ x else 0

/-- A state divided by its norm. -/
def normalised {n : Nat} (ψ : State n ℂ) : State n ℂ := fun x => ((1 / Real.sqrt (normSq ψ) : ℝ) : ℂ) * ψ x

/-- All rows of `k` measurement results. -/
def allRows : Nat → List (List Bool)
  | 0 => [[]]
  | k + 1 => (allRows k).map (false :: ·) ++ (allRows k).map (true :: ·)

/-- One possible course of a circuit: what it does with the state, and the values written to bits, in order. -/
structure Branch (n : Nat) where
  act : State n ℂ → State n ℂ
  writes : List (Nat × Bool)

/-- The possible courses of a sequence of operations, where the bits have the given values at the beginning. A measurement has one course for every row
of results. -/
inductive Branches (c : SCircuit) : List SOp → (Nat → Option Bool) → List (Branch c.qubits.length) → Prop
  | nil {bits} : Branches c [] bits [⟨id, []⟩]
  | blocked {op ops bits L} : Blocked op bits → Branches c ops bits L → Branches c (op :: ops) bits L
  | gate {op ops bits L} {ts : List (Fin c.qubits.length)} {f} : ¬ Blocked op bits → op.qubits = ts.map (qubitAt c) → GateAct op.kind ts f →
      Branches c ops bits L → Branches c (op :: ops) bits (L.map fun b => ⟨b.act ∘ f, b.writes⟩)
  | measure {op ops bits} {ts : List (Fin c.qubits.length)} {L : List Bool → List (Branch c.qubits.length)} :
      ¬ Blocked op bits → op.kind = .measurement → op.qubits = ts.map (qubitAt c) →
      (∀ ms, ms.length = ts.length → Branches c ops (writeBits bits ((op.bits.getD []).zip ms)) (L ms)) →
      Branches c (op :: ops) bits
        ((allRows ts.length).flatMap fun ms => (L ms).map fun b => ⟨b.act ∘ restrict ts ms, (op.bits.getD []).zip ms ++ b.writes⟩)

/-- The number of random numbers that are sufficient for a circuit: one for every measured qubit. -/
def measuredQubits (ops : List SOp) : Nat := (ops.map fun op => match op.kind with | .measurement => op.qubits.length | _ => 0).sum

open Classical in
/-- The probability that the state and the bits at the end satisfy `Q`: the sum over the branches in which they do, of the squared norms. -/
def bornSum {n : Nat} (L : List (Branch n)) (ψ : State n ℂ) (bits : Nat → Option Bool) (Q : State n ℂ → (Nat → Option Bool) → Prop) : ℝ :=
  (L.map fun b => if Q (normalised (b.act ψ)) (writeBits bits b.writes) then normSq (b.act ψ) else 0).sum

/-- A branch of a template and the branch of its copy on the qubits `ι 0, ι 1, ...` of another circuit: the same map on these qubits, and the same values are
written, to bits that correspond by `R`, or to no bits at all (`none`). -/
def CopiedBranch {k n : Nat} (ι : Fin k → Fin n) (R : Option (Nat → Nat → Prop)) (b : Branch k) (b' : Branch n) : Prop :=
  b'.act = onQubits ι b.act ∧
    match R with
    | none => b'.writes = []
    | some r => List.Forall₂ (fun p p' => r p.1 p'.1 ∧ p.2 = p'.2) b.writes b'.writes

end DG.Spec
