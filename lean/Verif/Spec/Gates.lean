import Verif.Model.Gates
import Verif.Spec.Quantum
import Mathlib.LinearAlgebra.UnitaryGroup

/-!
# Specification of what operations mean
-/

noncomputable section

namespace DG.Spec
open Complex

/-- The mathematical matrix of a 2x2 array. -/
def matOf (a : Arr2) : Matrix (Fin 2) (Fin 2) ℂ := !![a.e00, a.e01; a.e10, a.e11]

/-- The same matrix indexed by bits. -/
def gateOf (a : Arr2) : Bool → Bool → ℂ
  | false, false => a.e00
  | false, true => a.e01
  | true, false => a.e10
  | true, true => a.e11

/-- The parameter is a number. -/
def Param.isNum : Param → Prop
  | .num _ => True
  | .var _ => False

/-- Operations of the library (not user-defined) with numeric parameters. -/
def Library : Base → Prop
  | .rx p => Param.isNum p
  | .ry p => Param.isNum p
  | .rz p => Param.isNum p
  | .rotation b g d => Param.isNum b ∧ Param.isNum g ∧ Param.isNum d
  | .user _ => False
  | _ => True

/-- The linear map that an operation on the given qubits means, when its qubits are distinct:
`b.matrix` on one qubit, on the last qubit under the control of the others, exchange of qubits, ... -/
inductive GateAct {n : Nat} : Kind → List (Fin n) → (State n ℂ → State n ℂ) → Prop
  | single {b : Base} {a : Arr2} (t : Fin n) : b.matrix = .ok a → GateAct (.single b) [t] (applyGate t (gateOf a))
  | controlled1 {b : Base} {a : Arr2} (c t : Fin n) : b.matrix = .ok a → c ≠ t →
      GateAct (.controlled 1 b) [c, t] (applyControlled [c] t (gateOf a))
  | controlled2 {b : Base} {a : Arr2} (c c' t : Fin n) : b.matrix = .ok a → c ≠ c' → c ≠ t → c' ≠ t →
      GateAct (.controlled 2 b) [c, c', t] (applyControlled [c, c'] t (gateOf a))
  | swap (a b : Fin n) : a ≠ b → GateAct .swap [a, b] (applySwap a b)
  | cswap (c a b : Fin n) : c ≠ a → c ≠ b → a ≠ b → GateAct .cswap [c, a, b] (applyCSwap c a b)
  | ccx (c c' t : Fin n) : c ≠ c' → c ≠ t → c' ≠ t →
      GateAct .ccx [c, c', t] (fun ψ x => if x c = true ∧ x c' = true then ψ (Function.update x t (!x t)) else ψ x)

/-- Meaning of a sequence of operations: composition, first operation first. -/
inductive Runs {n : Nat} : List (Kind × List (Fin n)) → (State n ℂ → State n ℂ) → Prop
  | nil : Runs [] id
  | cons {k : Kind} {ts : List (Fin n)} {rest : List (Kind × List (Fin n))} {f g : State n ℂ → State n ℂ} :
      GateAct k ts f → Runs rest g → Runs ((k, ts) :: rest) (g ∘ f)

/-- Total squared amplitude. -/
def normSq {n : Nat} (ψ : State n ℂ) : ℝ := ∑ x, Complex.normSq (ψ x)

end DG.Spec
