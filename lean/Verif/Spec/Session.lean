import Verif.Model.Session
import Verif.Spec.Program
import Verif.Spec.Run
import Verif.Spec.CircuitState

/-!
# Programs with simulations: reachable states, and what simulations may change
-/

noncomputable section

namespace DG

/-- All calls of the program satisfy `A`; there is no restriction on simulations and states. -/
def SProg.All (A : Call ℝ → Prop) : SProg → Prop
  | .skip => True
  | .call e => A e
  | .simulate .. => True
  | .setState .. => True
  | .readDm _ => True
  | .seq p q => p.All A ∧ q.All A
  | .withCtx _ p => p.All A
  | .withFreeze p => p.All A
  | .attempt p => p.All A

/-- The states between the statements of a program that is started in state `s`. -/
def SProg.Visits : SProg → Sess → Sess → Prop
  | .seq p q, s, s' => p.Visits s s' ∨ ∃ s1, p.run s = (.ok (), s1) ∧ q.Visits s1 s'
  | .withCtx c p, s, s' => s' = s ∨ s' = { s with w := (openCtx c s.w).2 } ∨
      ∃ x w1, openCtx c s.w = (.ok x, w1) ∧ (p.Visits { s with w := w1 } s' ∨
        s' = { (p.run { s with w := w1 }).2 with w := (exitCtx x (p.run { s with w := w1 }).2.w).2 })
  | .withFreeze p, s, s' => s' = s ∨ s' = { s with w := (freezeEnter s.w).2 } ∨
      ∃ w1, freezeEnter s.w = (.ok (), w1) ∧ (p.Visits { s with w := w1 } s' ∨
        s' = { (p.run { s with w := w1 }).2 with w := (freezeExit (p.run { s with w := w1 }).2.w).2 })
  | .attempt p, s, s' => p.Visits s s'
  | p, s, s' => s' = s ∨ s' = (p.run s).2

namespace Spec

/-- The calls that simulations consist of, as far as objects are concerned. -/
def SimCall : Call ℝ → Prop
  | .readQubits _ => True
  | .setBit _ _ f => f = true
  | _ => False

/-- The states that occur in executions of programs with simulations, started without any objects. -/
def SReach (A : Call ℝ → Prop) (s : Sess) : Prop := ∃ p : SProg, p.All A ∧ p.Visits {} s

/-- Bit `b` is one that a measurement of circuit `c` measures into. -/
def MeasuresInto (w : World ℝ) (c b : Nat) : Prop := ∃ o ∈ opsOf w c, ∃ op k bs, w.ops[o]? = some op ∧ w.classes[op.cls]? = some k ∧ k.kind = .measurement ∧ op.bits = some bs ∧ b ∈ bs

/-- What `circuit.state` and `circuit.density_matrix` can be: nothing; a vector of `2 ^ m` numbers for some `m ≥ 1` with norm close to 1, for which the density matrix
may have been computed; or a density matrix alone, of this size and with norm close to 1. -/
def GoodSlot (t : StateSlot) : Prop :=
  (t.state = none ∧ t.dm = none) ∨
  (∃ m a, 1 ≤ m ∧ t.state = some a ∧ a.shape = [2 ^ m] ∧ NearOne a.norm ∧ (t.dm = none ∨ t.dm = some a.outer)) ∨
  ∃ m a, 1 ≤ m ∧ t.state = none ∧ t.dm = some a ∧ a.shape = [2 ^ m, 2 ^ m] ∧ NearOne a.norm

end Spec
end DG
