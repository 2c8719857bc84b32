import Verif.Spec.Simulation

/-! How the states of circuits with different qubits are related. -/

noncomputable section

namespace DG.Spec
open DG.Sim

/-- Qubit `i` of the circuit with the qubits `qs` has the index `p i` in the circuit with the qubits `qs'`. -/
def Positions (qs qs' : List Nat) (p : Fin qs.length → Fin qs'.length) : Prop := ∀ i, qs'[p i] = qs[i]

/-- The array `mem'` for the qubits `qs'` holds the state of the array `mem` for the qubits `qs`, the other qubits being 0: the amplitude of a basis state in
which all other qubits are 0 is the one of the values of the qubits `qs`, and all other amplitudes are 0. -/
def WithIdle (qs qs' : List Nat) (mem mem' : List ℂ) : Prop :=
  ∃ p, Positions qs qs' p ∧ mem'.length = 2 ^ qs'.length ∧ ∀ x : Basis qs'.length, mem'[index false x]? =
    if ∀ j, qs'[j] ∉ qs → x j = false then mem[index false (x ∘ p)]? else some 0

/-- The array `mem` for the qubits `qs` holds the product of the states of two arrays for the qubits `qs1` and `qs2`. -/
def IsProduct (qs qs1 qs2 : List Nat) (mem mem1 mem2 : List ℂ) : Prop :=
  ∃ p1 p2, Positions qs1 qs p1 ∧ Positions qs2 qs p2 ∧ mem.length = 2 ^ qs.length ∧ ∀ x : Basis qs.length, ∃ a b,
    mem1[index false (x ∘ p1)]? = some a ∧ mem2[index false (x ∘ p2)]? = some b ∧ mem[index false x]? = some (a * b)

end DG.Spec
