import Verif.Props.Simulator
import Verif.Proofs.DensityMatrix

/-!
# C118 (and C51): results that are density matrices

`DensityMatrix` (Hermitian, trace 1, positive) and `rows` are in `Spec/DensityMatrix.lean`.
-/

noncomputable section

namespace DG.Props
open Complex DG.Sim DG.Spec Matrix ComplexOrder

/-- **C118.** The result of the density-matrix simulation of a circuit of library gates on at most 15 qubits is a density matrix, and that of a pure state. -/
theorem C118_density (c : SCircuit) (hnd : c.qubits.Nodup) (h1 : 1 ≤ c.qubits.length) (hn : c.qubits.length ≤ 15) (hops : ∀ op ∈ c.ops, GateOp c op)
    (u : Nat → ℝ) (le : Bool) (bits : Nat → Option Bool) (records : Nat → Record) :
    ∃ v, simulateMixed u c le bits records = .ok (some v) ∧ v.mem.length = 2 ^ c.qubits.length * 2 ^ c.qubits.length ∧
      DensityMatrix (rows (2 ^ c.qubits.length) v.mem) ∧
      rows (2 ^ c.qubits.length) v.mem * rows (2 ^ c.qubits.length) v.mem = rows (2 ^ c.qubits.length) v.mem := by
  obtain ⟨w, v, a1, a2, a3, a4⟩ := C50_density_partial c hnd h1 hn hops u bits records
  obtain ⟨w', b1, b3⟩ := C43_normalised c ⟨hnd, h1, by omega⟩ u bits records hops false
  obtain rfl : w' = w := by rw [a1] at b1; cases b1; rfl
  have hlen : w'.mem.length = 2 ^ c.qubits.length := by
    obtain ⟨w2, s, e1, -, e3, -⟩ := C75_gates c ⟨hnd, h1, by omega⟩ u bits records hops false
    rw [a1] at e1
    cases e1
    exact e3.1
  have hle : simulateMixed u c le bits records = simulateMixed u c false bits records := rfl
  refine ⟨v, hle.trans a2, a3, ?_⟩
  have hrows : rows (2 ^ c.qubits.length) v.mem = vecMulVec (fun i : Fin (2 ^ c.qubits.length) => w'.mem.getD i 0) (star fun i : Fin (2 ^ c.qubits.length) => w'.mem.getD i 0) := by
    funext i j
    have hi : i.val < w'.mem.length := by rw [hlen]; exact i.isLt
    have hj : j.val < w'.mem.length := by rw [hlen]; exact j.isLt
    have := a4 i j _ _ (List.getElem?_eq_getElem hi) (List.getElem?_eq_getElem hj)
    simp only [rows, vecMulVec_apply, Pi.star_apply, List.getD_eq_getElem?_getD, this, List.getElem?_eq_getElem hi, List.getElem?_eq_getElem hj, Option.getD_some]
  rw [hrows]
  refine density_of_vector _ ?_
  rw [← b3, sum_positions]
  rw [← Fin.sum_congr' _ hlen]
  refine Finset.sum_congr rfl fun i _ => ?_
  simp

/-- **C51, exactly when.** For every normalised state, `circuit.density_matrix` has trace 1 exactly if all amplitudes are real; it is a density matrix
exactly then. -/
theorem C51_trace (state : List ℂ) (h : (state.map Complex.normSq).sum = 1) :
    ∃ ρ : Matrix (Fin state.length) (Fin state.length) ℂ, (∀ i j : Fin state.length, densityEntry state i j = .ok (ρ i j)) ∧
      (ρ.trace = 1 ↔ ∀ a ∈ state, a.im = 0) ∧ (DensityMatrix ρ ↔ ∀ a ∈ state, a.im = 0) := by
  rw [sum_positions] at h
  have hreal : (vecMulVec (fun i : Fin state.length => state[i]) fun i => state[i]).trace = 1 → ∀ a ∈ state, a.im = 0 := by
    intro ht
    rw [trace_vecMulVec] at ht
    have hre : ∑ i : Fin state.length, ((state[i]).re * (state[i]).re - (state[i]).im * (state[i]).im) = 1 := by
      have := congrArg Complex.re ht
      simpa [dotProduct] using this
    have hsum : ∑ i : Fin state.length, 2 * ((state[i]).im * (state[i]).im) = 0 := by
      have e : ∑ i : Fin state.length, 2 * ((state[i]).im * (state[i]).im) = (∑ i : Fin state.length, Complex.normSq state[i]) -
          ∑ i : Fin state.length, ((state[i]).re * (state[i]).re - (state[i]).im * (state[i]).im) := by
        rw [← Finset.sum_sub_distrib]
        refine Finset.sum_congr rfl fun i _ => ?_
        rw [Complex.normSq_apply]
        ring
      rw [e, h, hre, sub_self]
    intro a ha
    obtain ⟨i, hi, rfl⟩ := List.getElem_of_mem ha
    have := (Finset.sum_eq_zero_iff_of_nonneg (fun i _ => by nlinarith [mul_self_nonneg (state[i]).im])).1 hsum ⟨i, hi⟩ (Finset.mem_univ _)
    simpa using this
  have hback : (∀ a ∈ state, a.im = 0) → DensityMatrix (vecMulVec (fun i : Fin state.length => state[i]) fun i => state[i]) := by
    intro hr
    have e : (star fun i : Fin state.length => state[i]) = fun i : Fin state.length => state[i] := by
      funext i
      exact Complex.conj_eq_iff_im.2 (hr _ (List.getElem_mem _))
    have := (density_of_vector (fun i : Fin state.length => state[i]) h).1
    rwa [e] at this
  refine ⟨vecMulVec (fun i : Fin state.length => state[i]) (fun i => state[i]), ?_, ⟨hreal, fun hr => (hback hr).trace⟩, fun hd => hreal hd.trace, hback⟩
  intro i j
  simp [densityEntry, vecMulVec_apply]
  rfl

/-- Circuits with complex amplitudes meet the hypotheses. -/
example (u : Nat → ℝ) (bits : Nat → Option Bool) (records : Nat → Record) (le : Bool) :
    ∃ v, simulateMixed u demoGates le bits records = .ok (some v) ∧ DensityMatrix (rows (2 ^ demoGates.qubits.length) v.mem) := by
  obtain ⟨v, h1, -, h2, -⟩ := C118_density demoGates demoGates_qubits.1 (by decide) (by decide) demoGates_ops u le bits records
  exact ⟨v, h1, h2⟩

example : (([(3 / 5 : ℝ), (4 / 5 : ℝ) * I] : List ℂ).map Complex.normSq).sum = 1 := by
  simp
  norm_num

end DG.Props
