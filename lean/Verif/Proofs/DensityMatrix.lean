import Verif.Spec.DensityMatrix
import Verif.Proofs.SimFinal

/-! Lemmas for C118: |a><a| is a density matrix. -/

noncomputable section

namespace DG
open Spec Matrix ComplexOrder

/-- The sum of a list by positions. -/
theorem sum_positions (l : List ℂ) (f : ℂ → ℝ) : (l.map f).sum = ∑ i : Fin l.length, f l[i] := by
  rw [← List.ofFn_getElem_eq_map l f, List.sum_ofFn]
  rfl

/-- |a><a| is a density matrix. -/
theorem density_of_vector {m : Type} [Fintype m] [DecidableEq m] (a : m → ℂ) (h : ∑ i, Complex.normSq (a i) = 1) :
    DensityMatrix (vecMulVec a (star a)) ∧ vecMulVec a (star a) * vecMulVec a (star a) = vecMulVec a (star a) := by
  have hd : star a ⬝ᵥ a = 1 := by
    simp only [dotProduct, Pi.star_apply]
    rw [← Complex.ofReal_one, ← h, Complex.ofReal_sum]
    refine Finset.sum_congr rfl fun i _ => ?_
    rw [mul_comm]
    exact Complex.mul_conj (a i)
  refine ⟨⟨?_, ?_, ?_⟩, ?_⟩
  · rw [conjTranspose_vecMulVec, star_star]
  · rw [trace_vecMulVec, dotProduct_comm, hd]
  · exact fun x => (posSemidef_vecMulVec_self_star a).dotProduct_mulVec_nonneg x
  · rw [vecMulVec_mul_vecMulVec, hd, one_smul]

end DG
