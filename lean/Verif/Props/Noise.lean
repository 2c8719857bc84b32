import Verif.Props.Simulator

/-!
# C70, strengthened: what the operators of the generated operator sets are

`C70_operator_sets` says which operator is chosen and that it is applied; here it is said what the chosen operators do to the amplitudes, and with which probabilities they are
chosen: dephasing flips the sign of the amplitudes in which the qubit is 1, with probability 0.01 in every state; amplitude damping lets the qubit fall from 1 to 0, with probability 0.01
times that of the qubit being 1.
-/

noncomputable section

namespace DG.Props
open DG.Spec DG.Sim Complex
variable {n : Nat}

/-- The probability that qubit `t` is 1. -/
def probOne (t : Fin n) (ψ : State n ℂ) : ℝ := ∑ x, if x t = true then Complex.normSq (ψ x) else 0

/-- `|√p|² = p`. -/
theorem normSq_sqrt {p : ℝ} (hp : 0 ≤ p) : Complex.normSq ((Real.sqrt p : ℝ) : ℂ) = p := by
  rw [Complex.normSq_ofReal, Real.mul_self_sqrt hp]

/-- **C70, the operators.** -/
theorem C70_operators (t : Fin n) (ψ : State n ℂ) (x : Fin n → Bool) :
    measurementOps.map (fun E => applyGate t (bitMat E) ψ x) = [if x t = false then ψ x else 0, if x t = true then ψ x else 0] ∧
    dephaseOps.map (fun E => applyGate t (bitMat E) ψ x) =
      [((Real.sqrt (99 / 100) : ℝ) : ℂ) * ψ x, ((Real.sqrt (1 / 100) : ℝ) : ℂ) * if x t = true then -ψ x else ψ x] ∧
    ampDampOps.map (fun E => applyGate t (bitMat E) ψ x) =
      [if x t = true then ((Real.sqrt (99 / 100) : ℝ) : ℂ) * ψ x else ψ x,
       if x t = true then 0 else ((Real.sqrt (1 / 100) : ℝ) : ℂ) * ψ (Function.update x t true)] := by
  have h99 : (1 - 1 / 100 : ℝ) = 99 / 100 := by norm_num
  have hup : ∀ b, x t = b → Function.update x t b = x := fun b hb => by rw [← hb]; exact Function.update_eq_self t x
  simp only [measurementOps, dephaseOps, ampDampOps, List.map_cons, List.map_nil, applyGate, bitMat, measurement0, measurement1, dephase0, dephase1, ampDamp0, ampDamp1, h99]
  generalize ((Real.sqrt (99 / 100) : ℝ) : ℂ) = A
  generalize ((Real.sqrt (1 / 100) : ℝ) : ℂ) = B
  refine ⟨?_, ?_, ?_⟩ <;> cases hx : x t <;> simp [hup _ hx]

/-- **C70, the probabilities** of the two operators of each set in a normalised state. -/
theorem C70_probabilities (t : Fin n) (ψ : State n ℂ) (h1 : Spec.normSq ψ = 1) :
    measurementOps.map (prob t ψ) = [1 - probOne t ψ, probOne t ψ] ∧
    dephaseOps.map (prob t ψ) = [99 / 100, 1 / 100] ∧
    ampDampOps.map (prob t ψ) = [1 - probOne t ψ / 100, probOne t ψ / 100] := by
  have two : ∀ (E F : Nat → Nat → ℂ), Complete [E, F] → prob t ψ E + prob t ψ F = 1 := fun E F hc => by
    have := sum_prob hc t ψ
    rw [h1] at this
    simpa using this
  have act := fun x => C70_operators t ψ x
  have hm := two _ _ (complete_used measurementOps (.inl rfl))
  have hd := two _ _ (complete_used dephaseOps (.inr (.inl rfl)))
  have ha := two _ _ (complete_used ampDampOps (.inr (.inr rfl)))
  have e1 : prob t ψ measurement1 = probOne t ψ := by
    unfold prob Spec.normSq probOne
    refine Finset.sum_congr rfl fun x _ => ?_
    have := (act x).1
    simp only [measurementOps, List.map_cons, List.map_nil, List.cons.injEq, and_true] at this
    rw [this.2]
    split <;> simp
  have e2 : prob t ψ dephase0 = 99 / 100 := by
    have : prob t ψ dephase0 = 99 / 100 * Spec.normSq ψ := by
      unfold prob Spec.normSq
      rw [Finset.mul_sum]
      refine Finset.sum_congr rfl fun x _ => ?_
      have := (act x).2.1
      simp only [dephaseOps, List.map_cons, List.map_nil, List.cons.injEq, and_true] at this
      rw [this.1, Complex.normSq_mul, normSq_sqrt (by norm_num)]
    rw [this, h1, mul_one]
  have e3 : prob t ψ ampDamp0 = 1 - probOne t ψ / 100 := by
    have : prob t ψ ampDamp0 = Spec.normSq ψ - probOne t ψ / 100 := by
      unfold prob Spec.normSq probOne
      rw [div_eq_inv_mul, Finset.mul_sum, ← Finset.sum_sub_distrib]
      refine Finset.sum_congr rfl fun x _ => ?_
      have := (act x).2.2
      simp only [ampDampOps, List.map_cons, List.map_nil, List.cons.injEq, and_true] at this
      rw [this.1]
      split
      · rw [Complex.normSq_mul, normSq_sqrt (by norm_num)]
        ring
      · ring
    rw [this, h1]
  simp only [measurementOps, dephaseOps, ampDampOps, List.map_cons, List.map_nil, List.cons.injEq, and_true]
  refine ⟨⟨by linarith, e1⟩, ⟨e2, by linarith⟩, e3, by linarith⟩

/-- Not vacuous: the state in which one qubit is 1; it decays with probability 0.01. -/
example : let ψ : State 1 ℂ := fun x => if x 0 = true then 1 else 0
    Spec.normSq ψ = 1 ∧ ampDampOps.map (prob 0 ψ) = [99 / 100, 1 / 100] := by
  intro ψ
  have hsum : ∀ f : (Fin 1 → Bool) → ℝ, ∑ x, f x = f (fun _ => true) + f (fun _ => false) := fun f => by
    rw [← (Equiv.funUnique (Fin 1) Bool).symm.sum_comp f]
    simp only [Fintype.sum_bool]
    rfl
  have h1 : Spec.normSq ψ = 1 := by
    unfold Spec.normSq
    rw [hsum]
    simp [ψ]
  have h2 : probOne 0 ψ = 1 := by
    unfold probOne
    rw [hsum]
    simp [ψ]
  refine ⟨h1, ?_⟩
  rw [(C70_probabilities 0 ψ h1).2.2, h2]
  norm_num

end DG.Props
