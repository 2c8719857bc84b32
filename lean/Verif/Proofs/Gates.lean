import Verif.Spec.Gates
import Mathlib.Analysis.SpecialFunctions.Complex.Circle
import Mathlib.Tactic.LinearCombination

/-! # Gate matrices: unitarity and norm preservation -/

namespace DG
open Complex Spec

/-- Column orthonormality. -/
structure Cols (a : Arr2) : Prop where
  c0 : star a.e00 * a.e00 + star a.e10 * a.e10 = 1
  c1 : star a.e01 * a.e01 + star a.e11 * a.e11 = 1
  c01 : star a.e00 * a.e01 + star a.e10 * a.e11 = 0
  c10 : star a.e01 * a.e00 + star a.e11 * a.e10 = 0

theorem unitary_iff_cols (a : Arr2) : matOf a ∈ Matrix.unitaryGroup (Fin 2) ℂ ↔ Cols a := by
  rw [Matrix.mem_unitaryGroup_iff']
  constructor
  · intro h
    have e := fun i j => congrFun (congrFun h i) j
    have h00 := e 0 0; have h01 := e 0 1; have h10 := e 1 0; have h11 := e 1 1
    simp [matOf, Matrix.mul_apply, Fin.sum_univ_two, Matrix.star_apply] at h00 h01 h10 h11
    exact ⟨h00, h11, h01, h10⟩
  · rintro ⟨h00, h11, h01, h10⟩
    ext i j
    fin_cases i <;> fin_cases j <;>
      simp [matOf, Matrix.mul_apply, Fin.sum_univ_two, Matrix.star_apply] <;> assumption

theorem star_exp_mul_self (z : ℂ) (hz : star z = -z) : star (exp z) * exp z = 1 := by
  have : star (exp z) = exp (star z) := (exp_conj z).symm
  rw [this, hz, ← exp_add]; simp

theorem star_I_mul_real (r : ℝ) : star (I * (r : ℂ)) = -(I * (r : ℂ)) := by
  simp

theorem cos_sq_add_sin_sq_ofReal (x : ℝ) :
    ((Real.cos x : ℝ) : ℂ) * ((Real.cos x : ℝ) : ℂ) + ((Real.sin x : ℝ) : ℂ) * ((Real.sin x : ℝ) : ℂ) = 1 := by
  rw [← ofReal_mul, ← ofReal_mul, ← ofReal_add]
  have := Real.cos_sq_add_sin_sq x
  rw [← sq, ← sq, this]; simp

/-- Every library gate with numeric parameters has a C-ordered complex matrix with orthonormal columns. -/
theorem library_cols {b : Base} (h : Library b) :
    ∃ a, b.matrix = .ok a ∧ a.cOrder = true ∧ a.complexType = true ∧ Cols a := by
  have real : ∀ p : Param, Param.isNum p → ∃ x, p.real = .ok x := by
    intro p hp
    cases p with
    | num x => exact ⟨x, rfl⟩
    | var v => exact absurd hp (by simp [Param.isNum])
  cases b with
  | identity => exact ⟨_, rfl, rfl, rfl, by constructor <;> simp⟩
  | x => exact ⟨_, rfl, rfl, rfl, by constructor <;> simp⟩
  | y => exact ⟨_, rfl, rfl, rfl, by constructor <;> simp⟩
  | z => exact ⟨_, rfl, rfl, rfl, by constructor <;> simp⟩
  | hadamard =>
    refine ⟨_, rfl, rfl, rfl, ?_⟩
    have hs : ((Real.sqrt 2 / 2 : ℝ) : ℂ) * ((Real.sqrt 2 / 2 : ℝ) : ℂ) = 1 / 2 := by
      rw [← ofReal_mul]
      have : (Real.sqrt 2 / 2) * (Real.sqrt 2 / 2) = 1 / 2 := by
        have := Real.mul_self_sqrt (show (0 : ℝ) ≤ 2 by norm_num)
        nlinarith
      rw [this]; simp
    have hst : star ((Real.sqrt 2 / 2 : ℝ) : ℂ) = ((Real.sqrt 2 / 2 : ℝ) : ℂ) := conj_ofReal _
    generalize ((Real.sqrt 2 / 2 : ℝ) : ℂ) = f at *
    constructor <;> simp only [star_mul', hst, star_neg, star_one]
    · linear_combination (2 : ℂ) * hs
    · linear_combination (2 : ℂ) * hs
    · ring
    · ring
  | s => exact ⟨_, rfl, rfl, rfl, by constructor <;> simp⟩
  | t =>
    refine ⟨_, rfl, rfl, rfl, ?_⟩
    have : star (exp (I * (Real.pi : ℂ) / 4)) * exp (I * (Real.pi : ℂ) / 4) = 1 := by
      apply star_exp_mul_self
      simp; ring
    constructor
    · simp
    · simpa using this
    · simp
    · simp
  | rx p =>
    obtain ⟨x, hx⟩ := real p h
    refine ⟨⟨((Real.cos (x / 2) : ℝ) : ℂ), -1 * I * ((Real.sin (x / 2) : ℝ) : ℂ), -1 * I * ((Real.sin (x / 2) : ℝ) : ℂ),
      ((Real.cos (x / 2) : ℝ) : ℂ), true, true⟩, by simp only [Base.matrix, hx]; rfl, rfl, rfl, ?_⟩
    have h1 := cos_sq_add_sin_sq_ofReal (x / 2)
    have hc : star ((Real.cos (x / 2) : ℝ) : ℂ) = ((Real.cos (x / 2) : ℝ) : ℂ) := conj_ofReal _
    have hs : star ((Real.sin (x / 2) : ℝ) : ℂ) = ((Real.sin (x / 2) : ℝ) : ℂ) := conj_ofReal _
    have hI : star I = -I := conj_I
    have hI2 : I * I = -1 := I_mul_I
    generalize ((Real.cos (x / 2) : ℝ) : ℂ) = cc at *
    generalize ((Real.sin (x / 2) : ℝ) : ℂ) = ss at *
    constructor <;> simp only [star_mul', hc, hs, star_neg, star_one, hI]
    · linear_combination h1 - ss * ss * hI2
    · linear_combination h1 - ss * ss * hI2
    · ring
    · ring
  | ry p =>
    obtain ⟨x, hx⟩ := real p h
    refine ⟨⟨((Real.cos (x / 2) : ℝ) : ℂ), -((Real.sin (x / 2) : ℝ) : ℂ), ((Real.sin (x / 2) : ℝ) : ℂ),
      ((Real.cos (x / 2) : ℝ) : ℂ), true, true⟩, by simp only [Base.matrix, hx]; rfl, rfl, rfl, ?_⟩
    have h1 := cos_sq_add_sin_sq_ofReal (x / 2)
    have hc : star ((Real.cos (x / 2) : ℝ) : ℂ) = ((Real.cos (x / 2) : ℝ) : ℂ) := conj_ofReal _
    have hs : star ((Real.sin (x / 2) : ℝ) : ℂ) = ((Real.sin (x / 2) : ℝ) : ℂ) := conj_ofReal _
    generalize ((Real.cos (x / 2) : ℝ) : ℂ) = cc at *
    generalize ((Real.sin (x / 2) : ℝ) : ℂ) = ss at *
    constructor <;> simp only [star_neg, hc, hs]
    · linear_combination h1
    · linear_combination h1
    · ring
    · ring
  | rz p =>
    obtain ⟨x, hx⟩ := real p h
    refine ⟨⟨exp (-1 * I * (x : ℂ) / 2), 0, 0, exp (I * (x : ℂ) / 2), true, true⟩,
      by simp only [Base.matrix, hx]; rfl, rfl, rfl, ?_⟩
    have h1 := star_exp_mul_self (-1 * I * (x : ℂ) / 2) (by simp; ring)
    have h2 := star_exp_mul_self (I * (x : ℂ) / 2) (by simp; ring)
    constructor
    · simpa using h1
    · simpa using h2
    · simp
    · simp
  | rotation b g d =>
    obtain ⟨hb, hg, hd⟩ := h
    obtain ⟨β, hβ⟩ := real b hb
    obtain ⟨γ, hγ⟩ := real g hg
    obtain ⟨δ, hδ⟩ := real d hd
    refine ⟨⟨exp (-(I / 2) * ((β : ℂ) + (δ : ℂ))) * ((Real.cos (γ / 2) : ℝ) : ℂ),
      -exp (I / 2 * ((β : ℂ) - (δ : ℂ))) * ((Real.sin (γ / 2) : ℝ) : ℂ),
      exp (-(I / 2) * ((β : ℂ) - (δ : ℂ))) * ((Real.sin (γ / 2) : ℝ) : ℂ),
      exp (I / 2 * ((β : ℂ) + (δ : ℂ))) * ((Real.cos (γ / 2) : ℝ) : ℂ), true, true⟩,
      by simp only [Base.matrix, hβ, hγ, hδ]; rfl, rfl, rfl, ?_⟩
    have h1 := cos_sq_add_sin_sq_ofReal (γ / 2)
    have hc : star ((Real.cos (γ / 2) : ℝ) : ℂ) = ((Real.cos (γ / 2) : ℝ) : ℂ) := conj_ofReal _
    have hs : star ((Real.sin (γ / 2) : ℝ) : ℂ) = ((Real.sin (γ / 2) : ℝ) : ℂ) := conj_ofReal _
    have e1 := star_exp_mul_self (-(I / 2) * ((β : ℂ) + (δ : ℂ))) (by simp; ring)
    have e2 := star_exp_mul_self (I / 2 * ((β : ℂ) - (δ : ℂ))) (by simp; ring)
    have e3 := star_exp_mul_self (-(I / 2) * ((β : ℂ) - (δ : ℂ))) (by simp; ring)
    have e4 := star_exp_mul_self (I / 2 * ((β : ℂ) + (δ : ℂ))) (by simp; ring)
    have s1 : star (exp (-(I / 2) * ((β : ℂ) + (δ : ℂ)))) = exp (I / 2 * ((β : ℂ) + (δ : ℂ))) := by
      rw [show star (exp (-(I / 2) * ((β : ℂ) + (δ : ℂ)))) = exp (star (-(I / 2) * ((β : ℂ) + (δ : ℂ)))) from (exp_conj _).symm]
      congr 1; simp; ring
    have s2 : star (exp (I / 2 * ((β : ℂ) - (δ : ℂ)))) = exp (-(I / 2) * ((β : ℂ) - (δ : ℂ))) := by
      rw [show star (exp (I / 2 * ((β : ℂ) - (δ : ℂ)))) = exp (star (I / 2 * ((β : ℂ) - (δ : ℂ)))) from (exp_conj _).symm]
      congr 1; simp; ring
    have s3 : star (exp (-(I / 2) * ((β : ℂ) - (δ : ℂ)))) = exp (I / 2 * ((β : ℂ) - (δ : ℂ))) := by rw [← s2, star_star]
    have s4 : star (exp (I / 2 * ((β : ℂ) + (δ : ℂ)))) = exp (-(I / 2) * ((β : ℂ) + (δ : ℂ))) := by rw [← s1, star_star]
    rw [s1] at e1; rw [s2] at e2
    generalize ((Real.cos (γ / 2) : ℝ) : ℂ) = cc at *
    generalize ((Real.sin (γ / 2) : ℝ) : ℂ) = ss at *
    generalize exp (-(I / 2) * ((β : ℂ) + (δ : ℂ))) = A at *
    generalize exp (I / 2 * ((β : ℂ) - (δ : ℂ))) = B at *
    generalize exp (-(I / 2) * ((β : ℂ) - (δ : ℂ))) = C at *
    generalize exp (I / 2 * ((β : ℂ) + (δ : ℂ))) = D at *
    constructor <;> simp only [star_mul', star_neg, hc, hs, s1, s2, s3, s4]
    · linear_combination h1 + cc * cc * e1 + ss * ss * e2
    · linear_combination h1 + cc * cc * e1 + ss * ss * e2
    · ring
    · ring
  | user a => exact absurd h (by simp [Library])

end DG
