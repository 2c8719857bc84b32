import Verif.Spec.Identities
import Verif.Proofs.GateAct

/-! Proofs of the identities between gates. -/

noncomputable section

namespace DG
open Complex Spec

abbrev M2 := Bool → Bool → ℂ

/-- The product of the matrices of gates on one qubit. -/
inductive Product : List Base → M2 → Prop
  | nil : Product [] (fun i j => if i = j then 1 else 0)
  | cons {b : Base} {a : Arr2} {bs : List Base} {H : M2} : b.matrix = .ok a → Product bs H → Product (b :: bs) (fun i j => ∑ k, H i k * gateOf a k j)

theorem applyGate_unit {n : Nat} (t : Fin n) (ψ : State n ℂ) : applyGate t (fun i j => if i = j then 1 else 0) ψ = ψ := by
  funext x
  simp [applyGate]

theorem applyControlled_unit {n : Nat} (cs : List (Fin n)) (t : Fin n) (ψ : State n ℂ) :
    applyControlled cs t (fun i j => if i = j then 1 else 0) ψ = ψ := by
  funext x
  simp only [applyControlled, applyGate_unit, ite_self]

theorem applyControlled_then {n : Nat} (c t : Fin n) (h : c ≠ t) (G H : M2) (ψ : State n ℂ) :
    applyControlled [c] t G (applyControlled [c] t H ψ) = applyControlled [c] t (fun i j => ∑ k, G i k * H k j) ψ := by
  funext x
  simp only [applyControlled, List.mem_singleton, forall_eq]
  by_cases hc : x c = true
  · rw [if_pos hc, if_pos hc, ← applyGate_comp]
    simp only [applyGate]
    refine Finset.sum_congr rfl fun j _ => ?_
    have : Function.update x t j c = true := by rw [Function.update_of_ne h]; exact hc
    simp only [applyControlled, List.mem_singleton, forall_eq, this, if_true, applyGate]
  · rw [if_neg hc, if_neg hc, if_neg hc]

theorem product_runs {n : Nat} (t : Fin n) {bs : List Base} {G : M2} (h : Product bs G) :
    Runs (bs.map fun b => (Kind.single b, [t])) (applyGate t G) := by
  induction h with
  | nil =>
    rw [show applyGate t (fun i j => if i = j then (1 : ℂ) else 0) = id from funext (applyGate_unit t)]
    exact .nil
  | cons ha _ ih =>
    have := Runs.cons (.single t ha) ih
    rwa [show _ ∘ _ = _ from funext (applyGate_comp t _ _)] at this

theorem product_controlled {n : Nat} (c t : Fin n) (hct : c ≠ t) {bs : List Base} {G : M2} (h : Product bs G) :
    Runs (bs.map fun b => (Kind.controlled 1 b, [c, t])) (applyControlled [c] t G) := by
  induction h with
  | nil =>
    rw [show applyControlled [c] t (fun i j => if i = j then (1 : ℂ) else 0) = id from funext (applyControlled_unit _ t)]
    exact .nil
  | cons ha _ ih =>
    have := Runs.cons (.controlled1 c t ha hct) ih
    rwa [show _ ∘ _ = _ from funext (applyControlled_then c t hct _ _)] at this

theorem half_sq : ((Real.sqrt 2 / 2 : ℝ) : ℂ) * ((Real.sqrt 2 / 2 : ℝ) : ℂ) = 1 / 2 := by
  rw [← ofReal_mul]
  have : (Real.sqrt 2 / 2) * (Real.sqrt 2 / 2) = 1 / 2 := by
    have := Real.mul_self_sqrt (show (0 : ℝ) ≤ 2 by norm_num)
    nlinarith
  rw [this]; simp

theorem exp_eighth : exp (I * (Real.pi : ℂ) / 4) * exp (I * (Real.pi : ℂ) / 4) = I := by
  rw [← Complex.exp_add, show I * (Real.pi : ℂ) / 4 + I * (Real.pi : ℂ) / 4 = Real.pi / 2 * I by ring, Complex.exp_pi_div_two_mul_I]

/-- Equality of two matrices, entry by entry. -/
theorem m2_ext {G H : M2} (h0 : G false false = H false false) (h1 : G false true = H false true) (h2 : G true false = H true false)
    (h3 : G true true = H true true) : G = H := by
  funext i j
  cases i <;> cases j <;> assumption

theorem equal_product {A B : List Base} (h : Equal A B) : ∃ G, Product A G ∧ Product B G := by
  have hI := Complex.I_mul_I
  have p0 : ∀ {G : M2}, G = (fun i j => if i = j then 1 else 0) → Product [] G := fun h => h ▸ .nil
  have p1 : ∀ {b : Base} {a : Arr2} {G : M2}, b.matrix = .ok a → G = gateOf a → Product [b] G := by
    rintro b a G hb rfl
    convert Product.cons hb .nil
    simp
  have p2 : ∀ {b b' : Base} {a a' : Arr2} {G : M2}, b.matrix = .ok a → b'.matrix = .ok a' → G = (fun i j => ∑ k, gateOf a' i k * gateOf a k j) → Product [b, b'] G := by
    rintro b b' a a' G hb hb' rfl
    exact Product.cons hb (p1 hb' rfl)
  have p3 : ∀ {b b' b'' : Base} {a a' a'' : Arr2} {G : M2}, b.matrix = .ok a → b'.matrix = .ok a' → b''.matrix = .ok a'' →
      G = (fun i j => ∑ k, (∑ l, gateOf a'' i l * gateOf a' l k) * gateOf a k j) → Product [b, b', b''] G := by
    rintro b b' b'' a a' a'' G hb hb' hb'' rfl
    exact Product.cons hb (p2 hb' hb'' rfl)
  have hh := half_sq
  have he := exp_eighth
  cases h with
  | identity => exact ⟨_, p1 rfl rfl, p0 (m2_ext rfl rfl rfl rfl)⟩
  | x_x => exact ⟨_, p2 rfl rfl rfl, p0 (m2_ext (by simp [gateOf]) (by simp [gateOf]) (by simp [gateOf]) (by simp [gateOf]))⟩
  | y_y => exact ⟨_, p2 rfl rfl rfl, p0 (m2_ext (by simp [gateOf]) (by simp [gateOf]) (by simp [gateOf]) (by simp [gateOf]))⟩
  | z_z => exact ⟨_, p2 rfl rfl rfl, p0 (m2_ext (by simp [gateOf]) (by simp [gateOf]) (by simp [gateOf]) (by simp [gateOf]))⟩
  | h_h =>
    refine ⟨_, p2 rfl rfl rfl, p0 ?_⟩
    generalize ((Real.sqrt 2 / 2 : ℝ) : ℂ) = f at *
    refine m2_ext ?_ ?_ ?_ ?_ <;> simp [gateOf] <;> linear_combination 2 * hh
  | s_s => exact ⟨_, p2 rfl rfl rfl, p1 rfl (m2_ext (by simp [gateOf]) (by simp [gateOf]) (by simp [gateOf]) (by simp [gateOf]))⟩
  | t_t => exact ⟨_, p2 rfl rfl rfl, p1 rfl (m2_ext (by simp [gateOf]) (by simp [gateOf]) (by simp [gateOf]) (by simp [gateOf, he]))⟩
  | h_x_h =>
    refine ⟨_, p3 rfl rfl rfl rfl, p1 rfl ?_⟩
    generalize ((Real.sqrt 2 / 2 : ℝ) : ℂ) = f at *
    refine m2_ext ?_ ?_ ?_ ?_ <;> simp [gateOf]
    · linear_combination 2 * hh
    · linear_combination -2 * hh
  | h_z_h =>
    refine ⟨_, p3 rfl rfl rfl rfl, p1 rfl ?_⟩
    generalize ((Real.sqrt 2 / 2 : ℝ) : ℂ) = f at *
    refine m2_ext ?_ ?_ ?_ ?_ <;> simp [gateOf] <;> linear_combination 2 * hh
  | rx_zero => exact ⟨_, p1 rfl rfl, p0 (m2_ext (by simp [gateOf]) (by simp [gateOf]) (by simp [gateOf]) (by simp [gateOf]))⟩
  | ry_zero => exact ⟨_, p1 rfl rfl, p0 (m2_ext (by simp [gateOf]) (by simp [gateOf]) (by simp [gateOf]) (by simp [gateOf]))⟩
  | rz_zero => exact ⟨_, p1 rfl rfl, p0 (m2_ext (by simp [gateOf]) (by simp [gateOf]) (by simp [gateOf]) (by simp [gateOf]))⟩
  | rx_rx a b =>
    refine ⟨_, p2 rfl rfl rfl, p1 rfl ?_⟩
    refine m2_ext ?_ ?_ ?_ ?_ <;>
      simp only [gateOf, Fintype.sum_bool, add_div, Real.cos_add, Real.sin_add, ofReal_sub, ofReal_add, ofReal_mul] <;> ring_nf <;> simp <;> ring
  | ry_ry a b =>
    refine ⟨_, p2 rfl rfl rfl, p1 rfl ?_⟩
    refine m2_ext ?_ ?_ ?_ ?_ <;>
      simp only [gateOf, Fintype.sum_bool, add_div, Real.cos_add, Real.sin_add, ofReal_sub, ofReal_add, ofReal_mul] <;> ring
  | rz_rz a b =>
    refine ⟨_, p2 rfl rfl rfl, p1 rfl ?_⟩
    refine m2_ext ?_ ?_ ?_ ?_ <;> simp only [gateOf, Fintype.sum_bool, mul_zero, zero_mul, add_zero, zero_add, ← Complex.exp_add] <;>
      push_cast <;> ring_nf
  | rx_turns a =>
    refine ⟨_, p1 rfl rfl, p1 rfl ?_⟩
    have e : (a + 4 * Real.pi) / 2 = a / 2 + 2 * Real.pi := by ring
    simp only [e, Real.cos_add_two_pi, Real.sin_add_two_pi]
  | ry_turns a =>
    refine ⟨_, p1 rfl rfl, p1 rfl ?_⟩
    have e : (a + 4 * Real.pi) / 2 = a / 2 + 2 * Real.pi := by ring
    simp only [e, Real.cos_add_two_pi, Real.sin_add_two_pi]
  | rz_turns a =>
    refine ⟨_, p1 rfl rfl, p1 rfl ?_⟩
    have e : I * ((a + 4 * Real.pi : ℝ) : ℂ) / 2 = I * (a : ℂ) / 2 + 2 * Real.pi * I := by push_cast; ring
    have e' : -1 * I * ((a + 4 * Real.pi : ℝ) : ℂ) / 2 = -1 * I * (a : ℂ) / 2 - 2 * Real.pi * I := by push_cast; ring
    rw [e, e', Complex.exp_add, Complex.exp_sub, Complex.exp_two_pi_mul_I]
    simp
  | rotation b g d =>
    refine ⟨_, p1 rfl rfl, p3 rfl rfl rfl ?_⟩
    refine m2_ext ?_ ?_ ?_ ?_ <;> simp only [gateOf, Fintype.sum_bool, mul_zero, zero_mul, add_zero, zero_add]
    · rw [show -(I / 2) * ((b : ℂ) + d) = -1 * I * (d : ℂ) / 2 + -1 * I * (b : ℂ) / 2 by ring, Complex.exp_add]; ring
    · rw [show I / 2 * ((b : ℂ) - d) = -1 * I * (d : ℂ) / 2 + I * (b : ℂ) / 2 by ring, Complex.exp_add]; ring
    · rw [show -(I / 2) * ((b : ℂ) - d) = I * (d : ℂ) / 2 + -1 * I * (b : ℂ) / 2 by ring, Complex.exp_add]; ring
    · rw [show I / 2 * ((b : ℂ) + d) = I * (d : ℂ) / 2 + I * (b : ℂ) / 2 by ring, Complex.exp_add]; ring

theorem phase_product {A B : List Base} (h : EqualPhase A B) :
    ∃ z G H, Product A G ∧ Product B H ∧ Complex.normSq z = 1 ∧ ∀ i j, H i j = z * G i j := by
  have hI := Complex.I_mul_I
  have p1 : ∀ {b : Base} {a : Arr2}, b.matrix = .ok a → Product [b] (gateOf a) := by
    rintro b a hb
    convert Product.cons hb .nil
    simp
  have p2 : ∀ {b b' : Base} {a a' : Arr2}, b.matrix = .ok a → b'.matrix = .ok a' → Product [b, b'] (fun i j => ∑ k, gateOf a' i k * gateOf a k j) :=
    fun hb hb' => Product.cons hb (p1 hb')
  have p3 : ∀ {b b' b'' : Base} {a a' a'' : Arr2}, b.matrix = .ok a → b'.matrix = .ok a' → b''.matrix = .ok a'' →
      Product [b, b', b''] (fun i j => ∑ k, (∑ l, gateOf a'' i l * gateOf a' l k) * gateOf a k j) :=
    fun hb hb' hb'' => Product.cons hb (p2 hb' hb'')
  have hh := half_sq
  have nexp : ∀ r : ℝ, Complex.normSq (exp (I * r)) = 1 := by
    intro r
    rw [Complex.normSq_eq_norm_sq, mul_comm, Complex.norm_exp_ofReal_mul_I]; norm_num
  cases h with
  | x =>
    refine ⟨I, _, _, p1 rfl, p1 rfl, by simp, fun i j => ?_⟩
    cases i <;> cases j <;> simp [gateOf]
  | y =>
    refine ⟨I, _, _, p1 rfl, p1 rfl, by simp, fun i j => ?_⟩
    cases i <;> cases j <;> simp [gateOf]
  | z =>
    have e1 : exp (-1 * I * (Real.pi : ℂ) / 2) = -I := by
      rw [show -1 * I * (Real.pi : ℂ) / 2 = -(Real.pi / 2 * I) by ring, Complex.exp_neg, Complex.exp_pi_div_two_mul_I]
      simp
    have e2 : exp (I * (Real.pi : ℂ) / 2) = I := by
      rw [show I * (Real.pi : ℂ) / 2 = Real.pi / 2 * I by ring, Complex.exp_pi_div_two_mul_I]
    refine ⟨I, _, _, p1 rfl, p1 rfl, by simp, fun i j => ?_⟩
    rw [e1, e2]
    cases i <;> cases j <;> simp [gateOf]
  | s =>
    refine ⟨exp (I * (Real.pi / 4 : ℝ)), _, _, p1 rfl, p1 rfl, nexp _, fun i j => ?_⟩
    cases i <;> cases j <;> simp only [gateOf, mul_zero, ← Complex.exp_add]
    · refine Complex.exp_zero.symm.trans ?_; congr 1; push_cast; ring
    · rw [show I * ((Real.pi / 4 : ℝ) : ℂ) + I * ((Real.pi / 2 : ℝ) : ℂ) / 2 = Real.pi / 2 * I by push_cast; ring, Complex.exp_pi_div_two_mul_I]
  | t =>
    refine ⟨exp (I * (Real.pi / 8 : ℝ)), _, _, p1 rfl, p1 rfl, nexp _, fun i j => ?_⟩
    cases i <;> cases j <;> simp only [gateOf, mul_zero, ← Complex.exp_add]
    · refine Complex.exp_zero.symm.trans ?_; congr 1; push_cast; ring
    · congr 1; push_cast; ring
  | x_y =>
    refine ⟨I, _, _, p2 rfl rfl, p1 rfl, by simp, fun i j => ?_⟩
    cases i <;> cases j <;> simp [gateOf]
  | y_x =>
    refine ⟨-I, _, _, p2 rfl rfl, p1 rfl, by simp, fun i j => ?_⟩
    cases i <;> cases j <;> simp [gateOf]
  | h_y_h =>
    refine ⟨-1, _, _, p3 rfl rfl rfl, p1 rfl, by simp, fun i j => ?_⟩
    generalize ((Real.sqrt 2 / 2 : ℝ) : ℂ) = f at *
    cases i <;> cases j <;> simp [gateOf]
    · linear_combination (2 * I) * hh
    · linear_combination (-2 * I) * hh
  | rx_turn a =>
    refine ⟨-1, _, _, p1 rfl, p1 rfl, by simp, fun i j => ?_⟩
    have e : (a + 2 * Real.pi) / 2 = a / 2 + Real.pi := by ring
    simp only [e, Real.cos_add_pi, Real.sin_add_pi]
    cases i <;> cases j <;> simp [gateOf]
  | ry_turn a =>
    refine ⟨-1, _, _, p1 rfl, p1 rfl, by simp, fun i j => ?_⟩
    have e : (a + 2 * Real.pi) / 2 = a / 2 + Real.pi := by ring
    simp only [e, Real.cos_add_pi, Real.sin_add_pi]
    cases i <;> cases j <;> simp [gateOf]
  | rz_turn a =>
    refine ⟨-1, _, _, p1 rfl, p1 rfl, by simp, fun i j => ?_⟩
    have e : I * ((a + 2 * Real.pi : ℝ) : ℂ) / 2 = I * (a : ℂ) / 2 + Real.pi * I := by push_cast; ring
    have e' : -1 * I * ((a + 2 * Real.pi : ℝ) : ℂ) / 2 = -1 * I * (a : ℂ) / 2 - Real.pi * I := by push_cast; ring
    rw [e, e', Complex.exp_add, Complex.exp_sub, Complex.exp_pi_mul_I]
    cases i <;> cases j <;> simp [gateOf, div_neg]

theorem undoes_product {b : Base} {bs : List Base} (h : Undoes b bs) : Product (b :: bs) (fun i j => if i = j then 1 else 0) := by
  have q2 : ∀ {b b' : Base} {a a' : Arr2}, b.matrix = .ok a → b'.matrix = .ok a' →
      (fun i j => ∑ k, (∑ l, (if i = l then (1 : ℂ) else 0) * gateOf a' l k) * gateOf a k j) = (fun i j => if i = j then (1 : ℂ) else 0) →
      Product [b, b'] (fun i j => if i = j then 1 else 0) := fun hb hb' h => h ▸ .cons hb (.cons hb' .nil)
  have hh := half_sq
  have he := exp_eighth
  cases h with
  | identity => exact q2 rfl rfl (m2_ext (by simp [gateOf]) (by simp [gateOf]) (by simp [gateOf]) (by simp [gateOf]))
  | x => exact q2 rfl rfl (m2_ext (by simp [gateOf]) (by simp [gateOf]) (by simp [gateOf]) (by simp [gateOf]))
  | y => exact q2 rfl rfl (m2_ext (by simp [gateOf]) (by simp [gateOf]) (by simp [gateOf]) (by simp [gateOf]))
  | z => exact q2 rfl rfl (m2_ext (by simp [gateOf]) (by simp [gateOf]) (by simp [gateOf]) (by simp [gateOf]))
  | hadamard =>
    refine q2 rfl rfl ?_
    generalize ((Real.sqrt 2 / 2 : ℝ) : ℂ) = f at *
    refine m2_ext ?_ ?_ ?_ ?_ <;> simp [gateOf] <;> linear_combination 2 * hh
  | s =>
    have := Product.cons (b := .s) rfl (.cons (b := .s) rfl (.cons (b := .z) rfl .nil))
    rwa [show (fun i j => _ : M2) = (fun i j => if i = j then (1 : ℂ) else 0) from m2_ext (by simp [gateOf]) (by simp [gateOf]) (by simp [gateOf]) (by simp [gateOf])] at this
  | t =>
    have := Product.cons (b := .t) rfl (.cons (b := .t) rfl (.cons (b := .s) rfl (.cons (b := .z) rfl .nil)))
    rwa [show (fun i j => _ : M2) = (fun i j => if i = j then (1 : ℂ) else 0) from m2_ext (by simp [gateOf]) (by simp [gateOf]) (by simp [gateOf]) (by
      simp [gateOf]; linear_combination (-I) * he - Complex.I_mul_I)] at this
  | rx a =>
    refine q2 rfl rfl ?_
    have h1 : Complex.cos (a / 2) * Complex.cos (a / 2) + Complex.sin (a / 2) * Complex.sin (a / 2) = 1 := by
      have := Complex.cos_sq_add_sin_sq (a / 2); linear_combination this
    refine m2_ext ?_ ?_ ?_ ?_ <;> simp [gateOf, neg_div]
    · linear_combination h1 - (Complex.sin (a / 2)) ^ 2 * Complex.I_mul_I
    · ring
    · ring
    · linear_combination h1 - (Complex.sin (a / 2)) ^ 2 * Complex.I_mul_I
  | ry a =>
    refine q2 rfl rfl ?_
    have h1 : Complex.cos (a / 2) * Complex.cos (a / 2) + Complex.sin (a / 2) * Complex.sin (a / 2) = 1 := by
      have := Complex.cos_sq_add_sin_sq (a / 2); linear_combination this
    refine m2_ext ?_ ?_ ?_ ?_ <;> simp [gateOf, neg_div]
    · linear_combination h1
    · ring
    · ring
    · linear_combination h1
  | rz a =>
    refine q2 rfl rfl ?_
    refine m2_ext ?_ ?_ ?_ ?_ <;> simp [gateOf, ← Complex.exp_add] <;> ring_nf <;> simp
  | rotation b g d =>
    refine q2 rfl rfl ?_
    have h1 : Complex.cos (g / 2) * Complex.cos (g / 2) + Complex.sin (g / 2) * Complex.sin (g / 2) = 1 := by
      have := Complex.cos_sq_add_sin_sq (g / 2); linear_combination this
    have e1 : exp (I / 2 * ((b : ℂ) + d)) * exp (-(I / 2) * ((b : ℂ) + d)) = 1 := by
      rw [← Complex.exp_add, ← Complex.exp_zero]; congr 1; ring
    have e2 : exp (I / 2 * ((b : ℂ) - d)) * exp (-(I / 2) * ((b : ℂ) - d)) = 1 := by
      rw [← Complex.exp_add, ← Complex.exp_zero]; congr 1; ring
    have a1 : -(I / 2) * (((-d : ℝ) : ℂ) + ((-b : ℝ) : ℂ)) = I / 2 * ((b : ℂ) + d) := by push_cast; ring
    have a2 : I / 2 * (((-d : ℝ) : ℂ) - ((-b : ℝ) : ℂ)) = I / 2 * ((b : ℂ) - d) := by push_cast; ring
    have a3 : -(I / 2) * (((-d : ℝ) : ℂ) - ((-b : ℝ) : ℂ)) = -(I / 2) * ((b : ℂ) - d) := by push_cast; ring
    have a4 : I / 2 * (((-d : ℝ) : ℂ) + ((-b : ℝ) : ℂ)) = -(I / 2) * ((b : ℂ) + d) := by push_cast; ring
    rw [a1, a2, a3, a4, neg_div, Real.cos_neg, Real.sin_neg, ofReal_neg]
    have hc : ((Real.cos (g / 2) : ℝ) : ℂ) = Complex.cos (g / 2) := by push_cast; rfl
    have hs : ((Real.sin (g / 2) : ℝ) : ℂ) = Complex.sin (g / 2) := by push_cast; rfl
    rw [hc, hs]
    generalize exp (I / 2 * ((b : ℂ) + d)) = p at *
    generalize exp (-(I / 2) * ((b : ℂ) + d)) = p' at *
    generalize exp (I / 2 * ((b : ℂ) - d)) = q at *
    generalize exp (-(I / 2) * ((b : ℂ) - d)) = q' at *
    generalize Complex.cos (g / 2) = co at *
    generalize Complex.sin (g / 2) = si at *
    refine m2_ext ?_ ?_ ?_ ?_ <;> simp [gateOf]
    · linear_combination h1 + co * co * e1 + si * si * e2
    · ring
    · ring
    · linear_combination h1 + co * co * e1 + si * si * e2

end DG
