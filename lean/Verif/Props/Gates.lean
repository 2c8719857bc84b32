import Verif.Proofs.GateAct

/-!
# Properties of the gate matrices: C58, C59

`Base.matrix` is the `matrix` property of a single-qubit operation; `matOf` reads the array as a mathematical matrix.
`Spec/Gates.lean` defines what an operation means as a map on states (`GateAct`) and what a sequence of operations means
(`Runs`).
-/

namespace DG.Props
open Complex Spec

/-- A table of a multi-qubit operation as a matrix. -/
noncomputable def tableMat (t : List (List Nat)) (d : Nat) : Matrix (Fin d) (Fin d) ℂ := fun i j => tableEntry t i j

/-- **C58.** The matrix of every single-qubit library operation exists for all real parameters, is unitary, and is a
C-ordered complex array. -/
theorem C58_single_unitary (b : Base) (h : Library b) :
    ∃ a, b.matrix = .ok a ∧ matOf a ∈ Matrix.unitaryGroup (Fin 2) ℂ ∧ a.cOrder = true ∧ a.complexType = true := by
  obtain ⟨a, h1, h2, h3, h4⟩ := library_cols h
  exact ⟨a, h1, (unitary_iff_cols a).2 h4, h2, h3⟩

/-- A table of natural numbers with orthonormal columns is unitary. -/
theorem table_unitary (t : List (List Nat)) (d : Nat) (N : Fin d → Fin d → Nat)
    (hN : ∀ i j : Fin d, tableEntry t i j = (N i j : ℂ))
    (h : ∀ i j : Fin d, ∑ k : Fin d, N k i * N k j = if i = j then 1 else 0) :
    tableMat t d ∈ Matrix.unitaryGroup (Fin d) ℂ := by
  rw [Matrix.mem_unitaryGroup_iff']
  ext i j
  rw [Matrix.mul_apply, Matrix.one_apply]
  have : ∀ k, star (tableMat t d) i k * tableMat t d k j = ((N k i * N k j : Nat) : ℂ) := by
    intro k
    simp only [Matrix.star_apply, tableMat, hN]
    simp
  simp_rw [this]
  rw [← Nat.cast_sum, h i j]
  split <;> simp

/-- Entries of a table that has all its rows and columns. -/
theorem tableEntry_get (t : List (List Nat)) (d : Nat) (hd : t.length = d) (hr : ∀ r ∈ t, r.length = d) (i j : Fin d) :
    tableEntry t i j = ((((t[i.val]'(by omega))[j.val]'(by rw [hr _ (List.getElem_mem _)]; exact j.isLt)) : Nat) : ℂ) := by
  have h1 : t[i.val]? = some (t[i.val]'(by omega)) := List.getElem?_eq_getElem _
  have h2 : (t[i.val]'(by omega))[j.val]? = some ((t[i.val]'(by omega))[j.val]'(by rw [hr _ (List.getElem_mem _)]; exact j.isLt)) :=
    List.getElem?_eq_getElem _
  simp only [tableEntry, h1, h2]

/-- **C58.** SWAP, CSWAP and CCX. -/
theorem C58_swap_unitary : tableMat swapTable 4 ∈ Matrix.unitaryGroup (Fin 4) ℂ :=
  table_unitary _ _ _ (tableEntry_get swapTable 4 rfl (by decide)) (by decide +kernel)
theorem C58_cswap_unitary : tableMat cswapTable 8 ∈ Matrix.unitaryGroup (Fin 8) ℂ :=
  table_unitary _ _ _ (tableEntry_get cswapTable 8 rfl (by decide)) (by decide +kernel)
theorem C58_ccx_unitary : tableMat ccxTable 8 ∈ Matrix.unitaryGroup (Fin 8) ℂ :=
  table_unitary _ _ _ (tableEntry_get ccxTable 8 rfl (by decide)) (by decide +kernel)

/-- A Hadamard is not the identity, a rotation about a real angle is covered. -/
example : ∃ a, Base.hadamard.matrix = .ok a ∧ matOf a ∈ Matrix.unitaryGroup (Fin 2) ℂ := by
  obtain ⟨a, h1, h2, _⟩ := C58_single_unitary .hadamard trivial
  exact ⟨a, h1, h2⟩
example : Library (.rotation (.num 1) (.num (-2)) (.num 3)) := ⟨trivial, trivial, trivial⟩
/-- A `Variable` in place of a number gives no matrix. -/
theorem C58_variable_no_matrix (v : Nat) : (Base.rx (.var v)).matrix = .error .typeError := rfl

/-! ## C59 -/

section
variable {n : Nat}

/-- **C59.** `Z.decomposition` (Hadamard, X, Hadamard) is equivalent to `Z`, on every qubit of a system of any size. -/
theorem C59_z (t : Fin n) : ∃ f, GateAct (.single .z) [t] f ∧ Runs (zDecomposition t) f := by
  obtain ⟨hh, h1, _, _, _⟩ := library_cols (b := .hadamard) trivial
  obtain ⟨xx, h2, _, _, _⟩ := library_cols (b := .x) trivial
  obtain ⟨zz, h3, _, _, _⟩ := library_cols (b := .z) trivial
  refine ⟨applyGate t (gateOf zz), .single t h3, ?_⟩
  have hr : Runs (zDecomposition t) (((id ∘ applyGate t (gateOf hh)) ∘ applyGate t (gateOf xx)) ∘ applyGate t (gateOf hh)) :=
    .cons (.single t h1) (.cons (.single t h2) (.cons (.single t h1) .nil))
  have he : ((id ∘ applyGate t (gateOf hh)) ∘ applyGate t (gateOf xx)) ∘ applyGate t (gateOf hh) =
      applyGate t (gateOf zz) := by
    funext ψ
    show applyGate t (gateOf hh) (applyGate t (gateOf xx) (applyGate t (gateOf hh) ψ)) = _
    cases h1; cases h2; cases h3
    have hs : ((Real.sqrt 2 / 2 : ℝ) : ℂ) * ((Real.sqrt 2 / 2 : ℝ) : ℂ) = 1 / 2 := by
      rw [← ofReal_mul]
      have : (Real.sqrt 2 / 2) * (Real.sqrt 2 / 2) = 1 / 2 := by
        have := Real.mul_self_sqrt (show (0 : ℝ) ≤ 2 by norm_num)
        nlinarith
      rw [this]; simp
    generalize ((Real.sqrt 2 / 2 : ℝ) : ℂ) = f at *
    rw [applyGate_comp t (gateOf ⟨0, 1, 1, 0, true, true⟩), applyGate_comp]
    congr 1
    funext i j
    cases i <;> cases j <;> simp only [Fintype.sum_bool, gateOf] <;> ring_nf
    · linear_combination (2 : ℂ) * hs
    · linear_combination (-2 : ℂ) * hs
  rw [he] at hr
  exact hr

/-- **C59.** Rotation(β, γ, δ) is RZ(β), then RY(γ), then RZ(δ), as `decomposition` and the QASM definition say. -/
theorem C59_rotation (β γ δ : ℝ) (t : Fin n) :
    ∃ f, GateAct (.single (.rotation (.num β) (.num γ) (.num δ))) [t] f ∧
      Runs (rotDecl (.num β) (.num γ) (.num δ) t) f := by
  refine ⟨_, .single t rfl, ?_⟩
  have hr : Runs (rotDecl (.num β) (.num γ) (.num δ) t) _ :=
    .cons (.single t rfl) (.cons (.single t rfl) (.cons (.single t rfl) .nil))
  convert hr using 1
  funext ψ
  simp only [Function.comp_apply, id]
  rw [applyGate_comp t, applyGate_comp]
  congr 1
  have e1 : exp (-(I / 2) * ((β : ℂ) + (δ : ℂ))) = exp (-1 * I * (δ : ℂ) / 2) * exp (-1 * I * (β : ℂ) / 2) := by
    rw [← exp_add]; congr 1; ring
  have e2 : exp (I / 2 * ((β : ℂ) - (δ : ℂ))) = exp (-1 * I * (δ : ℂ) / 2) * exp (I * (β : ℂ) / 2) := by
    rw [← exp_add]; congr 1; ring
  have e3 : exp (-(I / 2) * ((β : ℂ) - (δ : ℂ))) = exp (I * (δ : ℂ) / 2) * exp (-1 * I * (β : ℂ) / 2) := by
    rw [← exp_add]; congr 1; ring
  have e4 : exp (I / 2 * ((β : ℂ) + (δ : ℂ))) = exp (I * (δ : ℂ) / 2) * exp (I * (β : ℂ) / 2) := by
    rw [← exp_add]; congr 1; ring
  funext i j
  cases i <;> cases j <;> simp only [Fintype.sum_bool, gateOf, e1, e2, e3, e4] <;> ring

/-- **C59.** The QASM definition of swap (three CX) is SWAP. -/
theorem C59_swap (a b : Fin n) (hab : a ≠ b) : ∃ f, GateAct .swap [a, b] f ∧ Runs (swapDecl a b) f := by
  obtain ⟨xx, hx, _⟩ := cols_x
  refine ⟨_, .swap a b hab, ?_⟩
  have hr : Runs (swapDecl a b) _ :=
    .cons (.controlled1 b a hx (Ne.symm hab)) (.cons (.controlled1 a b hx hab) (.cons (.controlled1 b a hx (Ne.symm hab)) .nil))
  convert hr using 1
  funext ψ x
  simp only [Function.comp_apply, id, applySwap, applyControlled, List.mem_singleton, forall_eq,
    applyGate_x _ _ xx hx]
  have hba := Ne.symm hab
  have key : ∀ y : Basis n, (∀ i, i ≠ a → i ≠ b → y i = x i) → y a = x b → y b = x a → x ∘ Equiv.swap a b = y := by
    intro y h1 h2 h3
    funext i
    by_cases hia : i = a
    · subst hia; simp [h2]
    · by_cases hib : i = b
      · subst hib; simp [h3]
      · simp [Equiv.swap_apply_of_ne_of_ne hia hib, h1 i hia hib]
  cases hxa : x a <;> cases hxb : x b <;> simp [hxa, hxb, hab, hba] <;>
    refine congrArg ψ (key _ ?_ ?_ ?_) <;> (try intro i hi hj) <;> simp [*]

/-- **C59.** The QASM definition of cswap (CX, CCX, CX) is CSWAP. -/
theorem C59_cswap (c a b : Fin n) (hca : c ≠ a) (hcb : c ≠ b) (hab : a ≠ b) :
    ∃ f, GateAct .cswap [c, a, b] f ∧ Runs (cswapDecl c a b) f := by
  obtain ⟨xx, hx, _⟩ := cols_x
  refine ⟨_, .cswap c a b hca hcb hab, ?_⟩
  have hr : Runs (cswapDecl c a b) _ :=
    .cons (.controlled1 b a hx (Ne.symm hab)) (.cons (.ccx c a b hca hcb hab) (.cons (.controlled1 b a hx (Ne.symm hab)) .nil))
  convert hr using 1
  funext ψ x
  simp only [Function.comp_apply, id, applyCSwap, applySwap, applyControlled, List.mem_singleton, forall_eq,
    applyGate_x _ _ xx hx]
  have hba := Ne.symm hab
  have hac := Ne.symm hca
  have hbc := Ne.symm hcb
  have key : ∀ y : Basis n, (∀ i, i ≠ a → i ≠ b → y i = x i) → y a = x b → y b = x a → x ∘ Equiv.swap a b = y := by
    intro y h1 h2 h3
    funext i
    by_cases hia : i = a
    · subst hia; simp [h2]
    · by_cases hib : i = b
      · subst hib; simp [h3]
      · simp [Equiv.swap_apply_of_ne_of_ne hia hib, h1 i hia hib]
  have key' : ∀ y : Basis n, (∀ i, i ≠ a → i ≠ b → y i = x i) → y a = x a → y b = x b → x = y := by
    intro y h1 h2 h3
    funext i
    by_cases hia : i = a
    · subst hia; simp [h2]
    · by_cases hib : i = b
      · subst hib; simp [h3]
      · simp [h1 i hia hib]
  cases hxc : x c <;> cases hxa : x a <;> cases hxb : x b <;>
    simp [hxa, hxb, hxc, hab, hba, hac, hbc, hca, hcb] <;>
    first
    | (refine congrArg ψ (key _ ?_ ?_ ?_) <;> (try intro i hi hj) <;> simp [*]; done)
    | (refine congrArg ψ (key' _ ?_ ?_ ?_) <;> (try intro i hi hj) <;> simp [*]; done)

end

example : ∃ f, GateAct (n := 3) .cswap [2, 0, 1] f ∧ Runs (cswapDecl 2 0 1) f :=
  C59_cswap 2 0 1 (by decide) (by decide) (by decide)

end DG.Props
