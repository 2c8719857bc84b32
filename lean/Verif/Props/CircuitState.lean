import Verif.Proofs.CircuitState

/-!
# Property C34: the state of a circuit

Arrays are compared with vectors and matrices of Mathlib: `ofVec v` is the one-dimensional array with the entries of the vector `v`, `ofMat M` the
two-dimensional array with the entries of the matrix `M`. Norms are the Euclidean norm of vectors and the Frobenius norm of matrices.
-/

namespace DG.Props
open Spec StateSlot
open scoped ComplexOrder

/-- `set_state` may set a state: no state is set, or `force=True`. -/
def MaySet (s : StateSlot) (force : Bool) : Prop := force = true ∨ s.state = none ∧ s.dm = none

/-- C34 for state vectors: `set_state` of a circuit with `n ≥ 1` qubits accepts a vector of size `2 ^ n` if and only if its norm is 1 up to the tolerance;
afterwards it is the value of `circuit.state`. -/
theorem C34_vector {n : Nat} (hn : 1 ≤ n) (v : Fin (2 ^ n) → ℂ) (s : StateSlot) {force : Bool} (hs : MaySet s force) :
    (NearOne ‖WithLp.toLp 2 v‖ → ∃ s', s.setState n (ofVec v) force false = (.ok (), s') ∧ s'.getState = .ok (some (ofVec v))) ∧
    (¬ NearOne ‖WithLp.toLp 2 v‖ → s.setState n (ofVec v) force false = (.error .valueError, s)) := by
  rw [← isClose1_eq]
  rw [setState_eq n _ force s hs, ← norm_ofVec]
  obtain ⟨h1, h2⟩ := assertState_ok n (ofVec v)
  constructor
  · intro h
    rw [h1.2 ⟨hn, .inl rfl, h⟩]
    exact ⟨_, rfl, rfl⟩
  · intro h
    rcases h2 with h2 | h2
    · exact absurd (h1.1 h2).2.2 h
    · rw [h2]

/-- C34: everything that is accepted is a vector or a matrix of the right size and norm, and replaces the former state; everything else raises
`ValueError` and changes nothing; in particular everything is rejected by a circuit without qubits. -/
theorem C34_rejects (n : Nat) (a : NDArr) (s : StateSlot) {force : Bool} (hs : MaySet s force) :
    (1 ≤ n ∧ (∃ v : Fin (2 ^ n) → ℂ, a = ofVec v ∧ NearOne ‖WithLp.toLp 2 v‖) ∧ s.setState n a force false = (.ok (), ⟨some a, none⟩)) ∨
    (1 ≤ n ∧ (∃ M : Matrix (Fin (2 ^ n)) (Fin (2 ^ n)) ℂ, a = ofMat M ∧ NearOne (frobeniusNorm M)) ∧
      s.setState n a force false = (.ok (), ⟨none, some a⟩)) ∨
    s.setState n a force false = (.error .valueError, s) := by
  rw [← isClose1_eq]
  rw [setState_eq n _ force s hs]
  obtain ⟨h1, h2⟩ := assertState_ok n a
  rcases h2 with h2 | h2
  · obtain ⟨h3, h4 | h4, h5⟩ := h1.1 h2
    · obtain ⟨v, rfl⟩ := exists_ofVec a h4
      rw [norm_ofVec] at h5
      exact .inl ⟨h3, ⟨v, rfl, h5⟩, by rw [h2]; rfl⟩
    · obtain ⟨M, rfl⟩ := exists_ofMat a h4
      rw [norm_ofMat] at h5
      exact .inr (.inl ⟨h3, ⟨M, rfl, h5⟩, by rw [h2]; rfl⟩)
  · exact .inr (.inr (by rw [h2]))

/-- C34: without `force` a state is never overwritten. -/
theorem C34_no_overwrite (n : Nat) (a : NDArr) (s : StateSlot) (normalize : Bool) (h : s.state ≠ none ∨ s.dm ≠ none) :
    s.setState n a false normalize = (.error .circuitError, s) := by
  unfold setState
  rw [if_pos]
  rcases h with h | h
  · simp [Option.isSome_iff_ne_none.2 h]
  · simp [Option.isSome_iff_ne_none.2 h]

/-- C34: with `normalize`, a vector of the right size that is not zero is divided by its norm and accepted. -/
theorem C34_normalize {n : Nat} (hn : 1 ≤ n) (v : Fin (2 ^ n) → ℂ) (s : StateSlot) {force : Bool} (hs : MaySet s force) (hv : v ≠ 0) :
    ∃ s', s.setState n (ofVec v) force true = (.ok (), s') ∧ s'.getState = .ok (some (ofVec fun i => v i / (‖WithLp.toLp 2 v‖ : ℂ))) := by
  have h0 : (ofVec v).norm ≠ 0 := by
    rw [norm_ofVec, norm_ne_zero_iff]
    intro e
    apply hv
    have := congrArg WithLp.ofLp e
    simpa using this
  have e : (ofVec v).scale (ofVec v).norm = ofVec fun i => v i / (‖WithLp.toLp 2 v‖ : ℂ) := by
    rw [norm_ofVec]
    unfold NDArr.scale ofVec
    simp [List.map_ofFn, Function.comp_def]
  have h1 := norm_scale _ h0
  rw [e, norm_ofVec] at h1
  rw [setState_normalize, e]
  exact (C34_vector hn _ s hs).1 (by rw [h1]; exact isClose1_eq ▸ isClose1_one)

/-- The state `|0...0>`. -/
noncomputable def ground (n : Nat) : Fin (2 ^ n) → ℂ := fun i => if i = 0 then 1 else 0

/-- A pure state of norm 1 is accepted. -/
example (n : Nat) (hn : 1 ≤ n) : ∃ s', StateSlot.setState n (ofVec (ground n)) false false {} = (.ok (), s') := by
  obtain ⟨s', h, -⟩ := (C34_vector hn (ground n) {} (.inr ⟨rfl, rfl⟩)).1 (by
    have : ‖WithLp.toLp 2 (ground n)‖ = 1 := by
      rw [EuclideanSpace.norm_eq]
      have h : ∀ i, ‖ground n i‖ ^ 2 = if i = 0 then (1 : ℝ) else 0 := by
        intro i
        unfold ground
        split <;> simp
      simp [h]
    rw [this]; exact isClose1_eq ▸ isClose1_one)
  exact ⟨s', h⟩

/-- C34 for matrices: a matrix is accepted if and only if its Frobenius norm is 1 up to the tolerance. Missing: this is not the condition for a density
matrix, see below. -/
theorem C34_matrix_partial {n : Nat} (hn : 1 ≤ n) (M : Matrix (Fin (2 ^ n)) (Fin (2 ^ n)) ℂ) (s : StateSlot) {force : Bool} (hs : MaySet s force) :
    (NearOne (frobeniusNorm M) → ∃ s', s.setState n (ofMat M) force false = (.ok (), s') ∧ s'.getDm.1 = some (ofMat M) ∧
      s'.getState = .error .circuitError) ∧
    (¬ NearOne (frobeniusNorm M) → s.setState n (ofMat M) force false = (.error .valueError, s)) := by
  rw [← isClose1_eq]
  rw [setState_eq n _ force s hs, ← norm_ofMat]
  obtain ⟨h1, h2⟩ := assertState_ok n (ofMat M)
  constructor
  · intro h
    rw [h1.2 ⟨hn, .inr rfl, h⟩]
    exact ⟨_, rfl, rfl, rfl⟩
  · intro h
    rcases h2 with h2 | h2
    · exact absurd (h1.1 h2).2.2 h
    · rw [h2]

/-- The maximally mixed state of `n` qubits. -/
noncomputable def mixed (n : Nat) : Matrix (Fin (2 ^ n)) (Fin (2 ^ n)) ℂ := Matrix.diagonal fun _ => 1 / 2 ^ n

theorem mixed_density (n : Nat) : IsDensity (mixed n) := by
  refine ⟨Matrix.PosSemidef.diagonal fun i => ?_, ?_⟩
  · show (0 : ℂ) ≤ 1 / 2 ^ n
    have : (1 / 2 ^ n : ℂ) = ((1 / 2 ^ n : ℝ) : ℂ) := by push_cast; rfl
    rw [this]
    exact_mod_cast (by positivity : (0 : ℝ) ≤ 1 / 2 ^ n)
  · simp [mixed, Matrix.trace_diagonal]

/-- C34 is violated: the maximally mixed state is a density matrix, and is rejected, for every number of qubits. -/
theorem C34_mixed_violated {n : Nat} (hn : 1 ≤ n) (s : StateSlot) {force : Bool} (hs : MaySet s force) :
    IsDensity (mixed n) ∧ s.setState n (ofMat (mixed n)) force false = (.error .valueError, s) := by
  refine ⟨mixed_density n, (C34_matrix_partial hn _ s hs).2 (isClose1_eq ▸ not_isClose1 ?_)⟩
  rw [frobeniusNorm_eq, Real.sqrt_le_left (by norm_num)]
  have h : ∀ i j, ‖mixed n i j‖ ^ 2 = if j = i then (1 / 2 ^ n : ℝ) ^ 2 else 0 := by
    intro i j
    unfold mixed
    rw [Matrix.diagonal_apply]
    by_cases e : i = j
    · rw [if_pos e, if_pos e.symm]; simp
    · rw [if_neg e, if_neg (Ne.symm e)]; simp
  simp only [h, Finset.sum_ite_eq', Finset.mem_univ, if_true, Finset.sum_const, Finset.card_univ, Fintype.card_fin, nsmul_eq_mul]
  have h2 : (2 : ℝ) ≤ 2 ^ n := by
    calc (2 : ℝ) = 2 ^ 1 := by norm_num
      _ ≤ 2 ^ n := pow_le_pow_right₀ (by norm_num) hn
  have h3 : ((2 ^ n : ℕ) : ℝ) * (1 / 2 ^ n) ^ 2 = 1 / 2 ^ n := by
    push_cast
    field_simp
  rw [h3]
  calc (1 / 2 ^ n : ℝ) ≤ 1 / 2 := one_div_le_one_div_of_le (by norm_num) h2
    _ ≤ (9 / 10) ^ 2 := by norm_num

/-- The matrix with a single 1, outside of the diagonal. -/
noncomputable def corner (n : Nat) (hn : 1 ≤ n) : Matrix (Fin (2 ^ n)) (Fin (2 ^ n)) ℂ :=
  Matrix.single 0 ⟨1, Nat.one_lt_two_pow (by omega)⟩ 1

/-- C34 is violated: a matrix of trace 0 is accepted, for every number of qubits. -/
theorem C34_trace_violated {n : Nat} (hn : 1 ≤ n) (s : StateSlot) {force : Bool} (hs : MaySet s force) :
    (corner n hn).trace = 0 ∧ (s.setState n (ofMat (corner n hn)) force false).1 = .ok () := by
  constructor
  · unfold corner
    rw [Matrix.trace_single_eq_of_ne]
    simp
  · obtain ⟨s', h, -⟩ := (C34_matrix_partial hn (corner n hn) s hs).1 (by
      have : frobeniusNorm (corner n hn) = 1 := by
        have h : ∀ i j, ‖corner n hn i j‖ ^ 2 = if i = 0 then (if j = ⟨1, Nat.one_lt_two_pow (by omega)⟩ then (1 : ℝ) else 0) else 0 := by
          intro i j
          unfold corner
          rw [Matrix.single_apply]
          by_cases h1 : i = 0
          · by_cases h2 : j = ⟨1, Nat.one_lt_two_pow (by omega)⟩
            · simp [h1, h2]
            · simp [h1, h2, Ne.symm h2]
          · rw [if_neg h1, if_neg (fun h => h1 h.1.symm)]; simp
        rw [frobeniusNorm_eq]
        simp only [h]
        rw [Finset.sum_eq_single 0]
        · simp
        · intro b _ hb; simp [hb]
        · simp
      rw [this]; exact isClose1_eq ▸ isClose1_one)
    rw [h]

/-- C34: whatever is done with the state: if `circuit.state` is a vector `v`, then `circuit.density_matrix` is the matrix with entries `v i * v j`, and if
`circuit.state` is `None` so is `circuit.density_matrix`. If `v` is real, this is the density matrix of `v`. -/
theorem C34_agree_partial {n : Nat} (calls : List StateCall) {s : StateSlot} (h : s = runCalls n calls {}) :
    (s.getState = .ok none → s.getDm.1 = none) ∧
    ∀ a, s.getState = .ok (some a) → ∃ v : Fin (2 ^ n) → ℂ, a = ofVec v ∧ s.getDm.1 = some (ofMat (Matrix.vecMulVec v v)) ∧
      (star v = v → s.getDm.1 = some (ofMat (Matrix.vecMulVec v (star v)))) := by
  have hi : SlotInv n s := by rw [h]; exact slotInv_run calls (.inl rfl)
  rcases hi with hi | ⟨v, h1, h2⟩
  · unfold getState getDm
    rw [hi]
    constructor
    · intro h'
      cases hd : s.dm with
      | none => rfl
      | some m => rw [hd] at h'; simp at h'
    · intro a h'
      split at h' <;> cases h'
  · have hd : s.getDm.1 = some (ofMat (Matrix.vecMulVec v v)) := by
      unfold getDm
      rcases h2 with h2 | h2
      · rw [h1, h2]; show some (ofVec v).outer = _; rw [outer_ofVec]
      · rw [h1, h2]
    have hg : s.getState = .ok (some (ofVec v)) := by unfold getState; rw [h1]; simp
    rw [hg, hd]
    refine ⟨fun h => by simp at h, fun a ha => ⟨v, by simpa using ha.symm, rfl, fun e => by rw [e]⟩⟩

/-- C34 is violated: if a state vector has an entry that is not real, `circuit.density_matrix` is not its density matrix (an entry is not conjugated). -/
theorem C34_agree_violated {n : Nat} (hn : 1 ≤ n) {v : Fin (2 ^ n) → ℂ} (hv : ‖WithLp.toLp 2 v‖ = 1) {j : Fin (2 ^ n)} (hj : star (v j) ≠ v j) :
    ∃ s, StateSlot.setState n (ofVec v) false false {} = (.ok (), s) ∧ s.getState = .ok (some (ofVec v)) ∧
      s.getDm.1 ≠ some (ofMat (Matrix.vecMulVec v (star v))) := by
  refine ⟨⟨some (ofVec v), none⟩, ?_, rfl, ?_⟩
  · rw [setState_eq n _ false {} (.inr ⟨rfl, rfl⟩), (assertState_ok n (ofVec v)).1.2 ⟨hn, .inl rfl, by rw [norm_ofVec, hv]; exact isClose1_one⟩]
    rfl
  · show some (ofVec v).outer ≠ _
    rw [outer_ofVec]
    intro e
    have := congrFun (congrFun (ofMat_injective (Option.some.inj e)) j) j
    simp only [Matrix.vecMulVec_apply, Pi.star_apply] at this
    have h0 : v j ≠ 0 := by intro h; rw [h] at hj; simp at hj
    exact hj (mul_left_cancel₀ h0 this).symm

/-- The state `(0, i)` of a qubit. -/
example : ‖WithLp.toLp 2 (![0, Complex.I] : Fin (2 ^ 1) → ℂ)‖ = 1 ∧ star ((![0, Complex.I] : Fin (2 ^ 1) → ℂ) 1) ≠ (![0, Complex.I] : Fin (2 ^ 1) → ℂ) 1 := by
  constructor
  · rw [EuclideanSpace.norm_eq]
    show Real.sqrt (∑ i : Fin 2, ‖(![0, Complex.I] : Fin 2 → ℂ) i‖ ^ 2) = 1
    simp
  · intro h
    have := congrArg Complex.im h
    simp at this
    norm_num at this

end DG.Props
