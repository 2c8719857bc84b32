import Verif.Proofs.UnitaryMore
import Verif.Model.Arity
import Mathlib.Analysis.Normed.Algebra.MatrixExponential
import Mathlib.Analysis.SpecialFunctions.Exponential

/-!
# Lemmas for the properties of unitaries
-/

namespace DG.Unitary
open Complex Spec Kernel DG.Sim

theorem classMatrix_of {b : Base} {a : Arr2} (hb : ¬ Parametric b) (ha : b.matrix = .ok a) : classMatrix b = .ok (some a) := by
  cases b <;> first
    | exact absurd trivial hb
    | (cases ha; rfl)

/-- One operation of `build_unitary`. -/
theorem applyOp_acts {c : UCircuit} (hnd : c.qubits.Nodup) {op : UOp} {f g : State c.qubits.length ℂ → State c.qubits.length ℂ}
    (h : Means c op f) {S : NMat} (hS : ActsAs c.qubits.length S g) :
    ∃ M, applyOp c.qubits S op = .ok M ∧ ActsAs c.qubits.length M (f ∘ g) := by
  cases h with
  | @single b a t hk ha hq =>
    obtain ⟨M, h1, h2⟩ := applySingle_acts op b a hk ha c.qubits hnd rfl t c.qubits[t] (List.getElem?_eq_getElem _) hq hS
    refine ⟨M, ?_, h2⟩
    unfold applyOp
    rw [hk]
    exact h1
  | @controlled nc b a cs t hk hb ha hcs ht hc htt =>
    obtain ⟨M, h1, h2⟩ := applyControlledGate_acts op b a (classMatrix_of hb ha) c.qubits hnd cs t hcs ht hc htt hS
    refine ⟨M, ?_, h2⟩
    unfold applyOp
    rw [hk]
    exact h1

theorem build_loop {c : UCircuit} (hnd : c.qubits.Nodup) : ∀ (ops : List UOp) (f : _), Composed c ops f → ∀ (S : NMat) (g : _),
    ActsAs c.qubits.length S g → ∃ M, ops.foldlM (applyOp c.qubits) S = .ok M ∧ ActsAs c.qubits.length M (f ∘ g) := by
  intro ops
  induction ops with
  | nil =>
    intro f h S g hS
    cases h
    exact ⟨S, rfl, hS⟩
  | cons op ops ih =>
    intro f h S g hS
    cases h with
    | @cons _ _ f1 g1 hm hr =>
      obtain ⟨M, h1, h2⟩ := applyOp_acts hnd hm hS
      obtain ⟨M', h3, h4⟩ := ih _ hr M _ h2
      refine ⟨M', ?_, h4⟩
      rw [List.foldlM_cons, h1]
      exact h3

theorem buildUnitary_acts {c : UCircuit} (hnd : c.qubits.Nodup) {f : _} (h : Composed c c.ops f) :
    ∃ M, buildUnitary c = .ok M ∧ ActsAs c.qubits.length M f := by
  obtain ⟨M, h1, h2⟩ := build_loop hnd c.ops f h _ id eye_acts
  exact ⟨M, h1, h2⟩

/-- The unitary matrices of the operations. -/
def UnitaryOp (op : UOp) : Prop :=
  match op.kind with
  | .single b => ∃ a, b.matrix = .ok a ∧ Cols a
  | .controlled _ b => ∃ a, b.matrix = .ok a ∧ Cols a
  | _ => False

theorem means_norm {c : UCircuit} {op : UOp} {f : State c.qubits.length ℂ → State c.qubits.length ℂ} (h : Means c op f) (hu : UnitaryOp op)
    (ψ : State c.qubits.length ℂ) : Spec.normSq (f ψ) = Spec.normSq ψ := by
  cases h with
  | @single b a t hk ha hq =>
    unfold UnitaryOp at hu
    rw [hk] at hu
    obtain ⟨a', ha', hc⟩ := hu
    rw [ha] at ha'; cases ha'
    rw [← applyControlled_nil']
    exact applyControlled_norm hc [] t (by simp) ψ
  | @controlled nc b a cs t hk hb ha hcs ht hc htt =>
    unfold UnitaryOp at hu
    rw [hk] at hu
    obtain ⟨a', ha', hc⟩ := hu
    rw [ha] at ha'; cases ha'
    exact applyControlled_norm hc cs t ht ψ

theorem composed_norm {c : UCircuit} : ∀ {ops : List UOp} {f : _}, Composed c ops f → (∀ op ∈ ops, UnitaryOp op) →
    ∀ ψ, Spec.normSq (f ψ) = Spec.normSq ψ := by
  intro ops f h
  induction h with
  | nil => intro _ ψ; rfl
  | cons hm _ ih =>
    intro hu ψ
    rw [Function.comp_apply, ih (fun o ho => hu o (List.mem_cons_of_mem _ ho)), means_norm hm (hu _ (List.mem_cons_self ..))]

/-! ## The simulator -/

/-- Operations for which both the simulator and `build_unitary` are defined. -/
def Common (c : UCircuit) (op : UOp) : Prop :=
  GateOp c.sim op.toSOp ∧ op.cond = none ∧
    ((∃ b, op.kind = .single b) ∨
     ∃ b p q, op.kind = .controlled 1 b ∧ ¬ Parametric b ∧ op.control = [p] ∧ op.target = [q] ∧ op.qubits = [p, q])

theorem common_step {c : UCircuit} {op : UOp} (h : Common c op) (u : Nat → ℝ) :
    ∃ f, Means c op f ∧ ∀ s : SimState c.qubits.length, Step c.sim u op.toSOp s { s with ψ := f s.ψ } := by
  obtain ⟨hg, hc, hk⟩ := h
  obtain ⟨ts, f, hts, hf⟩ := gateAct_exists hg
  have nb : ∀ s : SimState c.qubits.length, ¬ Blocked op.toSOp s.bits := by
    rintro s ⟨bs, b, h1, _⟩
    have : op.cond = some bs := h1
    rw [hc] at this
    exact absurd this (by simp)
  refine ⟨f, ?_, fun s => Step.gate (nb s) hts hf⟩
  rcases hk with ⟨b, hk⟩ | ⟨b, p, q, hk, hb, h1, h2, h3⟩
  · rw [hk] at hf
    cases hf with
    | single t ha => exact .single t hk ha (by rw [hts]; rfl)
  · rw [hk] at hf
    cases hf with
    | controlled1 i t ha hit =>
      have hq : op.qubits = [c.qubits[i], c.qubits[t]] := hts
      rw [h3] at hq
      injection hq with e1 e2
      injection e2 with e2 _
      have hm : t ∉ [i] := fun h => hit (List.mem_singleton.1 h).symm
      refine Means.controlled (c := c) [i] t hk hb ha (List.nodup_singleton _) hm ?_ ?_
      · rw [h1, e1]; rfl
      · rw [h2, e2]; rfl

theorem common_exec {c : UCircuit} (u : Nat → ℝ) : ∀ (ops : List UOp), (∀ op ∈ ops, Common c op) →
    ∃ f, Composed c ops f ∧ ∀ s : SimState c.qubits.length, Exec c.sim u (ops.map (·.toSOp)) s { s with ψ := f s.ψ } := by
  intro ops
  induction ops with
  | nil => intro _; exact ⟨id, .nil, fun s => .nil⟩
  | cons op ops ih =>
    intro h
    obtain ⟨f, h1, h2⟩ := common_step (h op (List.mem_cons_self ..)) u
    obtain ⟨g, h3, h4⟩ := ih (fun o ho => h o (List.mem_cons_of_mem _ ho))
    exact ⟨g ∘ f, .cons h1 h3, fun s => .cons (h2 s) (h4 _)⟩

theorem index_zero {n : Nat} : index false (fun _ : Fin n => false) = 0 := by
  apply Nat.eq_of_testBit_eq
  intro i
  unfold index
  by_cases hi : i < n
  · rw [Nat.testBit_ofBits_lt _ _ hi]; simp
  · rw [Nat.testBit_ofBits_ge _ _ (by omega)]; simp

theorem acts_first_column {n : Nat} {M : NMat} {f : State n ℂ → State n ℂ} (h : ActsAs n M f) (x : Basis n) :
    f (zeroState n) x = M.e (index false x) 0 := by
  rw [h.2]
  simp only [zeroState, mul_ite, mul_one, mul_zero, Finset.sum_ite_eq', Finset.mem_univ, if_true]
  rw [index_zero]

/-! ## Parameters -/

/-- `popParams` on parameters whose variables are at the front of the list of values. -/
theorem popParams_ok (σ : Nat → ℝ) : ∀ (ps : List Param) (rest : List ℝ),
    popParams ps ((paramVars ps).map σ ++ rest) = .ok (ps.map (substParam σ), rest) := by
  intro ps
  induction ps with
  | nil => intro rest; rfl
  | cons p ps ih =>
    intro rest
    cases p with
    | num x =>
      have : paramVars (.num x :: ps) = paramVars ps := rfl
      rw [this, popParams, ih, ok_bind]; rfl
    | var v =>
      have : paramVars (.var v :: ps) = v :: paramVars ps := rfl
      rw [this, List.map_cons, List.cons_append, popParams, ih, ok_bind]; rfl

theorem setParams_subst (σ : Nat → ℝ) (b : Base) : setParams b ((params b).map (substParam σ)) = substBase σ b := by
  cases b <;> rfl

theorem baseVars_eq (b : Base) : baseVars b = paramVars (params b) := by
  cases b <;> rfl

theorem popOps_ok (σ : Nat → ℝ) : ∀ (ops : List UOp) (rest : List ℝ),
    popOps ops ((ops.flatMap opVars).map σ ++ rest) = .ok (ops.map (substOp σ), rest) := by
  intro ops
  induction ops with
  | nil => intro rest; rfl
  | cons op ops ih =>
    intro rest
    rw [List.flatMap_cons, List.map_append, List.append_assoc]
    unfold popOps
    cases hk : op.kind with
    | single b =>
      have hv : opVars op = paramVars (params b) := by unfold opVars; rw [hk]; exact baseVars_eq b
      rw [hv]
      dsimp only
      rw [popParams_ok, ok_bind]
      dsimp only
      rw [setParams_subst, pure_ok, ok_bind]
      dsimp only
      rw [ih, ok_bind]
      have : substOp σ op = { op with kind := .single (substBase σ b) } := by unfold substOp; rw [hk]
      rw [List.map_cons, this]; rfl
    | controlled nc b =>
      have hv : opVars op = paramVars (params b) := by unfold opVars; rw [hk]; exact baseVars_eq b
      rw [hv]
      dsimp only
      rw [popParams_ok, ok_bind]
      dsimp only
      rw [setParams_subst, pure_ok, ok_bind]
      dsimp only
      rw [ih, ok_bind]
      have : substOp σ op = { op with kind := .controlled nc (substBase σ b) } := by unfold substOp; rw [hk]
      rw [List.map_cons, this]; rfl
    | _ =>
      have hv : opVars op = [] := by unfold opVars; rw [hk]
      rw [hv, List.map_nil, List.nil_append]
      dsimp only
      rw [pure_ok, ok_bind]
      dsimp only
      rw [ih, ok_bind]
      have : substOp σ op = op := by obtain ⟨⟨_, _, _, _, _⟩, _, _⟩ := op; cases hk; rfl
      rw [List.map_cons, this]; rfl

/-! ## Exponentials -/

theorem exp_diag (z : ℂ) : NormedSpace.exp (z • pauliZ) = !![exp z, 0; 0, exp (-z)] := by
  have h : z • pauliZ = Matrix.diagonal ![z, -z] := by
    ext i j; fin_cases i <;> fin_cases j <;> simp [pauliZ]
  rw [h, Matrix.exp_diagonal]
  ext i j
  fin_cases i <;> fin_cases j <;> simp [Matrix.diagonal, Complex.exp_eq_exp_ℂ]

theorem exp_conj_pauli (z : ℂ) (U V P : Matrix (Fin 2) (Fin 2) ℂ) (h1 : U * V = 1) (h2 : V * U = 1) (hP : P = U * pauliZ * V) :
    NormedSpace.exp (z • P) = U * !![exp z, 0; 0, exp (-z)] * V := by
  let W : (Matrix (Fin 2) (Fin 2) ℂ)ˣ := ⟨U, V, h1, h2⟩
  have := Matrix.exp_units_conj W (z • pauliZ)
  rw [exp_diag] at this
  have e : z • P = (W : Matrix (Fin 2) (Fin 2) ℂ) * (z • pauliZ) * (W⁻¹ : (Matrix (Fin 2) (Fin 2) ℂ)ˣ) := by
    rw [hP, Matrix.mul_smul, Matrix.smul_mul]; rfl
  rw [e, this]; rfl

theorem exp_half (θ : ℝ) : exp (-(I * θ / 2)) = ((Real.cos (θ / 2) : ℝ) : ℂ) - I * ((Real.sin (θ / 2) : ℝ) : ℂ) ∧
    exp (I * θ / 2) = ((Real.cos (θ / 2) : ℝ) : ℂ) + I * ((Real.sin (θ / 2) : ℝ) : ℂ) := by
  have h : I * θ / 2 = ((θ / 2 : ℝ) : ℂ) * I := by push_cast; ring
  have h' : -(I * θ / 2) = ((-(θ / 2) : ℝ) : ℂ) * I := by push_cast; ring
  rw [h', h, exp_mul_I, exp_mul_I]
  constructor
  · rw [← ofReal_cos, ← ofReal_sin, Real.cos_neg, Real.sin_neg]; push_cast; ring
  · rw [← ofReal_cos, ← ofReal_sin]; ring

theorem exp_pauliX (θ : ℝ) : NormedSpace.exp ((-(I * θ / 2)) • pauliX) =
    !![((Real.cos (θ / 2) : ℝ) : ℂ), -I * ((Real.sin (θ / 2) : ℝ) : ℂ); -I * ((Real.sin (θ / 2) : ℝ) : ℂ), ((Real.cos (θ / 2) : ℝ) : ℂ)] := by
  rw [exp_conj_pauli _ !![1, 1; 1, -1] !![1/2, 1/2; 1/2, -1/2] pauliX, neg_neg, (exp_half θ).1, (exp_half θ).2]
  · ext i j
    fin_cases i <;> fin_cases j <;> simp [Matrix.mul_apply] <;> ring
  · ext i j
    fin_cases i <;> fin_cases j <;> simp [Matrix.mul_apply] <;> norm_num
  · ext i j
    fin_cases i <;> fin_cases j <;> simp [Matrix.mul_apply] <;> norm_num
  · ext i j
    fin_cases i <;> fin_cases j <;> simp [Matrix.mul_apply, pauliX, pauliZ] <;> norm_num

theorem exp_pauliY (θ : ℝ) : NormedSpace.exp ((-(I * θ / 2)) • pauliY) =
    !![((Real.cos (θ / 2) : ℝ) : ℂ), -((Real.sin (θ / 2) : ℝ) : ℂ); ((Real.sin (θ / 2) : ℝ) : ℂ), ((Real.cos (θ / 2) : ℝ) : ℂ)] := by
  have hI := I_mul_I
  rw [exp_conj_pauli _ !![1, 1; I, -I] !![1/2, -I/2; 1/2, I/2] pauliY, neg_neg, (exp_half θ).1, (exp_half θ).2]
  · ext i j
    fin_cases i <;> fin_cases j <;> simp [Matrix.mul_apply] <;> ring_nf <;> simp <;> ring
  · ext i j
    fin_cases i <;> fin_cases j <;> simp [Matrix.mul_apply] <;> ring_nf <;> simp <;> norm_num
  · ext i j
    fin_cases i <;> fin_cases j <;> simp [Matrix.mul_apply] <;> ring_nf <;> simp <;> norm_num
  · ext i j
    fin_cases i <;> fin_cases j <;> simp [Matrix.mul_apply, pauliY, pauliZ] <;> ring_nf <;> simp <;> norm_num

theorem exp_pauliZ (θ : ℝ) : NormedSpace.exp ((-(I * θ / 2)) • pauliZ) =
    !![exp (-1 * I * (θ : ℂ) / 2), 0; 0, exp (I * (θ : ℂ) / 2)] := by
  rw [exp_diag, neg_neg]
  congr 2
  ring_nf

end DG.Unitary
