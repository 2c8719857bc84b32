import Verif.Proofs.Rounding

/-! # Rounding errors of gates and circuits -/

noncomputable section

namespace DG.Sim
open Complex Spec Kernel Props

variable {n : Nat} {A : Arith} {ε η δ : ℝ}

/-- The bounds on the parameters. -/
structure Small (ε η δ : ℝ) : Prop where
  ε0 : 0 ≤ ε
  ε1 : ε ≤ 1 / 8
  η0 : 0 ≤ η
  η1 : η ≤ 1
  δ0 : 0 ≤ δ
  δ1 : δ ≤ 1 / 8

theorem nrm_norm (ψ : State n ℂ) : nrm (fun x => ((‖ψ x‖ : ℝ) : ℂ)) = nrm ψ :=
  le_antisymm (nrm_mono fun x => by simp) (nrm_mono fun x => by simp)

/-- The error of one gate. -/
theorem gateBy_error (hA : Accurate A ε η) (hp : Small ε η δ) (cs : List (Fin n)) (t : Fin n) {G G' : Bool → Bool → ℂ} (hG : ∀ i j, ‖G i j‖ ≤ 1)
    (hG' : ∀ i j, ‖G' i j - G i j‖ ≤ δ) (ψ : State n ℂ) (hψ : nrm ψ ≤ 2) :
    nrm (fun x => gateBy A cs t G' ψ x - applyControlled cs t G ψ x) ≤ (6 * ε + 2 * δ) * nrm ψ + 4 * η * Real.sqrt (2 ^ n) := by
  set κ : ℝ := 3 * ε + δ with hκ
  have hκ0 : 0 ≤ κ := by have := hp.ε0; have := hp.δ0; positivity
  have hη0 := hp.η0
  have hpt : ∀ x, ‖gateBy A cs t G' ψ x - applyControlled cs t G ψ x‖ ≤
      ‖((κ : ℝ) : ℂ) * ((‖ψ x‖ : ℝ) : ℂ) + (((κ : ℝ) : ℂ) * ((‖ψ (flipAt t x)‖ : ℝ) : ℂ) + ((4 * η : ℝ) : ℂ))‖ := by
    intro x
    have hr : ‖((κ : ℝ) : ℂ) * ((‖ψ x‖ : ℝ) : ℂ) + (((κ : ℝ) : ℂ) * ((‖ψ (flipAt t x)‖ : ℝ) : ℂ) + ((4 * η : ℝ) : ℂ))‖ =
        κ * ‖ψ x‖ + (κ * ‖ψ (flipAt t x)‖ + 4 * η) := by
      rw [← Complex.ofReal_mul, ← Complex.ofReal_mul, ← Complex.ofReal_add, ← Complex.ofReal_add]
      exact Complex.norm_of_nonneg (by positivity)
    rw [hr]
    unfold gateBy applyControlled
    by_cases hx : ∀ c ∈ cs, x c = true
    · rw [if_pos hx, if_pos hx]
      unfold applyGate
      rw [Fintype.sum_bool, add_comm (G (x t) true * _)]
      refine (amp_error hA hp.ε0 hp.ε1 hp.η0 hp.η1 hp.δ0 hp.δ1 (hG _ _) (hG _ _) (hG' _ _) (hG' _ _)
        ((norm_le_nrm ψ _).trans hψ) ((norm_le_nrm ψ _).trans hψ)).trans (le_of_eq ?_)
      have : ‖ψ (Function.update x t false)‖ + ‖ψ (Function.update x t true)‖ = ‖ψ x‖ + ‖ψ (flipAt t x)‖ := by
        unfold flipAt
        have hu : Function.update x t (x t) = x := Function.update_eq_self t x
        cases h : x t
        · rw [h] at hu; rw [hu]; rfl
        · rw [h] at hu; rw [hu, add_comm]; rfl
      rw [this, hκ]
      ring
    · rw [if_neg hx, if_neg hx, sub_self, norm_zero]
      positivity
  refine (nrm_mono hpt).trans ?_
  refine (nrm_add _ _).trans ?_
  refine (add_le_add le_rfl (nrm_add _ _)).trans (le_of_eq ?_)
  rw [nrm_smul κ hκ0 fun x => ((‖ψ x‖ : ℝ) : ℂ), nrm_smul κ hκ0 fun x => ((‖ψ (flipAt t x)‖ : ℝ) : ℂ), nrm_const _ (by positivity), nrm_norm,
    nrm_norm fun x => ψ (flipAt t x), nrm_flip, hκ]
  ring

theorem gateArrayBy_ok {b : Base} {a : Arr2} (ha : A.matrix b = .ok a) (h1 : a.cOrder = true) (h2 : a.complexType = true) :
    gateArrayBy A b = .ok [gateOf a false false, gateOf a false true, gateOf a true false, gateOf a true true] := by
  unfold gateArrayBy
  rw [ha, ok_bind]
  simp [memview, Arr2.buffer, h1, h2, gateOf]
  rfl

/-- One gate. -/
theorem applyBy_gate (hA : Accurate A ε η) (hp : Small ε η δ) (hn : n ≤ 30) (op : SOp) {ts : List (Fin n)} {f : State n ℂ → State n ℂ}
    (hk : GateAct op.kind ts f) (hs : Supported op.kind) (hM : MatricesWithin A [op] δ) (le : Bool) (bits : Nat → Option Bool)
    (hb : isBlocked op bits = false) {mem : List ℂ} {φ : State n ℂ} (hm : Stores le mem φ) (hφ : nrm φ ≤ 2) :
    ∃ mem' φ', applyBy A n op (ts.map Fin.val) le bits mem = .ok mem' ∧ Stores (R := ℂ) le mem' φ' ∧
      nrm (fun x => φ' x - f φ x) ≤ (6 * ε + 2 * δ) * nrm φ + 4 * η * Real.sqrt (2 ^ n) := by
  have hε := hp.ε0
  have hδ := hp.δ0
  have hη := hp.η0
  have hzero : nrm (fun _ : Basis n => (0 : ℂ)) ≤ (6 * ε + 2 * δ) * nrm φ + 4 * η * Real.sqrt (2 ^ n) := by
    have h0 := nrm_const (n := n) 0 le_rfl
    rw [Complex.ofReal_zero, zero_mul] at h0
    rw [h0]
    have := nrm_nonneg φ
    positivity
  unfold applyBy
  rw [hb]
  have hM' : ∀ b a, HasBase op b → b.matrix = .ok a →
      ∃ a', A.matrix b = .ok a' ∧ a'.cOrder = true ∧ a'.complexType = true ∧ ∀ i j, ‖gateOf a' i j - gateOf a i j‖ ≤ δ := hM op (by simp)
  unfold HasBase at hM'
  clear hM
  generalize op.kind = k at *
  cases hk with
  | @single b a t ha =>
    obtain ⟨a', h1, h2, h3, h4⟩ := hM' b a (.inl rfl) ha
    obtain ⟨a2, h5, _, _, hc⟩ := library_cols hs
    rw [ha] at h5; cases h5
    obtain ⟨mem', e1, e2⟩ := kernelBy_gate (A := A) singleQubit rfl rfl rfl rfl rfl le hn t [] (by simp) rfl (gateOf a') hm
    refine ⟨mem', _, ?_, e2, ?_⟩
    · simp only [List.map_cons, List.map_nil] at e1 ⊢
      simp only [gateArrayBy_ok h1 h2 h3, ok_bind, item0, Bool.false_eq_true, if_false]
      exact e1
    · have := gateBy_error hA hp [] t (entry_le hc) h4 φ hφ
      rwa [applyControlled_nil'] at this
  | @controlled1 b a c t ha hct =>
    obtain ⟨a', h1, h2, h3, h4⟩ := hM' b a (.inr ⟨1, rfl⟩) ha
    obtain ⟨a2, h5, _, _, hc⟩ := library_cols hs.2
    rw [ha] at h5; cases h5
    obtain ⟨mem', e1, e2⟩ := kernelBy_gate (A := A) gateControl rfl rfl rfl rfl rfl le hn t [c] (by simp [Ne.symm hct]) rfl (gateOf a') hm
    refine ⟨mem', _, ?_, e2, gateBy_error hA hp [c] t (entry_le hc) h4 φ hφ⟩
    simp only [List.map_cons, List.map_nil] at e1 ⊢
    simp only [gateArrayBy_ok h1 h2 h3, ok_bind, item0, item1, Bool.false_eq_true, if_false, if_true]
    exact e1
  | @controlled2 b a c c' t ha _ _ _ => exact absurd hs.1 (by simp)
  | swap a b hab =>
    obtain ⟨mem', e1, e2⟩ := kernelBy_swap (A := A) swapOp rfl rfl rfl rfl le hn b a [] (by simp [Ne.symm hab]) rfl [] hm
    refine ⟨mem', _, ?_, e2, ?_⟩
    · simp only [List.map_cons, List.map_nil] at e1 ⊢
      simp only [ok_bind, item0, item1, Bool.false_eq_true, if_false]
      exact e1
    · have : (fun x : Basis n => (if ∀ c ∈ ([] : List (Fin n)), x c = true then applySwap b a φ x else φ x) - applySwap a b φ x) = fun _ => 0 := by
        funext x
        simp [applySwap, Equiv.swap_comm]
      rw [this]
      exact hzero
  | cswap c a b h1 h2 h3 =>
    obtain ⟨mem', e1, e2⟩ := kernelBy_swap (A := A) cswapOp rfl rfl rfl rfl le hn a b [c] (by simp [h3, Ne.symm h1, Ne.symm h2]) rfl [] hm
    refine ⟨mem', _, ?_, e2, ?_⟩
    · simp only [List.map_cons, List.map_nil] at e1 ⊢
      simp only [ok_bind, item0, item1, item2, Bool.false_eq_true, if_false]
      exact e1
    · refine le_trans (le_of_eq (congrArg nrm (funext fun x => ?_))) hzero
      refine sub_eq_zero.2 ?_
      unfold applyCSwap
      by_cases hx : x c = true
      · exact (if_pos (by simpa using hx)).trans (if_pos hx).symm
      · exact (if_neg (by simpa using hx)).trans (if_neg hx).symm
  | ccx c c' t h1 h2 h3 =>
    obtain ⟨a, ha, hc⟩ := cols_x
    have hG : ([0, 1, 1, 0] : List (Fl A)) = ([gateOf a false false, gateOf a false true, gateOf a true false, gateOf a true true] : List ℂ) := by
      cases ha
      rfl
    obtain ⟨mem', e1, e2⟩ := kernelBy_gate (A := A) gateTwoControl rfl rfl rfl rfl rfl le hn t [c, c'] (by simp [h1, Ne.symm h2, Ne.symm h3]) rfl (gateOf a) hm
    refine ⟨mem', _, ?_, e2, ?_⟩
    · simp only [List.map_cons, List.map_nil] at e1 ⊢
      simp only [ok_bind, item0, item1, item2, Bool.false_eq_true, if_false]
      rw [hG]
      exact e1
    · have := gateBy_error hA hp [c, c'] t (entry_le hc) (G' := gateOf a) (fun i j => by rw [sub_self, norm_zero]; exact hδ) φ hφ
      rw [← ccx_eq c c' t a ha] at this
      exact this

/-! ## Circuits -/

/-- Gates keep distances. -/
theorem GateAct.nrm_sub {k : Kind} {ts : List (Fin n)} {f : State n ℂ → State n ℂ} (h : GateAct k ts f) (hu : k.unitary) (φ ψ : State n ℂ) :
    nrm (fun x => f φ x - f ψ x) = nrm (fun x => φ x - ψ x) := by
  obtain ⟨K, hK⟩ := DG.GateAct.isLocal h
  have : (fun x => f φ x - f ψ x) = f (fun x => φ x - ψ x) := by
    funext x
    rw [hK.lin, hK.lin, hK.lin, ← Finset.sum_sub_distrib]
    exact Finset.sum_congr rfl fun y _ => by ring
  rw [this]
  unfold nrm
  rw [DG.GateAct.norm h hu]

theorem gateError_nonneg (hp : Small ε η δ) (n : Nat) : 0 ≤ gateError ε η δ n := by
  have hε := hp.ε0
  have hδ := hp.δ0
  have hη := hp.η0
  unfold gateError
  positivity

theorem loopBy_cons (c : SCircuit) (op : SOp) (ops : List SOp) (le : Bool) (bits : Nat → Option Bool) (mem : List (Fl A)) {targets : List Nat}
    {mem1 : List (Fl A)} (h1 : targetsOf { c with ops := op :: ops } op = .ok targets)
    (h2 : applyBy A c.qubits.length op targets le bits mem = .ok mem1) :
    loopBy A { c with ops := op :: ops } le bits mem = loopBy A { c with ops := ops } le bits mem1 := by
  unfold loopBy
  rw [List.foldlM_cons, h1, ok_bind, h2]
  rfl

/-- Any circuit of gates: the computed state is near the exact one. -/
theorem loopBy_gates (hA : Accurate A ε η) (hp : Small ε η δ) {c : SCircuit} (hq : GoodQubits c) (u : Nat → ℝ) (le : Bool) (bits : Nat → Option Bool)
    (drawn : Nat) : ∀ (ops : List SOp), (∀ op ∈ ops, GateOp c op) → MatricesWithin A ops δ → ∀ (mem : List ℂ) (φ ψ : State c.qubits.length ℂ),
    Stores le mem φ → Spec.normSq ψ = 1 → (1 + stateDist φ ψ) * (1 + gateError ε η δ c.qubits.length) ^ ops.length ≤ 2 →
    ∃ mem' φ' ψ', loopBy A { c with ops := ops } le bits mem = .ok mem' ∧ Stores (R := ℂ) le mem' φ' ∧
      Exec c u ops ⟨ψ, bits, drawn⟩ ⟨ψ', bits, drawn⟩ ∧ Spec.normSq ψ' = 1 ∧
      1 + stateDist φ' ψ' ≤ (1 + stateDist φ ψ) * (1 + gateError ε η δ c.qubits.length) ^ ops.length := by
  have hg0 := gateError_nonneg hp c.qubits.length
  intro ops
  induction ops with
  | nil =>
    intro _ _ mem φ ψ hm h1 _
    exact ⟨mem, φ, ψ, rfl, hm, .nil, h1, by simp⟩
  | cons op ops ih =>
    intro hops hM mem φ ψ hm h1 hd
    have hg := hops op (by simp)
    obtain ⟨ts, f, hts, hf⟩ := gateAct_exists hg
    have htar : targetsOf { c with ops := op :: ops } op = .ok (ts.map Fin.val) := targetsOf_ok (c := c) hq.1 op hts
    have hd0 : 0 ≤ stateDist φ ψ := nrm_nonneg _
    rw [List.length_cons, pow_succ'] at hd ⊢
    set γ := gateError ε η δ c.qubits.length with hγ
    have hpow : 0 ≤ (1 + γ) ^ ops.length := by positivity
    have hpow1 : 1 ≤ (1 + γ) ^ ops.length := one_le_pow₀ (by linarith)
    by_cases hbl : isBlocked op bits = true
    · have hle : (1 + stateDist φ ψ) * (1 + γ) ^ ops.length ≤ (1 + stateDist φ ψ) * ((1 + γ) * (1 + γ) ^ ops.length) :=
        mul_le_mul_of_nonneg_left (by nlinarith) (by linarith)
      obtain ⟨mem', φ', ψ', e1, e2, e3, e4, e5⟩ := ih (fun o ho => hops o (by simp [ho])) (fun o ho => hM o (by simp [ho])) mem φ ψ hm h1 (hle.trans hd)
      refine ⟨mem', φ', ψ', ?_, e2, .cons (.blocked ((isBlocked_iff _ _).1 hbl)) e3, e4, e5.trans hle⟩
      rw [loopBy_cons c op ops le bits mem htar (mem1 := mem) (if_pos hbl)]
      exact e1
    · have hbl' : isBlocked op bits = false := by simpa using hbl
      have hψ1 : nrm ψ = 1 := by unfold nrm; rw [h1, Real.sqrt_one]
      have hφ : nrm φ ≤ 1 + stateDist φ ψ := by
        have := nrm_add ψ fun x => φ x - ψ x
        simp only [add_sub_cancel] at this
        rw [hψ1] at this
        exact this
      have hφ2 : nrm φ ≤ 2 := by
        refine hφ.trans (le_trans ?_ hd)
        have : (1 : ℝ) ≤ (1 + γ) * (1 + γ) ^ ops.length := by nlinarith
        nlinarith
      obtain ⟨mem1, φ1, a1, a2, a3⟩ := applyBy_gate hA hp hq.2.2 op hf hg.1 (fun o ho => hM o (by simp at ho; simp [ho])) le bits hbl' hm hφ2
      have hd1 : 1 + stateDist φ1 (f ψ) ≤ (1 + stateDist φ ψ) * (1 + γ) := by
        have t1 := nrm_add (fun x => φ1 x - f φ x) (fun x => f φ x - f ψ x)
        simp only [sub_add_sub_cancel] at t1
        rw [GateAct.nrm_sub hf (supported_unitary hg.1)] at t1
        have hε := hp.ε0
        have hδ := hp.δ0
        have hη := hp.η0
        have t2 : (6 * ε + 2 * δ) * nrm φ ≤ (6 * ε + 2 * δ) * (1 + stateDist φ ψ) := mul_le_mul_of_nonneg_left hφ (by linarith)
        have t3 : 4 * η * Real.sqrt (2 ^ c.qubits.length) * 1 ≤ 4 * η * Real.sqrt (2 ^ c.qubits.length) * (1 + stateDist φ ψ) :=
          mul_le_mul_of_nonneg_left (by linarith) (by positivity)
        rw [stateDist_eq φ1]
        have e : (1 + stateDist φ ψ) * (1 + γ) = (1 + stateDist φ ψ) + ((6 * ε + 2 * δ) * (1 + stateDist φ ψ) +
            4 * η * Real.sqrt (2 ^ c.qubits.length) * (1 + stateDist φ ψ)) := by rw [hγ]; unfold gateError; ring
        rw [e]
        have : nrm (fun x => φ x - ψ x) = stateDist φ ψ := rfl
        linarith
      have hd2 : (1 + stateDist φ1 (f ψ)) * (1 + γ) ^ ops.length ≤ (1 + stateDist φ ψ) * ((1 + γ) * (1 + γ) ^ ops.length) := by
        rw [← mul_assoc]
        exact mul_le_mul_of_nonneg_right hd1 hpow
      obtain ⟨mem', φ', ψ', e1, e2, e3, e4, e5⟩ := ih (fun o ho => hops o (by simp [ho])) (fun o ho => hM o (by simp [ho])) mem1 φ1 (f ψ) a2
        (by rw [DG.GateAct.norm hf (supported_unitary hg.1), h1]) (hd2.trans hd)
      refine ⟨mem', φ', ψ', ?_, e2, .cons (.gate ((isBlocked_false_iff _ _).1 hbl') hts hf) e3, e4, e5.trans hd2⟩
      rw [loopBy_cons c op ops le bits mem htar a1]
      exact e1

end DG.Sim
