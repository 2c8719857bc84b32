import Verif.Spec.ClassicalMix
import Verif.Proofs.Classical

/-! Lemmas for C119: classical gates permute amplitudes, up to phases. -/

noncomputable section

namespace DG.Classic
open Complex Spec DG.Sim

variable {n : Nat}

theorem applyGate_point {G : Bool → Bool → ℂ} {f : Bool} {p : Bool → ℂ} (h : Monomial G f p) (t : Fin n) (ψ : State n ℂ) (x : Basis n) :
    applyGate t G ψ (Function.update x t (x t ^^ f)) = p (x t) * ψ x := by
  simp only [applyGate, Function.update_self, Function.update_idem, h _ _]
  have hx : Function.update x t (x t) = x := Function.update_eq_self t x
  rw [Fintype.sum_bool]
  cases hv : x t <;> rw [hv] at hx <;> cases f <;> simp [hx]

theorem gate_point {c : SCircuit} (hnd : c.qubits.Nodup) {op : SOp} (hop : ClassicalOp op) (hs : Supported op.kind) {ts : List (Fin c.qubits.length)} {f : _}
    (hq : op.qubits = ts.map (qubitAt c)) (h : GateAct op.kind ts f) (x : Nat → Bool) :
    ∃ p, (∀ ψ, f ψ (valuesOf c (classicalAct op.kind op.qubits x)) = p * ψ (valuesOf c x)) ∧ Complex.normSq p = 1 ∧ (NoPhase op → p = 1) := by
  have up := fun x t v => update_at hnd x t v
  unfold ClassicalOp at hop
  unfold NoPhase
  rw [hq]
  generalize op.kind = k at *
  cases h with
  | single t ha =>
    obtain ⟨p, h1, h2, h3⟩ := classical_monomial hop ha
    refine ⟨p (valuesOf c x t), fun ψ => ?_, h2 _, fun h => h3 h _⟩
    rw [← applyGate_point h1]
    simp only [classicalAct, List.map_cons, List.map_nil, up]
    rfl
  | controlled1 c' t ha hct =>
    obtain ⟨p, h1, h2, h3⟩ := classical_monomial hop ha
    refine ⟨if valuesOf c x c' then p (valuesOf c x t) else 1, fun ψ => ?_, by split <;> simp [h2], fun h => by split <;> simp [h3 h]⟩
    simp only [classicalAct, List.map_cons, List.map_nil, up, applyControlled, List.mem_singleton, forall_eq, Function.update_of_ne hct]
    by_cases h : valuesOf c x c' = true
    · rw [if_pos h, if_pos h, ← applyGate_point h1]
      rw [show x (qubitAt c c') = true from h, Bool.true_and]
      rfl
    · rw [if_neg h, if_neg h, one_mul]
      have h' : x (qubitAt c c') = false := by simpa [valuesOf] using h
      rw [h', Bool.false_and, Bool.xor_false]
      congr 1
      exact Function.update_eq_self t (valuesOf c x)
  | controlled2 _ _ _ _ _ _ _ => exact absurd hs.1 (by decide)
  | swap a b hab =>
    refine ⟨1, fun ψ => ?_, by simp, fun _ => rfl⟩
    have e : valuesOf c (classicalAct .swap [qubitAt c a, qubitAt c b] x) = valuesOf c x ∘ Equiv.swap a b := by
      rw [comp_swap]
      simp only [classicalAct, up]
      rfl
    simp only [List.map_cons, List.map_nil]
    rw [e, one_mul]
    show ψ ((valuesOf c x ∘ Equiv.swap a b) ∘ Equiv.swap a b) = _
    congr 1
    funext q
    simp
  | cswap d a b h1 h2 h3 =>
    refine ⟨1, fun ψ => ?_, by simp, fun _ => rfl⟩
    simp only [List.map_cons, List.map_nil, one_mul, classicalAct, applyCSwap]
    cases h : x (qubitAt c d)
    · have hd : ¬ valuesOf c x d = true := by
        show ¬ x (qubitAt c d) = true
        rw [h]
        simp
      simp only [Bool.false_eq_true, if_false, if_neg hd]
    · rw [if_pos rfl]
      have e : valuesOf c (Function.update (Function.update x (qubitAt c a) (x (qubitAt c b))) (qubitAt c b) (x (qubitAt c a))) = valuesOf c x ∘ Equiv.swap a b := by
        rw [comp_swap, up, up]
        rfl
      have hd : (valuesOf c x ∘ Equiv.swap a b) d = true := by
        simp only [Function.comp_apply, Equiv.swap_apply_of_ne_of_ne h1 h2]
        exact h
      rw [e, if_pos hd]
      show ψ ((valuesOf c x ∘ Equiv.swap a b) ∘ Equiv.swap a b) = _
      congr 1
      funext q
      simp
  | ccx d d' t h1 h2 h3 =>
    refine ⟨1, fun ψ => ?_, by simp, fun _ => rfl⟩
    simp only [classicalAct, List.map_cons, List.map_nil, up, one_mul, Function.update_of_ne h2, Function.update_of_ne h3, Function.update_self, Function.update_idem]
    by_cases h : valuesOf c x d = true ∧ valuesOf c x d' = true
    · rw [if_pos h]
      congr 1
      have hd : x (qubitAt c d) = true := h.1
      have hd' : x (qubitAt c d') = true := h.2
      rw [hd, hd']
      have : (!(x (qubitAt c t) ^^ (true && true))) = valuesOf c x t := by simp [valuesOf]
      rw [this]
      exact Function.update_eq_self t _
    · rw [if_neg h]
      congr 1
      have : (x (qubitAt c d) && x (qubitAt c d')) = false := by
        rw [Bool.eq_false_iff]
        intro e
        exact h (by simpa [valuesOf] using e)
      rw [this, Bool.xor_false]
      exact Function.update_eq_self t (valuesOf c x)

theorem gate_injective {c : SCircuit} (hnd : c.qubits.Nodup) {op : SOp} (hop : ClassicalOp op) (hs : Supported op.kind) {ts : List (Fin c.qubits.length)} {f : _}
    (hq : op.qubits = ts.map (qubitAt c)) (h : GateAct op.kind ts f) {x x' : Nat → Bool}
    (e : valuesOf c (classicalAct op.kind op.qubits x) = valuesOf c (classicalAct op.kind op.qubits x')) : valuesOf c x = valuesOf c x' := by
  obtain ⟨p, p1, p2, -⟩ := gate_point hnd hop hs hq h x
  obtain ⟨p', p1', p2', -⟩ := gate_point hnd hop hs hq h x'
  have h1 := p1 (ket (valuesOf c x) 1)
  have h2 := p1' (ket (valuesOf c x) 1)
  rw [e, h2] at h1
  by_contra hne
  simp only [ket, if_neg (Ne.symm hne), if_true, mul_zero, mul_one] at h1
  rw [← h1] at p2
  simp at p2

/-- Classical gates on any state. -/
theorem exec_point {c : SCircuit} (hnd : c.qubits.Nodup) {u : Nat → ℝ} {ops : List SOp} {s s' : SimState c.qubits.length}
    (h : Exec c u ops s s') : (∀ op ∈ ops, Supported op.kind ∧ ClassicalOp op) →
    s'.bits = s.bits ∧
    (∀ x, ∃ p, Complex.normSq p = 1 ∧ ((∀ op ∈ ops, NoPhase op) → p = 1) ∧
      s'.ψ (valuesOf c (ops.foldl classicalStep ⟨x, s.bits⟩).qubits) = p * s.ψ (valuesOf c x)) ∧
    ∀ x x', valuesOf c (ops.foldl classicalStep ⟨x, s.bits⟩).qubits = valuesOf c (ops.foldl classicalStep ⟨x', s.bits⟩).qubits → valuesOf c x = valuesOf c x' := by
  induction h with
  | nil => exact fun _ => ⟨rfl, fun x => ⟨1, by simp, fun _ => rfl, by simp⟩, fun x x' h => h⟩
  | @cons op ops s s1 s2 hst _ ih =>
    intro hops
    obtain ⟨i1, i2, i3⟩ := ih fun o ho => hops o (List.mem_cons_of_mem _ ho)
    obtain ⟨hs, hc⟩ := hops op List.mem_cons_self
    cases hst with
    | blocked hb =>
      have e : ∀ x, classicalStep ⟨x, s.bits⟩ op = ⟨x, s.bits⟩ := fun x => by
        unfold classicalStep
        rw [if_pos hb]
      simp only [List.foldl_cons, e]
      refine ⟨i1, fun x => ?_, i3⟩
      obtain ⟨p, p1, p2, p3⟩ := i2 x
      exact ⟨p, p1, fun h => p2 fun o ho => h o (List.mem_cons_of_mem _ ho), p3⟩
    | gate hb hq hg =>
      have hm : op.kind ≠ .measurement := by intro e; rw [e] at hg; cases hg
      have e : ∀ x, classicalStep ⟨x, s.bits⟩ op = ⟨classicalAct op.kind op.qubits x, s.bits⟩ := fun x => by
        unfold classicalStep
        rw [if_neg hb]
        simp only [hm, if_false]
      simp only [List.foldl_cons, e]
      refine ⟨i1, fun x => ?_, fun x x' h => gate_injective hnd hc hs hq hg (i3 _ _ h)⟩
      obtain ⟨p, p1, p2, p3⟩ := i2 (classicalAct op.kind op.qubits x)
      obtain ⟨p', q1, q2, q3⟩ := gate_point hnd hc hs hq hg x
      refine ⟨p * p', by rw [Complex.normSq_mul, p1, q2, mul_one], fun h => ?_, ?_⟩
      · rw [p2 fun o ho => h o (List.mem_cons_of_mem _ ho), q3 (h op List.mem_cons_self), mul_one]
      · rw [p3, mul_assoc]
        exact congrArg (p * ·) (q1 s.ψ)
    | measure hb hk hq =>
      rw [hk] at hs
      exact hs.elim

theorem valuesOf_ofBasis {qs : List Nat} {os : List SOp} (hnd : qs.Nodup) (y : Basis qs.length) : valuesOf ⟨qs, os⟩ (ofBasis qs y) = y := by
  funext i
  have e : qs.idxOf qs[i] = i.val := List.Nodup.idxOf_getElem hnd i.val i.isLt
  have h : qs.idxOf qs[i] < qs.length := by rw [e]; exact i.isLt
  show ofBasis qs y qs[i] = _
  unfold ofBasis
  rw [dif_pos h]
  congr 1
  exact Fin.ext e

/-- The phases do not change values. -/
theorem phase_act {op : SOp} (h : PhaseOp op) (v : Values) : classicalStep v op = v := by
  have hf : ∀ b : Base, (b = .identity ∨ b = .z ∨ b = .s ∨ b = .t ∨ ∃ p, b = .rz p) → flips b = false := by
    rintro b (rfl | rfl | rfl | rfl | ⟨p, rfl⟩) <;> rfl
  unfold classicalStep
  by_cases hb : Blocked op v.bits
  · rw [if_pos hb]
  rw [if_neg hb]
  unfold PhaseOp at h
  generalize op.kind = k at *
  generalize op.qubits = qs at *
  have key : classicalAct k qs v.qubits = v.qubits := by
    cases k with
    | single b =>
      match qs with
      | [q] => simp [classicalAct, hf b h]
      | [] => rfl
      | _ :: _ :: _ => rfl
    | controlled nc b =>
      match qs with
      | [d, q] => simp [classicalAct, hf b h]
      | [] => rfl
      | [_] => rfl
      | _ :: _ :: _ :: _ => rfl
    | _ => exact h.elim
  have hm : k ≠ .measurement := by rintro rfl; exact h
  rw [key, if_neg hm]

theorem phase_classical {op : SOp} (h : PhaseOp op) : ClassicalOp op := by
  unfold PhaseOp at h
  unfold ClassicalOp
  generalize op.kind = k at *
  cases k with
  | single b => rcases h with rfl | rfl | rfl | rfl | ⟨p, rfl⟩ <;> trivial
  | controlled nc b => rcases h with rfl | rfl | rfl | rfl | ⟨p, rfl⟩ <;> trivial
  | _ => trivial

end DG.Classic
