import Verif.Proofs.Qasm

/-!
# Lemmas about the export of single operations
-/

namespace DG.Proofs
open DG DG.Spec

variable {K : Type} [DecidableEq K] [Zero K]

omit [DecidableEq K] [Zero K] in
theorem numQubits_iff (k : OpCls) (op : OpObj K) (n : Nat) : Qasm.numQubits k op = some n ↔ NumQubits k op n := by
  unfold Qasm.numQubits NumQubits
  rcases op.numQubits with _ | m
  · rcases k.ar with ⟨ctl, a, b, c⟩
    rcases ctl <;> rcases a with _ | _ | a <;> rcases b with _ | _ | b <;> rcases c with _ | _ | c <;>
      simp [Arity.clsNumQubits, Arity.truthy] <;> omega
  · simp

omit [DecidableEq K] [Zero K] in
theorem mapQubits_alone (qs : List Nat) (x : Option Nat) (rs : List String) :
    Qasm.mapQubits [] qs x = .ok rs ↔ ∃ n, x = some n ∧ rs = (List.range n).map fun i => "q[" ++ toString i ++ "]" := by
  rcases x with _ | n <;> simp [Qasm.mapQubits, eq_comm]

theorem aloneText_ok (custom : Nat → Option String) (num : K → String) {w : World K} {o : Nat} {op : OpObj K} {k : OpCls} (ho : w.ops[o]? = some op)
    (hk : w.classes[op.cls]? = some k) (t : String) : Qasm.anyText custom num w k op [] = .ok t ↔ AloneText custom num w o t := by
  constructor
  · intro h
    unfold Qasm.anyText at h
    cases hc : custom op.cls with
    | none =>
      simp only [hc, Qasm.opText] at h
      rcases hg : Qasm.gate k.name with _ | ⟨kw, np, nq⟩ <;> simp only [hg] at h
      · cases h
      have hmem := (gate_library _ _ _ _).1 hg
      obtain ⟨hnp, hnq⟩ := library_np hmem
      rcases h2 : Qasm.printed num w np op.params with e | ps <;> simp only [h2] at h
      · cases h
      obtain ⟨a, b, c⟩ := (printed_ok num w hnp op.params ps).1 h2
      refine ⟨op, k, kw, np, nq, ps, ho, hk, .inl ⟨hc, hmem⟩, a, b, c, ?_⟩
      cases hq : nonempty op.qubits with
      | none =>
        have h0 := nonempty_none hq
        simp only [hq, Except.ok.injEq] at h
        simp [h0, ← h, head_text]
      | some qs =>
        obtain ⟨h0, h1⟩ := nonempty_some hq
        simp only [hq] at h
        rcases h3 : Qasm.mapQubits [] qs (Qasm.numQubits k op) with e | rs <;> simp only [h3] at h
        · cases h
        obtain ⟨n, h4, rfl⟩ := (mapQubits_alone _ _ _).1 h3
        split at h
        · cases h
        next hlt =>
        simp only [List.length_map, List.length_range, not_lt] at hlt
        simp only [Except.ok.injEq] at h
        refine ⟨fun _ => ⟨n, (numQubits_iff _ _ _).1 h4, hlt⟩, ?_⟩
        rw [if_neg (show ¬ op.qubits.getD [] = [] by rw [h0]; exact h1), ← h, head_text, commas_eq, ← List.map_take, List.take_range, Nat.min_eq_left hlt, String.append_assoc]
    | some name =>
      simp only [hc, Qasm.customText] at h
      cases hq : nonempty op.qubits with
      | none =>
        have h0 := nonempty_none hq
        simp only [hq, Except.ok.injEq] at h
        exact ⟨op, k, name, 0, 0, [], ho, hk, .inr ⟨hc, rfl, by simp [h0]⟩, by simp, rfl, by simp, by simp [h0], by simp [h0, h]⟩
      | some qs =>
        obtain ⟨h0, h1⟩ := nonempty_some hq
        simp only [hq] at h
        rcases h3 : Qasm.mapQubits [] qs (Qasm.numQubits k op) with e | rs <;> simp only [h3] at h
        · cases h
        obtain ⟨n, h4, rfl⟩ := (mapQubits_alone _ _ _).1 h3
        simp only [Except.ok.injEq] at h
        have h5 := (numQubits_iff _ _ _).1 h4
        refine ⟨op, k, name, 0, n, [], ho, hk, .inr ⟨hc, rfl, fun _ => h5⟩, by simp, rfl, by simp, fun _ => ⟨n, h5, le_rfl⟩, ?_⟩
        rw [if_neg (show ¬ op.qubits.getD [] = [] by rw [h0]; exact h1), ← h, commas_eq]
        simp [String.append_assoc]
  · rintro ⟨op', k', name, np, nq, ps, g1, g2, g3, g4, g5, g6, g7, rfl⟩
    cases ho.symm.trans g1
    cases hk.symm.trans g2
    unfold Qasm.anyText
    rcases g3 with ⟨hc, hmem⟩ | ⟨hc, rfl, g3⟩
    · simp only [hc, Qasm.opText, (gate_library _ _ _ _).2 hmem]
      obtain ⟨hnp, hnq⟩ := library_np hmem
      rw [(printed_ok num w hnp op.params ps).2 ⟨g4, g5, g6⟩]
      dsimp only
      cases hq : nonempty op.qubits with
      | none =>
        have h0 := nonempty_none hq
        simp [h0, head_text]
      | some qs =>
        obtain ⟨h0, h1⟩ := nonempty_some hq
        obtain ⟨n, g7, g8⟩ := g7 (by rw [h0]; exact h1)
        dsimp only
        rw [(mapQubits_alone _ _ _).2 ⟨n, (numQubits_iff _ _ _).2 g7, rfl⟩]
        dsimp only
        rw [if_neg (by simpa using g8), if_neg (show ¬ op.qubits.getD [] = [] by rw [h0]; exact h1), head_text, commas_eq, ← List.map_take, List.take_range, Nat.min_eq_left g8,
          String.append_assoc]
    · cases List.eq_nil_of_length_eq_zero g5
      simp only [hc, Qasm.customText]
      cases hq : nonempty op.qubits with
      | none =>
        have h0 := nonempty_none hq
        simp [h0]
      | some qs =>
        obtain ⟨h0, h1⟩ := nonempty_some hq
        have g8 := g3 (by rw [h0]; exact h1)
        dsimp only
        rw [(mapQubits_alone _ _ _).2 ⟨nq, (numQubits_iff _ _ _).2 g8, rfl⟩]
        dsimp only
        rw [if_neg (show ¬ op.qubits.getD [] = [] by rw [h0]; exact h1), commas_eq]
        simp [String.append_assoc]

end DG.Proofs
