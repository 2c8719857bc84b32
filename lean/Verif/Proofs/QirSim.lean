import Verif.Proofs.QirMeaning

/-! Circuits and the QIR programs that they are compiled to mean the same. -/

noncomputable section

namespace DG
open Spec Sim

/-- The calls for an operation `s` of a circuit with these qubits and bits. -/
inductive CallsFor (qubits bits : List Nat) : SOp → List (String × List (QirArg ℝ)) → Prop
  | gate {s : SOp} {callee : String} {xs : List ℝ} {is : List Nat} : s.cond = none → s.kind ≠ .measurement →
      List.Forall₂ (fun q i => qubits[i]? = some q) s.qubits is →
      (∀ {n : Nat} (ts : List (Fin n)) (f : State n ℂ → State n ℂ), GateAct s.kind ts f → QisGate callee xs ts f) →
      CallsFor qubits bits s [(callee, xs.map QirArg.dbl ++ is.map QirArg.qubit)]
  | measure {s : SOp} {bs : List Nat} {pairs : List (Nat × Nat)} : s.cond = none → s.kind = .measurement → s.bits = some bs →
      s.qubits.length ≤ bs.length → List.Forall₂ (fun p r => qubits[r.1]? = some p.1 ∧ bits[r.2]? = some p.2) (s.qubits.zip bs) pairs →
      CallsFor qubits bits s (pairs.map fun r => ("__quantum__qis__mz__body", [.qubit r.1, .result r.2]))

/-- The bits have the values of the results, and the values `old` where there is no result. -/
def Agree (bits : List Nat) (old vals res : Nat → Option Bool) : Prop := ∀ j b : Nat, bits[j]? = some b → vals b = (res j).or (old b)

theorem Agree.update {bits : List Nat} (hn : bits.Nodup) {old vals res : Nat → Option Bool} (h : Agree bits old vals res) {j b : Nat} (hj : bits[j]? = some b)
    (m : Bool) : Agree bits old (Function.update vals b (some m)) (Function.update res j (some m)) := by
  intro j' b' hj'
  by_cases e : j' = j
  · subst e
    rw [hj] at hj'
    cases hj'
    simp
  · have hb : b' ≠ b := by
      rintro rfl
      have h1 := (List.getElem?_eq_some_iff.1 hj)
      have h2 := (List.getElem?_eq_some_iff.1 hj')
      obtain ⟨a1, a2⟩ := h1
      obtain ⟨b1, b2⟩ := h2
      exact e ((List.Nodup.getElem_inj_iff hn).1 (b2.trans a2.symm))
    rw [Function.update_of_ne e, Function.update_of_ne hb]
    exact h j' b' hj'

theorem index_qubitAt {c : SCircuit} (hn : c.qubits.Nodup) {t : Fin c.qubits.length} {i : Nat} (h : c.qubits[i]? = some (qubitAt c t)) : i = t.val := by
  obtain ⟨h1, h2⟩ := List.getElem?_eq_some_iff.1 h
  exact (List.Nodup.getElem_inj_iff hn).1 h2

theorem indices_qubitAt {c : SCircuit} (hn : c.qubits.Nodup) {ts : List (Fin c.qubits.length)} {is : List Nat}
    (h : List.Forall₂ (fun q i => c.qubits[i]? = some q) (ts.map (qubitAt c)) is) : is = ts.map Fin.val := by
  rw [List.forall₂_map_left_iff] at h
  induction h with
  | nil => rfl
  | cons a _ ih => rw [ih, index_qubitAt hn a]; rfl

/-- A measurement is the same as one call for each qubit. -/
theorem measure_qir {c : SCircuit} (hn : c.qubits.Nodup) {cs : List Nat} (hc : cs.Nodup) (u : Nat → ℝ) {old : Nat → Option Bool} :
    ∀ (ts : List (Fin c.qubits.length)) (bs : List Nat) (pairs : List (Nat × Nat)) (vals res : Nat → Option Bool) (k : Nat) (ψ : State c.qubits.length ℂ),
    ts.length ≤ bs.length → List.Forall₂ (fun p r => c.qubits[r.1]? = some p.1 ∧ cs[r.2]? = some p.2) ((ts.map (qubitAt c)).zip bs) pairs →
    Agree cs old vals res →
    ∃ res', QirExec u (pairs.map fun r => ("__quantum__qis__mz__body", [.qubit r.1, .result r.2])) (⟨ψ, res, k⟩ : QirState c.qubits.length)
        ⟨(measureAll u ts k ψ).2, res', k + ts.length⟩ ∧
      Agree cs old (writeBits vals (bs.zip (measureAll u ts k ψ).1)) res'
  | [], bs, pairs, vals, res, k, ψ, _, h, ha => by
    cases h
    refine ⟨res, .nil, ?_⟩
    simpa [measureAll, writeBits] using ha
  | t :: ts, [], _, _, _, _, _, hl, _, _ => by simp at hl
  | t :: ts, b :: bs, pairs, vals, res, k, ψ, hl, h, ha => by
    rw [List.map_cons, List.zip_cons_cons] at h
    cases h with
    | @cons _ r _ pairs h1 h2 =>
      obtain ⟨i, j⟩ := r
      dsimp only at h1
      obtain rfl := index_qubitAt hn h1.1
      obtain ⟨res', g1, g2⟩ := measure_qir hn hc u ts bs pairs (Function.update vals b (some (outcome t ψ (u k))))
        (Function.update res j (some (outcome t ψ (u k)))) (k + 1) (project t (outcome t ψ (u k)) ψ) (by simpa using hl) h2 (ha.update hc h1.2 _)
      refine ⟨res', .cons .measure ?_, g2⟩
      rw [List.length_cons, Nat.add_comm ts.length 1, ← Nat.add_assoc]
      exact g1

/-- The operation without its condition. -/
def _root_.DG.Sim.SOp.always (s : SOp) : SOp := { s with cond := none }

/-- As long as no bit is 0, conditions do not matter. -/
theorem exec_always {c : SCircuit} {u : Nat → ℝ} : ∀ {S1 S2 : List SOp} {s s' : SimState c.qubits.length}, Exec c u (S1 ++ S2) s s' →
    (∀ a ∈ S1, a.kind ≠ .measurement) → (∀ b, s.bits b ≠ some false) → Exec c u (S1.map SOp.always ++ S2) s s'
  | [], _, _, _, h, _, _ => h
  | a :: S1, S2, s, s', h, hk, hb => by
    rw [List.cons_append] at h
    cases h with
    | cons hs ht =>
      cases hs with
      | blocked hbl => obtain ⟨bs, b, -, -, h1⟩ := hbl; exact absurd h1 (hb b)
      | gate _ hq hf =>
        refine .cons (.gate ?_ hq hf) (exec_always ht (fun x hx => hk x (List.mem_cons_of_mem _ hx)) hb)
        rintro ⟨bs, b, h1, -⟩
        cases h1
      | measure _ hm _ => exact absurd hm (hk a List.mem_cons_self)

/-- Executing the operations of a circuit is executing the calls for them. -/
theorem exec_qir {c : SCircuit} (hn : c.qubits.Nodup) {cs : List Nat} (hc : cs.Nodup) {u : Nat → ℝ} {old : Nat → Option Bool} {S : List SOp}
    {s s' : SimState c.qubits.length} (h : Exec c u S s s') {calls : List (List (String × List (QirArg ℝ)))} (hS : List.Forall₂ (CallsFor c.qubits cs) S calls)
    {res : Nat → Option Bool} (ha : Agree cs old s.bits res) :
    ∃ res', QirExec u calls.flatten (⟨s.ψ, res, s.drawn⟩ : QirState c.qubits.length) ⟨s'.ψ, res', s'.drawn⟩ ∧ Agree cs old s'.bits res' := by
  induction h generalizing calls res with
  | nil => cases hS; exact ⟨res, .nil, ha⟩
  | cons hs _ ih =>
    cases hS with
    | cons a b =>
      rw [List.flatten_cons]
      cases hs with
      | blocked hb =>
        obtain ⟨bs, b', h1, -⟩ := hb
        cases a with
        | gate h2 => rw [h2] at h1; cases h1
        | measure h2 => rw [h2] at h1; cases h1
      | @gate ts f _ hq hf =>
        cases a with
        | gate _ _ h3 h4 =>
          rw [hq] at h3
          obtain rfl := indices_qubitAt hn h3
          obtain ⟨res', g1, g2⟩ := ih b ha
          have hst := fun st : QirState c.qubits.length => QirStep.gate (u := u) (s := st) (h4 ts f hf)
          rw [List.map_map]
          exact ⟨res', .cons (hst _) g1, g2⟩
        | measure _ h2 => rw [h2] at hf; cases hf
      | @measure ts _ hk hq =>
        cases a with
        | gate _ h2 => exact absurd hk h2
        | @measure bs pairs _ _ h3 h4 h5 =>
          rw [hq] at h4 h5
          obtain ⟨res1, g1, g2⟩ := measure_qir hn hc u ts bs pairs _ res _ _ (by simpa using h4) h5 ha
          rw [h3, Option.getD_some] at ih
          obtain ⟨res', k1, k2⟩ := ih b g2
          exact ⟨res', g1.append k1, k2⟩

end DG
