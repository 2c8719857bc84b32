import Verif.Proofs.DeferChance
import Verif.Props.Branches
import Verif.Props.Simulator
import Verif.Props.Sampling

/-! Measurements can be deferred: C112. -/

noncomputable section

namespace DG.Props
open Complex DG.Sim DG.Spec

/-- **C112.** A measurement can be moved behind gates on other qubits that do not depend on its bits, whatever comes before and after: same state, same bits,
same random numbers. -/
theorem C112_defer (qs : List Nat) (pre gates post : List SOp) (m : SOp) (hq : GoodQubits ⟨qs, pre ++ m :: gates ++ post⟩)
    (hpre : ∀ op ∈ pre ++ post, GateOp ⟨qs, []⟩ op ∨ MeasureOp ⟨qs, []⟩ op) (hm : MeasureOp ⟨qs, []⟩ m) (hg : ∀ op ∈ gates, GateOp ⟨qs, []⟩ op)
    (hdis : ∀ op ∈ gates, ∀ q ∈ op.qubits, q ∉ m.qubits)
    (hcond : ∀ op ∈ gates, ∀ bs, op.cond = some bs → ∀ b ∈ bs, ∀ bs', m.bits = some bs' → b ∉ bs')
    (u : Nat → ℝ) (hu : Uniform u) (bits : Nat → Option Bool) (records records' : Nat → Record) :
    ∃ w w', simulate u ⟨qs, pre ++ m :: gates ++ post⟩ false bits records = .ok (some w) ∧
      simulate u ⟨qs, pre ++ (gates ++ [m]) ++ post⟩ false bits records' = .ok (some w') ∧ w.mem = w'.mem ∧ w.bits = w'.bits ∧ w.drawn = w'.drawn := by
  have hall : ∀ L : List SOp, (∀ op ∈ L, op ∈ pre ++ post ∨ op = m ∨ op ∈ gates) → ∀ op ∈ L, GateOp ⟨qs, L⟩ op ∨ MeasureOp ⟨qs, L⟩ op := by
    intro L hL op ho
    rcases hL op ho with h | rfl | h
    · exact hpre op h
    · exact .inr hm
    · exact .inl (hg op h)
  obtain ⟨w, s, a1, a2, a3, a4, a5⟩ := C76_refines ⟨qs, pre ++ m :: gates ++ post⟩ hq u bits records (hall _ fun op ho => by
    simp only [List.mem_append, List.mem_cons] at ho ⊢; tauto) hu
  obtain ⟨w', s', b1, b2, b3, b4, b5⟩ := C76_refines ⟨qs, pre ++ (gates ++ [m]) ++ post⟩ ⟨hq.1, hq.2.1, hq.2.2⟩ u bits records' (hall _ fun op ho => by
    simp only [List.mem_append, List.mem_singleton] at ho ⊢; tauto) hu
  obtain ⟨s2, c1, c2⟩ := exec_split a2
  obtain ⟨s1, c0, c1⟩ := exec_split c1
  have d := exec_defer hm.1 gates (fun op ho => ⟨(hg op ho).1, hdis op ho, hcond op ho⟩) c1
  have e := exec_append (exec_append (exec_circuit (os' := pre ++ (gates ++ [m]) ++ post) c0) (exec_circuit (os' := pre ++ (gates ++ [m]) ++ post) d))
    (exec_circuit (os' := pre ++ (gates ++ [m]) ++ post) c2)
  have := exec_det (c := ⟨qs, pre ++ (gates ++ [m]) ++ post⟩) hq.1 b2 e
  subst this
  exact ⟨w, w', a1, b1, DG.stores_unique a3 b3, a4.trans b4.symm, a5.trans b5.symm⟩

/-- **C112.** What is done to some qubits has no influence on the results of measuring the others: the probabilities of all results are the same before and after
a gate on other qubits. -/
theorem C112_no_signal {n : Nat} {k : Kind} (hk : Supported k) {ts : List (Fin n)} {f : State n ℂ → State n ℂ} (hf : GateAct k ts f) (qs : List (Fin n))
    (hd : ∀ t ∈ qs, t ∉ ts) (row : List Bool) (ψ : State n ℂ) : jointBorn qs row (f ψ) = jointBorn qs row ψ := by
  have e : Ignores ts fun x : Basis n => if qs.map x = row then (1 : ℂ) else 0 := by
    intro x y h
    dsimp only
    rw [List.map_congr_left fun t ht => h t (hd t ht)]
  have e2 : ∀ φ : State n ℂ, jointBorn qs row φ = Spec.normSq fun x => (if qs.map x = row then (1 : ℂ) else 0) * φ x := by
    intro φ
    unfold jointBorn Spec.normSq
    refine Finset.sum_congr rfl fun x _ => ?_
    by_cases h : qs.map x = row <;> simp [h]
  rw [e2, e2, ← gateAct_ignores hf e ψ]
  exact DG.GateAct.norm hf (supported_unitary hk) _

/-- **C112.** A measurement can be moved behind gates and measurements of other qubits that neither depend on its bits nor set bits that it depends on or sets:
every event has the same probability. (The random numbers are used in another order, so that the results for one seed can differ.) -/
theorem C112_chance (qs : List Nat) (pre ops post : List SOp) (m : SOp) (hq : GoodQubits ⟨qs, pre ++ m :: ops ++ post⟩)
    (hpre : ∀ op ∈ pre ++ post, GateOp ⟨qs, []⟩ op ∨ MeasureOp ⟨qs, []⟩ op) (hm : MeasureOp ⟨qs, []⟩ m) (hg : ∀ op ∈ ops, GateOp ⟨qs, []⟩ op ∨ MeasureOp ⟨qs, []⟩ op)
    (hdis : ∀ op ∈ ops, ∀ q ∈ op.qubits, q ∉ m.qubits)
    (hcond : ∀ op ∈ ops, ∀ bs, m.bits = some bs → ∀ b ∈ bs, ∀ bs', op.cond = some bs' → b ∉ bs')
    (hset : ∀ op ∈ ops, op.kind = .measurement → ∀ bs, op.bits = some bs → ∀ b ∈ bs, (∀ bs', m.cond = some bs' → b ∉ bs') ∧ ∀ bs', m.bits = some bs' → b ∉ bs')
    (bits : Nat → Option Bool) (records records' : Nat → Record) {N : Nat} (hN : measuredQubits (pre ++ m :: ops ++ post) ≤ N)
    (Q : State qs.length ℂ → (Nat → Option Bool) → Prop) :
    chance N (fun u => ∃ w ψ, simulate u ⟨qs, pre ++ m :: ops ++ post⟩ false bits records = .ok (some w) ∧ Stores false w.mem ψ ∧ Q ψ w.bits) =
      chance N (fun u => ∃ w ψ, simulate u ⟨qs, pre ++ (ops ++ [m]) ++ post⟩ false bits records' = .ok (some w) ∧ Stores false w.mem ψ ∧ Q ψ w.bits) := by
  classical
  have hall : ∀ L : List SOp, (∀ op ∈ L, op ∈ pre ++ post ∨ op = m ∨ op ∈ ops) → ∀ op ∈ L, GateOp ⟨qs, L⟩ op ∨ MeasureOp ⟨qs, L⟩ op := by
    intro L hL op ho
    rcases hL op ho with h | rfl | h
    · exact hpre op h
    · exact .inr hm
    · exact hg op h
  obtain ⟨L, hL, e⟩ := C99_distribution (c := ⟨qs, pre ++ m :: ops ++ post⟩) hq (hall _ fun op ho => by
    simp only [List.mem_append, List.mem_cons] at ho ⊢; tauto) bits records hN
  have hN' : measuredQubits (pre ++ (ops ++ [m]) ++ post) ≤ N := by
    refine le_trans (le_of_eq ?_) hN
    unfold measuredQubits
    simp only [List.map_append, List.map_cons, List.sum_append, List.sum_cons, List.map_nil, List.sum_nil]
    omega
  obtain ⟨L', hL', e'⟩ := C99_distribution (c := ⟨qs, pre ++ (ops ++ [m]) ++ post⟩) ⟨hq.1, hq.2.1, hq.2.2⟩ (hall _ fun op ho => by
    simp only [List.mem_append, List.mem_singleton] at ho ⊢; tauto) bits records' hN'
  refine (e Q).trans (Eq.trans ?_ (e' Q).symm)
  congr 1
  let G : State qs.length ℂ → (Nat → Option Bool) → ℝ := fun φ v => if Q (normalised φ) v then Spec.normSq φ else 0
  have t1 := tot_branches (c := ⟨qs, pre ++ m :: ops ++ post⟩) (G := G) hq.1 hL (zeroState _)
  have t2 := tot_branches (c := ⟨qs, pre ++ (ops ++ [m]) ++ post⟩) (G := G) hq.1 hL' (zeroState _)
  refine t1.symm.trans (Eq.trans ?_ t2)
  have t3 : ∀ l, tot ⟨qs, pre ++ (ops ++ [m]) ++ post⟩ G l = tot ⟨qs, pre ++ m :: ops ++ post⟩ G l := fun l => by
    induction l with
    | nil => rfl
    | cons op l ih => show one _ op _ = one _ op _; rw [ih]
  rw [t3]
  simp only [tot_append]
  rw [tot_comm (c := ⟨qs, pre ++ m :: ops ++ post⟩) hq.1 hm ops fun op ho => ⟨hg op ho, hdis op ho, hcond op ho, hset op ho⟩, tot_append]

/-- Case: the measurement of an entangled qubit, and gates on the other one, one of which depends on a bit that was measured before. -/
theorem C112_demo (u : Nat → ℝ) (hu : Uniform u) (bits : Nat → Option Bool) (records : Nat → Record) :
    let pre : List SOp := [{ oid := 1, kind := .single .hadamard, qubits := [7] }, { oid := 2, kind := .controlled 1 .x, qubits := [7, 4] },
      { oid := 3, kind := .measurement, qubits := [7], bits := some [0] }]
    let m : SOp := { oid := 4, kind := .measurement, qubits := [7], bits := some [1] }
    let gates : List SOp := [{ oid := 5, kind := .single .hadamard, qubits := [4] }, { oid := 6, kind := .single .x, qubits := [4], cond := some [0] }]
    let post : List SOp := [{ oid := 7, kind := .single .x, qubits := [7], cond := some [1] }]
    ∃ w w', simulate u ⟨[4, 7], pre ++ m :: gates ++ post⟩ false bits records = .ok (some w) ∧
      simulate u ⟨[4, 7], pre ++ (gates ++ [m]) ++ post⟩ false bits records = .ok (some w') ∧ w.mem = w'.mem ∧ w.bits = w'.bits ∧ w.drawn = w'.drawn := by
  intro pre m gates post
  refine C112_defer [4, 7] pre gates post m ⟨by decide, by decide, by decide⟩ ?_ ⟨rfl, by decide⟩ ?_ ?_ ?_ u hu bits records records
  · intro op ho
    simp only [pre, post, List.cons_append, List.nil_append, List.mem_cons, List.not_mem_nil, or_false] at ho
    rcases ho with rfl | rfl | rfl | rfl
    · exact .inl ⟨trivial, rfl, by decide, by decide⟩
    · exact .inl ⟨⟨rfl, trivial⟩, rfl, by decide, by decide⟩
    · exact .inr ⟨rfl, by decide⟩
    · exact .inl ⟨trivial, rfl, by decide, by decide⟩
  all_goals
    intro op ho
    simp only [gates, List.mem_cons, List.not_mem_nil, or_false] at ho
    rcases ho with rfl | rfl
  · exact ⟨trivial, rfl, by decide, by decide⟩
  · exact ⟨trivial, rfl, by decide, by decide⟩
  · decide
  · decide
  · intro bs h; cases h
  · intro bs h b hb bs' h' hb'
    cases h
    cases h'
    simp only [List.mem_singleton] at hb hb'
    omega

/-- Case: both qubits of an entangled pair are measured, in either order. -/
theorem C112_pair (bits : Nat → Option Bool) (records : Nat → Record) (Q : State 2 ℂ → (Nat → Option Bool) → Prop) :
    let pre : List SOp := [{ oid := 1, kind := .single .hadamard, qubits := [7] }, { oid := 2, kind := .controlled 1 .x, qubits := [7, 4] }]
    let m : SOp := { oid := 4, kind := .measurement, qubits := [7], bits := some [1] }
    let m' : SOp := { oid := 5, kind := .measurement, qubits := [4], bits := some [0] }
    chance 2 (fun u => ∃ w ψ, simulate u ⟨[4, 7], pre ++ [m, m'] ++ []⟩ false bits records = .ok (some w) ∧ Stores false w.mem ψ ∧ Q ψ w.bits) =
      chance 2 (fun u => ∃ w ψ, simulate u ⟨[4, 7], pre ++ [m', m] ++ []⟩ false bits records = .ok (some w) ∧ Stores false w.mem ψ ∧ Q ψ w.bits) := by
  intro pre m m'
  refine C112_chance [4, 7] pre [m'] [] m ⟨by decide, by decide, by decide⟩ ?_ ⟨rfl, by decide⟩ ?_ ?_ ?_ ?_ bits records records (by decide) Q
  · intro op ho
    simp only [pre, List.append_nil, List.mem_cons, List.not_mem_nil, or_false] at ho
    rcases ho with rfl | rfl
    · exact .inl ⟨trivial, rfl, by decide, by decide⟩
    · exact .inl ⟨⟨rfl, trivial⟩, rfl, by decide, by decide⟩
  all_goals
    intro op ho
    simp only [List.mem_singleton] at ho
    subst ho
  · exact .inr ⟨rfl, by decide⟩
  · decide
  · intro bs _ b _ bs' h
    cases h
  · intro _ bs h b hb
    cases h
    refine ⟨fun bs' h => (by cases h), fun bs' h hb' => ?_⟩
    cases h
    simp only [List.mem_singleton] at hb hb'
    omega

end DG.Props
