import Verif.Proofs.SimExtra

/-!
# Properties of simulation: C42-C52, C70-C77

`simulate u c le bits records` models `simulate(circuit, little_endian=le)`: `u` is the stream of random numbers, `bits` the
values of all bits before the call, `records` what the measurement objects have recorded. The result `w` has the new
`circuit.state` as `w.mem` and the bit values after the call as `w.bits`. `Spec/Simulation.lean` contains the
specification: `GateOp` (library gate on distinct qubits of the circuit), `MeasureOp`, and the textbook semantics
`Step`/`Exec` of operations, with `zeroState`, `born`, `project`, `outcome`, `measureAll`.
-/

namespace DG.Props
open Complex Spec Kernel DG.Sim

/-- The random numbers lie in [0, 1). -/
def Uniform (u : Nat → ℝ) : Prop := ∀ k, 0 ≤ u k ∧ u k < 1

/-! ## A circuit used as an example

Three qubits 10, 11, 12 and two bits 5, 6: `H 10; CX 10 11; CRotation 11 12; measure 10 11 -> 5 6; X 12 if bit 5;
CSWAP 10 11 12; measure 12`. -/

noncomputable def demoOps : List SOp :=
  [ { oid := 1, kind := .single .hadamard, qubits := [10] },
    { oid := 2, kind := .controlled 1 .x, qubits := [10, 11] },
    { oid := 3, kind := .controlled 1 (.rotation (.num 1) (.num 2) (.num (-3))), qubits := [11, 12] },
    { oid := 4, kind := .measurement, qubits := [10, 11], bits := some [5, 6] },
    { oid := 5, kind := .single .x, qubits := [12], cond := some [5] },
    { oid := 6, kind := .cswap, qubits := [10, 11, 12] },
    { oid := 7, kind := .measurement, qubits := [12] } ]

noncomputable def demo : SCircuit := { qubits := [10, 11, 12], ops := demoOps }
/-- Its gates. -/
noncomputable def demoGates : SCircuit :=
  { demo with ops := demoOps.filter fun o => match o.kind with | .measurement => false | _ => true }

theorem demo_qubits : GoodQubits demo := ⟨by decide, by decide, by decide⟩
theorem demo_ops : ∀ op ∈ demo.ops, GateOp demo op ∨ MeasureOp demo op := by
  intro op h
  simp only [demo, demoOps, List.mem_cons, List.not_mem_nil, or_false] at h
  rcases h with rfl | rfl | rfl | rfl | rfl | rfl | rfl
  · exact .inl ⟨trivial, rfl, by decide, by decide⟩
  · exact .inl ⟨⟨rfl, trivial⟩, rfl, by decide, by decide⟩
  · exact .inl ⟨⟨rfl, trivial, trivial, trivial⟩, rfl, by decide, by decide⟩
  · exact .inr ⟨rfl, by decide⟩
  · exact .inl ⟨trivial, rfl, by decide, by decide⟩
  · exact .inl ⟨trivial, rfl, by decide, by decide⟩
  · exact .inr ⟨rfl, by decide⟩
theorem demoGates_qubits : GoodQubits demoGates := ⟨by decide, by decide, by decide⟩
theorem demoGates_ops : ∀ op ∈ demoGates.ops, GateOp demoGates op := by
  intro op h
  simp only [demoGates, demoOps, List.filter_cons, List.filter_nil, if_true, List.mem_cons, List.not_mem_nil, or_false,
    Bool.false_eq_true, if_false] at h
  rcases h with rfl | rfl | rfl | rfl | rfl
  · exact ⟨trivial, rfl, by decide, by decide⟩
  · exact ⟨⟨rfl, trivial⟩, rfl, by decide, by decide⟩
  · exact ⟨⟨rfl, trivial, trivial, trivial⟩, rfl, by decide, by decide⟩
  · exact ⟨trivial, rfl, by decide, by decide⟩
  · exact ⟨trivial, rfl, by decide, by decide⟩
theorem half_uniform : Uniform (fun _ => 1 / 2) := fun _ => by norm_num

/-! ## C42, C43, C75: circuits of gates -/

section
variable (c : SCircuit) (hq : GoodQubits c) (u : Nat → ℝ) (bits : Nat → Option Bool) (records : Nat → Record)
include hq

/-- **C75.** Simulating a circuit of library gates succeeds and gives the vector of the state obtained from |0...0> by
applying the gates, in order, to the qubits of the operations; the bits are unchanged. -/
theorem C75_gates (hops : ∀ op ∈ c.ops, GateOp c op) (le : Bool) :
    ∃ w s, simulate u c le bits records = .ok (some w) ∧ Exec c u c.ops ⟨zeroState _, bits, 0⟩ s ∧ Stores le w.mem s.ψ ∧
      w.bits = bits := by
  obtain ⟨w, s, h1, h2, h3, h4, _⟩ := simulate_gates hq hops u le bits records
  exact ⟨w, s, h1, h2, h3, h4⟩

/-- **C42.** The little-endian result is the big-endian result with the bits of every index reversed. -/
theorem C42_endianness (hops : ∀ op ∈ c.ops, GateOp c op) :
    ∃ wb wl, simulate u c false bits records = .ok (some wb) ∧ simulate u c true bits records = .ok (some wl) ∧
      wb.mem.length = 2 ^ c.qubits.length ∧ wl.mem.length = 2 ^ c.qubits.length ∧
      ∀ x : Basis c.qubits.length, wl.mem[index false (fun i => x i.rev)]? = wb.mem[index false x]? := by
  obtain ⟨wb, s, h1, h2, h3, _⟩ := simulate_gates hq hops u false bits records
  obtain ⟨wl, s', h1', h2', h3', _⟩ := simulate_gates hq hops u true bits records
  have := exec_det hq.1 h2 h2'
  subst this
  refine ⟨wb, wl, h1, h1', h3.1, h3'.1, fun x => ?_⟩
  rw [← index_rev, h3'.2, h3.2]

/-- **C43.** After simulating a circuit of library gates the state is normalised. -/
theorem C43_normalised (hops : ∀ op ∈ c.ops, GateOp c op) (le : Bool) :
    ∃ w, simulate u c le bits records = .ok (some w) ∧ (w.mem.map Complex.normSq).sum = 1 := by
  obtain ⟨w, s, h1, _, h3, _, h5⟩ := simulate_gates hq hops u le bits records
  refine ⟨w, h1, ?_⟩
  rw [sum_stores h3 Complex.normSq]
  exact h5

/-- **C76.** Simulating a circuit of library gates and measurements, with or without conditions, succeeds and follows the
textbook semantics: state, bit values and number of random numbers used. -/
theorem C76_refines (hops : ∀ op ∈ c.ops, GateOp c op ∨ MeasureOp c op) (hu : Uniform u) :
    ∃ w s, simulate u c false bits records = .ok (some w) ∧ Exec c u c.ops ⟨zeroState _, bits, 0⟩ s ∧
      Stores false w.mem s.ψ ∧ w.bits = s.bits ∧ w.drawn = s.drawn := by
  obtain ⟨w, s, h1, h2, h3, h4, h5, _⟩ := simulate_all hq hops u hu bits records
  exact ⟨w, s, h1, h2, h3, h4, h5⟩

/-- The semantics determines the result. -/
theorem C76_semantics_unique {ops : List SOp} {s s1 s2 : SimState c.qubits.length} (h1 : Exec c u ops s s1)
    (h2 : Exec c u ops s s2) : s1 = s2 := exec_det hq.1 h1 h2

/-- **C44.** Simulation with measurements never fails, for all random numbers in [0, 1), and ends in a normalised state. -/
theorem C44_measurements (hops : ∀ op ∈ c.ops, GateOp c op ∨ MeasureOp c op) (hu : Uniform u) :
    ∃ w, simulate u c false bits records = .ok (some w) ∧ w.mem.length = 2 ^ c.qubits.length ∧
      (w.mem.map Complex.normSq).sum = 1 := by
  obtain ⟨w, s, h1, _, h3, _, _, h5⟩ := simulate_all hq hops u hu bits records
  refine ⟨w, h1, h3.1, ?_⟩
  rw [sum_stores h3 Complex.normSq]
  exact h5

end

/-- **C43.** Every library gate preserves the norm of every state. -/
theorem C43_gate_norm {n : Nat} {k : Kind} (hk : Supported k) {ts : List (Fin n)} {f : State n ℂ → State n ℂ}
    (hf : GateAct k ts f) (ψ : State n ℂ) : Spec.normSq (f ψ) = Spec.normSq ψ :=
  DG.GateAct.norm hf (supported_unitary hk) ψ

/-- The example circuits meet the hypotheses. -/
example (bits : Nat → Option Bool) (r : Nat → Record) : ∃ wb wl, simulate (fun _ => 0) demoGates false bits r = .ok (some wb) ∧
    simulate (fun _ => 0) demoGates true bits r = .ok (some wl) ∧
    wl.mem[index false (fun i => ((![false, true, true] : Basis 3)) i.rev)]? = wb.mem[index false (![false, true, true] : Basis 3)]? := by
  obtain ⟨wb, wl, h1, h2, _, _, h3⟩ := C42_endianness demoGates demoGates_qubits (fun _ => 0) bits r demoGates_ops
  exact ⟨wb, wl, h1, h2, h3 _⟩
example (bits : Nat → Option Bool) (r : Nat → Record) : ∃ w, simulate (fun _ => 1 / 2) demo false bits r = .ok (some w) ∧
    (w.mem.map Complex.normSq).sum = 1 := by
  obtain ⟨w, h1, _, h3⟩ := C44_measurements demo demo_qubits (fun _ => 1 / 2) bits r demo_ops half_uniform
  exact ⟨w, h1, h3⟩

/-! ## C45, C46: measurement -/

section
variable {n : Nat}

/-- **C45.** Sampling qubit `t` of a normalised state: the outcome is 0 exactly if the random number is below the
probability of 0; without collapse the state is unchanged, with collapse it becomes the normalised projection. -/
theorem C45_born (hn : n ≤ 30) (le : Bool) {mem : List ℂ} {ψ : State n ℂ} (hm : Stores le mem ψ) (h1 : Spec.normSq ψ = 1)
    (t : Fin n) {r : ℝ} (h0 : 0 ≤ r) (hr : r < 1) :
    ∃ m : Bool, (m = false ↔ r < born t false ψ) ∧ 0 < born t m ψ ∧
      sampleQubit t.val mem r false le = .ok ((m.toNat : Int), mem) ∧
      ∃ mem', sampleQubit t.val mem r true le = .ok ((m.toNat : Int), mem') ∧ Stores le mem' (project t m ψ) ∧
        Spec.normSq (project t m ψ) = 1 := by
  obtain ⟨e1, mem', e2, e3, e4, e5⟩ := sampleQubit_ok hn le hm h1 t h0 hr
  exact ⟨outcome t ψ r, outcome_false, e5, e1, mem', e2, e3, e4⟩

/-- The probabilities of the two outcomes add up to 1. -/
theorem C45_total (t : Fin n) (ψ : State n ℂ) (h1 : Spec.normSq ψ = 1) : born t false ψ + born t true ψ = 1 := by
  rw [born_add, h1]

/-- **C46.** Measuring the same qubit twice gives the same result, and the second measurement does not change the state. -/
theorem C46_repeat (hn : n ≤ 30) (le : Bool) {mem : List ℂ} {ψ : State n ℂ} (hm : Stores le mem ψ) (h1 : Spec.normSq ψ = 1)
    (t : Fin n) {r r' : ℝ} (h0 : 0 ≤ r) (hr : r < 1) (h0' : 0 ≤ r') (hr' : r' < 1) :
    ∃ m mem', sampleQubit t.val mem r true le = .ok (m, mem') ∧ sampleQubit t.val mem' r' true le = .ok (m, mem') := by
  obtain ⟨_, mem', e2, e3, e4, e5⟩ := sampleQubit_ok hn le hm h1 t h0 hr
  obtain ⟨_, mem'', f2, f3, _, _⟩ := sampleQubit_ok hn le e3 e4 t h0' hr'
  have ho := outcome_again t _ ψ e5 h0' hr'
  rw [ho] at f2 f3
  rw [project_project t _ ψ e5] at f3
  rw [Stores.mem_eq f3 e3] at f2
  exact ⟨_, mem', e2, f2⟩

/-- **C46.** A measurement operation on several qubits: the bits receive the values of the qubits in some basis state that had
a nonzero amplitude; afterwards only basis states with these values have a nonzero amplitude; and measuring the same
qubits again (with any random numbers) gives the same values and leaves the state unchanged. -/
theorem C46_operation (hn : n ≤ 30) (u u' : Nat → ℝ) (hu : Uniform u) (hu' : Uniform u') (op op' : SOp)
    (hk : op.kind = .measurement) (hk' : op'.kind = .measurement) (hc : op.cond = none) (hc' : op'.cond = none)
    (ts : List (Fin n)) {bs bs' : List Nat} (hb : op.bits = some bs) (hb' : op'.bits = some bs') (hl : bs.length = ts.length)
    (hl' : bs'.length = ts.length) (hnd : bs.Nodup) (hnd' : bs'.Nodup) (w : World) {ψ : State n ℂ} (hm : Stores false w.mem ψ)
    (h1 : Spec.normSq ψ = 1) :
    ∃ w1 ψ1 x w2, applyInstruction u n op (ts.map Fin.val) false false w = .ok w1 ∧ Stores false w1.mem ψ1 ∧ ψ x ≠ 0 ∧
      bs.map w1.bits = ts.map (fun t => some (x t)) ∧ (∀ y, ψ1 y ≠ 0 → ∀ t ∈ ts, y t = x t) ∧
      applyInstruction u' n op' (ts.map Fin.val) false false w1 = .ok w2 ∧ w2.mem = w1.mem ∧
      bs'.map w2.bits = ts.map (fun t => some (x t)) := by
  have nb : ∀ (o : SOp), o.cond = none → ∀ b, isBlocked o b = false := by
    intro o ho b; simp [isBlocked, ho]
  have run : ∀ (v : Nat → ℝ) (hv : Uniform v) (o : SOp), o.kind = .measurement → o.cond = none → ∀ (w : World) (φ : State n ℂ),
      Stores false w.mem φ → Spec.normSq φ = 1 → ∃ w', applyInstruction v n o (ts.map Fin.val) false false w = .ok w' ∧
        Stores false w'.mem (measureAll v ts w.drawn φ).2 ∧
        w'.bits = writeBits w.bits ((o.bits.getD []).zip (measureAll v ts w.drawn φ).1) := by
    intro v hv o ho ho' w φ hmw hφ
    obtain ⟨mem', e1, e2, _⟩ := measureLoop_ok hn v hv o ts 0
      { w with records := Function.update w.records o.oid { (w.records o.oid) with state := some w.mem } } φ hmw hφ
    have h : applyInstruction v n o (ts.map Fin.val) false false w = Sim.measure v o (ts.map Fin.val) w := by
      unfold applyInstruction
      rw [nb o ho', ho]
      rfl
    unfold Sim.measure at h
    rw [e1] at h
    exact ⟨_, h, e2, rfl⟩
  obtain ⟨w1, e1, e2, e3⟩ := run u hu op hk hc w ψ hm h1
  obtain ⟨hlen, hnorm, hsup⟩ := measureAll_support u hu ts w.drawn ψ h1
  obtain ⟨x, hx⟩ := exists_support _ hnorm
  obtain ⟨w2, f1, f2, f3⟩ := run u' hu' op' hk' hc' w1 _ e2 hnorm
  have hag := measureAll_again u u' hu hu' ts w.drawn w1.drawn h1
  rw [hag] at f2 f3
  have hxs := (hsup x hx).2
  refine ⟨w1, _, x, w2, e1, e2, (hsup x hx).1, ?_, ?_, f1, Stores.mem_eq f2 e2, ?_⟩
  · rw [e3, hb, Option.getD_some, writeBits_get _ _ _ hnd (by rw [hlen, hl]), hxs, List.map_map]; rfl
  · intro y hy t ht
    have h3 := (hsup y hy).2
    rw [hxs] at h3
    exact ((List.map_inj_left.1 h3) t ht).symm
  · rw [f3, hb', Option.getD_some, writeBits_get _ _ _ hnd' (by rw [hlen, hl']), hxs, List.map_map]; rfl

/-! ## C70: operator sets -/

theorem complete_used (ops : List (Nat → Nat → ℂ)) (hops : ops = measurementOps ∨ ops = dephaseOps ∨ ops = ampDampOps) : Complete ops := by
  have hs1 : ((Real.sqrt (1 - 1 / 100) : ℝ) : ℂ) * ((Real.sqrt (1 - 1 / 100) : ℝ) : ℂ) = 99 / 100 := by
    rw [← ofReal_mul, Real.mul_self_sqrt (by norm_num)]; push_cast; norm_num
  have hs2 : ((Real.sqrt (1 / 100) : ℝ) : ℂ) * ((Real.sqrt (1 / 100) : ℝ) : ℂ) = 1 / 100 := by
    rw [← ofReal_mul, Real.mul_self_sqrt (by norm_num)]; push_cast; norm_num
  have hstar : ∀ x : ℝ, star ((x : ℝ) : ℂ) = ((x : ℝ) : ℂ) := fun x => Complex.conj_ofReal x
  rcases hops with rfl | rfl | rfl
  · exact complete_measurement
  · intro a b
    generalize hA : ((Real.sqrt (1 - 1 / 100) : ℝ) : ℂ) = A at hs1
    generalize hB : ((Real.sqrt (1 / 100) : ℝ) : ℂ) = B at hs2
    have sA : star A = A := by rw [← hA]; exact hstar _
    have sB : star B = B := by rw [← hB]; exact hstar _
    cases a <;> cases b <;>
      simp only [dephaseOps, List.map_cons, List.map_nil, List.sum_cons, List.sum_nil, Fintype.sum_bool, bitMat, dephase0,
        dephase1, Bool.toNat_true, Bool.toNat_false, hA, hB] <;> norm_num [sA, sB, hs1, hs2]
  · intro a b
    generalize hA : ((Real.sqrt (1 - 1 / 100) : ℝ) : ℂ) = A at hs1
    generalize hB : ((Real.sqrt (1 / 100) : ℝ) : ℂ) = B at hs2
    have sA : star A = A := by rw [← hA]; exact hstar _
    have sB : star B = B := by rw [← hB]; exact hstar _
    cases a <;> cases b <;>
      simp only [ampDampOps, List.map_cons, List.map_nil, List.sum_cons, List.sum_nil, Fintype.sum_bool, bitMat, ampDamp0,
        ampDamp1, Bool.toNat_true, Bool.toNat_false, hA, hB] <;> norm_num [sA, sB, hs1, hs2]

/-- **C70.** The operator sets for which code is generated (measurement, dephasing, amplitude damping): operator `i` is chosen
exactly if the random number lies in the i-th of the consecutive intervals whose lengths are the probabilities of the
operators; then the state becomes the normalised result of operator `i` (or stays as it is, if that is asked for). -/
theorem C70_operator_sets (hn : n ≤ 30) (ops : List (Nat → Nat → ℂ))
    (hops : ops = measurementOps ∨ ops = dephaseOps ∨ ops = ampDampOps) (le : Bool) {mem : List ℂ} {ψ : State n ℂ}
    (hm : Stores le mem ψ) (h1 : Spec.normSq ψ = 1) (t : Fin n) {r : ℝ} (h0 : 0 ≤ r) (hr : r < 1) :
    ∃ i, ∃ h : i < ops.length, Selects (ops.map (prob t ψ)) r i ∧ opSet ops le false n mem t.val r = .ok ((i : Int), mem) ∧
      ∃ mem', opSet ops le true n mem t.val r = .ok ((i : Int), mem') ∧ Stores le mem' (collapsed t ψ ops[i]) ∧
        Spec.normSq (collapsed t ψ ops[i]) = 1 := by
  exact opSet_ok hn (complete_used ops hops) le hm h1 t h0 hr

end

/-- The state after the gates of the example circuit meets the hypotheses of C45, C46 and C70 (for the second qubit, and for
all three). -/
example (bits : Nat → Option Bool) (r : Nat → Record) : ∃ w, simulate (fun _ => 0) demoGates false bits r = .ok (some w) ∧
    (∃ m mem', sampleQubit 1 w.mem (1 / 3) true false = .ok (m, mem') ∧ sampleQubit 1 mem' (1 / 5) true false = .ok (m, mem')) ∧
    (∃ i, opSet ampDampOps false false 3 w.mem 1 (1 / 3) = .ok (i, w.mem)) ∧
    ∃ w1 x w2, applyInstruction (fun _ => 1 / 2) 3 { oid := 9, kind := .measurement, qubits := [12, 10], bits := some [5, 6] } [2, 0]
        false false w = .ok w1 ∧ [w1.bits 5, w1.bits 6] = [some x, some (!x)] ∨ [w1.bits 5, w1.bits 6] = [some x, some x] ∧
      applyInstruction (fun _ => 1 / 3) 3 { oid := 9, kind := .measurement, qubits := [12, 10], bits := some [7, 6] } [2, 0]
        false false w1 = .ok w2 ∧ w2.mem = w1.mem := by
  obtain ⟨w, s, e1, e2, e3, e4, e5⟩ := simulate_gates demoGates_qubits demoGates_ops (fun _ => 0) false bits r
  refine ⟨w, e1, C46_repeat (n := 3) (by decide) false e3 e5 ⟨1, by decide⟩ (by norm_num) (by norm_num) (by norm_num) (by norm_num), ?_, ?_⟩
  · obtain ⟨i, _, _, h, _⟩ := C70_operator_sets (n := 3) (by decide) ampDampOps (.inr (.inr rfl)) false e3 e5 ⟨1, by decide⟩
      (r := 1 / 3) (by norm_num) (by norm_num)
    exact ⟨_, h⟩
  · obtain ⟨w1, _, x, w2, h1, _, _, h2, _, h3, h4, _⟩ := C46_operation (n := 3) (by decide) (fun _ => 1 / 2) (fun _ => 1 / 3)
      half_uniform (fun _ => by norm_num) { oid := 9, kind := .measurement, qubits := [12, 10], bits := some [5, 6] }
      { oid := 9, kind := .measurement, qubits := [12, 10], bits := some [7, 6] } rfl rfl rfl rfl [⟨2, by decide⟩, ⟨0, by decide⟩]
      rfl rfl rfl rfl (by decide) (by decide) w e3 e5
    refine ⟨w1, x ⟨2, by decide⟩, w2, ?_⟩
    simp only [List.map_cons, List.map_nil] at h2 h1 h3
    by_cases hx : x ⟨2, by decide⟩ = x ⟨0, by decide⟩
    · exact .inr ⟨by rw [h2, hx], h3, h4⟩
    · refine .inl ⟨h1, ?_⟩
      rw [h2, Bool.eq_not.2 hx, Bool.not_not]

/-! ## C48: conditional operations -/

/-- **C48.** An operation of any kind with a condition has no effect at all if one of its condition bits has the value 0;
otherwise it does what the same operation does without the condition. -/
theorem C48_conditional (u : Nat → ℝ) (n : Nat) (op : SOp) (targets : List Nat) (le conj : Bool) (w : World) :
    (Blocked op w.bits → applyInstruction u n op targets le conj w = .ok w) ∧
    (¬ Blocked op w.bits → applyInstruction u n op targets le conj w =
      applyInstruction u n { op with cond := none } targets le conj w) := by
  refine ⟨fun h => apply_blocked _ _ _ _ _ _ _ ((isBlocked_iff _ _).2 h), fun h => ?_⟩
  have h1 := (isBlocked_false_iff _ _).2 h
  have hm : ∀ (ts : List Nat) (i : Nat) (w : World), measureLoop u op ts i w = measureLoop u { op with cond := none } ts i w := by
    intro ts
    induction ts with
    | nil => intro i w; rfl
    | cons t ts ih =>
      intro i w
      unfold measureLoop
      exact bind_congr (fun r => ih _ _)
  have h2 : isBlocked { op with cond := none } w.bits = false := rfl
  have h3 : Sim.measure u op targets w = Sim.measure u { op with cond := none } targets w := hm _ _ _
  obtain ⟨oid, kind, qubits, cond, bits⟩ := op
  unfold applyInstruction
  rw [h1, h2]
  cases kind with
  | measurement => simp only [Bool.false_eq_true, if_false, h3]
  | _ => rfl

example : Blocked { oid := 0, kind := .single .x, qubits := [0], cond := some [3, 4] } (fun b => if b = 4 then some false else none) :=
  ⟨[3, 4], 4, rfl, by decide, rfl⟩
/-- An unset bit does not block. -/
example : ¬ Blocked { oid := 0, kind := .single .x, qubits := [0], cond := some [3, 4] } (fun b => if b = 4 then some true else none) := by
  rintro ⟨bs, b, h, hb, hf⟩
  cases h
  simp only [List.mem_cons, List.not_mem_nil, or_false] at hb
  rcases hb with rfl | rfl <;> simp at hf

/-! ## C52: commuting operations -/

/-- **C52.** Exchanging two adjacent gates of a circuit that act on disjoint qubits does not change the result, whatever comes
before and after (also measurements and conditional operations). -/
theorem C52_disjoint_commute (qubits : List Nat) (pre post : List SOp) (a b : SOp) (u : Nat → ℝ) (hu : Uniform u)
    (bits : Nat → Option Bool) (records : Nat → Record) (hq : GoodQubits ⟨qubits, pre ++ a :: b :: post⟩)
    (hops : ∀ op ∈ pre ++ post, GateOp ⟨qubits, pre ++ a :: b :: post⟩ op ∨ MeasureOp ⟨qubits, pre ++ a :: b :: post⟩ op)
    (ha : GateOp ⟨qubits, pre ++ a :: b :: post⟩ a) (hb : GateOp ⟨qubits, pre ++ a :: b :: post⟩ b)
    (hd : ∀ q ∈ a.qubits, q ∉ b.qubits) :
    ∃ w w', simulate u ⟨qubits, pre ++ a :: b :: post⟩ false bits records = .ok (some w) ∧
      simulate u ⟨qubits, pre ++ b :: a :: post⟩ false bits records = .ok (some w') ∧ w.mem = w'.mem ∧ w.bits = w'.bits := by
  have all : ∀ op ∈ pre ++ a :: b :: post, GateOp ⟨qubits, pre ++ a :: b :: post⟩ op ∨ MeasureOp ⟨qubits, pre ++ a :: b :: post⟩ op := by
    intro op hop
    rcases List.mem_append.1 hop with h | h
    · exact hops op (by simp [h])
    · rcases List.mem_cons.1 h with rfl | h
      · exact .inl ha
      · rcases List.mem_cons.1 h with rfl | h
        · exact .inl hb
        · exact hops op (by simp [h])
  obtain ⟨w, s, e1, e2, e3, e4, _⟩ := simulate_all hq all u hu bits records
  have hq' : GoodQubits ⟨qubits, pre ++ b :: a :: post⟩ := hq
  have all' : ∀ op ∈ pre ++ b :: a :: post, GateOp ⟨qubits, pre ++ b :: a :: post⟩ op ∨ MeasureOp ⟨qubits, pre ++ b :: a :: post⟩ op := by
    intro op hop
    exact all op (by
      simp only [List.mem_append, List.mem_cons] at hop ⊢
      tauto)
  obtain ⟨w', s', e1', e2', e3', e4', _⟩ := simulate_all hq' all' u hu bits records
  -- exchange in the semantics
  have f : Exec ⟨qubits, pre ++ a :: b :: post⟩ u (pre ++ ([b, a] ++ post)) ⟨zeroState _, bits, 0⟩ s := by
    have e2' : Exec ⟨qubits, pre ++ a :: b :: post⟩ u (pre ++ ([a, b] ++ post)) ⟨zeroState _, bits, 0⟩ s := e2
    obtain ⟨s1, g1, g2⟩ := exec_append.1 e2'
    obtain ⟨s2, g3, g4⟩ := exec_append.1 g2
    exact exec_append.2 ⟨s1, g1, exec_append.2 ⟨s2, exec_swap hq.1 ha hb hd g3, g4⟩⟩
  have f' : Exec ⟨qubits, pre ++ b :: a :: post⟩ u (pre ++ b :: a :: post) ⟨zeroState _, bits, 0⟩ s :=
    exec_congr (c := ⟨qubits, pre ++ a :: b :: post⟩) (o := pre ++ b :: a :: post) f
  have := exec_det hq'.1 f' e2'
  subst this
  exact ⟨w, w', e1, e1', Stores.mem_eq e3 e3', e4.trans e4'.symm⟩

/-- Operations 2 (CX 10 11) and `X 12` commute. -/
example (bits : Nat → Option Bool) (r : Nat → Record) : ∃ w w',
    simulate (fun _ => 1 / 2) ⟨[10, 11, 12], [{ oid := 1, kind := .single .hadamard, qubits := [10] }] ++
      { oid := 2, kind := .controlled 1 .x, qubits := [10, 11] } :: { oid := 3, kind := .single .x, qubits := [12] } :: []⟩ false bits r =
      .ok (some w) ∧
    simulate (fun _ => 1 / 2) ⟨[10, 11, 12], [{ oid := 1, kind := .single .hadamard, qubits := [10] }] ++
      { oid := 3, kind := .single .x, qubits := [12] } :: { oid := 2, kind := .controlled 1 .x, qubits := [10, 11] } :: []⟩ false bits r =
      .ok (some w') ∧ w.mem = w'.mem := by
  obtain ⟨w, w', h1, h2, h3, _⟩ := C52_disjoint_commute [10, 11, 12] [{ oid := 1, kind := .single .hadamard, qubits := [10] }] []
    { oid := 2, kind := .controlled 1 .x, qubits := [10, 11] } { oid := 3, kind := .single .x, qubits := [12] } (fun _ => 1 / 2)
    half_uniform bits r ⟨by decide, by decide, by decide⟩
    (by
      intro op hop
      simp only [List.append_nil, List.mem_cons, List.not_mem_nil, or_false] at hop
      subst hop
      exact .inl ⟨trivial, rfl, by decide, by decide⟩)
    ⟨⟨rfl, trivial⟩, rfl, by decide, by decide⟩ ⟨trivial, rfl, by decide, by decide⟩ (by decide)
  exact ⟨w, w', h1, h2, h3⟩

/-! ## C50, C51: density matrices -/

/-- **C50 (big-endian; the little-endian setting is ignored, see below).** The density-matrix simulation of a circuit of
library gates on at most 15 qubits gives the matrix with entries `ψ_i * conj ψ_j`, where ψ is the result of the
state-vector simulation. -/
theorem C50_density_partial (c : SCircuit) (hnd : c.qubits.Nodup) (h1 : 1 ≤ c.qubits.length) (hn : c.qubits.length ≤ 15)
    (hops : ∀ op ∈ c.ops, GateOp c op) (u : Nat → ℝ) (bits : Nat → Option Bool) (records : Nat → Record) :
    ∃ w v, simulate u c false bits records = .ok (some w) ∧ simulateMixed u c false bits records = .ok (some v) ∧
      v.mem.length = 2 ^ c.qubits.length * 2 ^ c.qubits.length ∧
      ∀ i j a b, w.mem[i]? = some a → w.mem[j]? = some b → v.mem[i * 2 ^ c.qubits.length + j]? = some (a * star b) := by
  obtain ⟨w, s, e1, e2, e3, _⟩ := simulate_gates ⟨hnd, h1, by omega⟩ hops u false bits records
  obtain ⟨v, s', f1, f2, f3, _⟩ := simulateMixed_ok hnd h1 hn hops u false bits records
  have := exec_det hnd e2 f2
  subst this
  refine ⟨w, v, e1, f1, by rw [f3.1, pow_add], ?_⟩
  intro i j a b hi hj
  obtain ⟨x, rfl, rfl⟩ := stores_get e3 hi
  obtain ⟨y, rfl, rfl⟩ := stores_get e3 hj
  exact stores_tensor_get f3 x y

/-- **C50 for both settings:** the density-matrix simulation always returns the big-endian matrix, whatever `little_endian` is; so with
`little_endian=True` its entries `(i, j)` are those that belong to the state vector with the bits of `i` and `j` reversed. -/
theorem C50_big_endian (c : SCircuit) (hnd : c.qubits.Nodup) (h1 : 1 ≤ c.qubits.length) (hn : c.qubits.length ≤ 15)
    (hops : ∀ op ∈ c.ops, GateOp c op) (u : Nat → ℝ) (le : Bool) (bits : Nat → Option Bool) (records : Nat → Record) :
    ∃ w v, simulate u c le bits records = .ok (some w) ∧ simulateMixed u c le bits records = .ok (some v) ∧
      ∀ x y : Basis c.qubits.length, ∃ a b, w.mem[index le x]? = some a ∧ w.mem[index le y]? = some b ∧
        v.mem[index false x * 2 ^ c.qubits.length + index false y]? = some (a * star b) := by
  obtain ⟨w, s, e1, e2, e3, _⟩ := simulate_gates ⟨hnd, h1, by omega⟩ hops u le bits records
  obtain ⟨v, s', f1, f2, f3, _⟩ := simulateMixed_ok hnd h1 hn hops u le bits records
  have := exec_det hnd e2 f2
  subst this
  exact ⟨w, v, e1, f1, fun x y => ⟨s.ψ x, s.ψ y, e3.2 x, e3.2 y, stores_tensor_get f3 x y⟩⟩

example (bits : Nat → Option Bool) (r : Nat → Record) : ∃ w v, simulate (fun _ => 0) demoGates true bits r = .ok (some w) ∧
    simulateMixed (fun _ => 0) demoGates true bits r = .ok (some v) := by
  obtain ⟨w, v, h1, h2, _⟩ := C50_big_endian demoGates demoGates_qubits.1 (by decide) (by decide) demoGates_ops (fun _ => 0) true bits r
  exact ⟨w, v, h1, h2⟩

example (bits : Nat → Option Bool) (r : Nat → Record) : ∃ w v, simulate (fun _ => 0) demoGates false bits r = .ok (some w) ∧
    simulateMixed (fun _ => 0) demoGates false bits r = .ok (some v) ∧
    ∀ a b, w.mem[0]? = some a → w.mem[7]? = some b → v.mem[7]? = some (a * star b) := by
  obtain ⟨w, v, h1, h2, _, h3⟩ := C50_density_partial demoGates demoGates_qubits.1 (by decide) (by decide) demoGates_ops (fun _ => 0) bits r
  exact ⟨w, v, h1, h2, fun a b ha hb => by simpa using h3 0 7 a b ha hb⟩

/-- `X` on qubit 0 of two qubits. -/
noncomputable def xOnFirst : SCircuit := ⟨[0, 1], [{ oid := 0, kind := .single .x, qubits := [0] }]⟩

/-- Its first qubit. -/
def first2 : Fin xOnFirst.qubits.length := ⟨0, by decide⟩

theorem xOnFirst_ops : ∀ op ∈ xOnFirst.ops, GateOp xOnFirst op := by
  intro op h
  simp only [xOnFirst, List.mem_cons, List.not_mem_nil, or_false] at h
  subst h
  exact ⟨trivial, rfl, by decide, by decide⟩

theorem xOnFirst_exec (u : Nat → ℝ) (bits : Nat → Option Bool) :
    Exec xOnFirst u xOnFirst.ops ⟨zeroState _, bits, 0⟩ ⟨basisState (Function.update (fun _ => false) first2 true), bits, 0⟩ := by
  obtain ⟨a, ha, _⟩ := cols_x
  have h := applyGate_x_basisState ha first2 (fun _ => false)
  have hg : GateAct (.single .x) [first2] (applyGate first2 (gateOf a)) := .single first2 ha
  have hs : Step xOnFirst u { oid := 0, kind := .single .x, qubits := [0] } ⟨zeroState _, bits, 0⟩
      ⟨applyGate first2 (gateOf a) (zeroState _), bits, 0⟩ :=
    .gate (c := xOnFirst) (s := ⟨zeroState _, bits, 0⟩) (ts := [first2]) (by rintro ⟨_, _, h, _⟩; cases h) rfl hg
  rw [zeroState_eq, h] at hs
  exact .cons hs .nil

/-- **C50 is violated for little_endian=True:** for `X` on the first of two qubits the state vector has its amplitude 1 at index
1 (binary 01), but the density matrix has 0 in entry (1, 1) (and 1 in entry (2, 2)). -/
theorem C50_little_endian_violated (u : Nat → ℝ) (bits : Nat → Option Bool) (records : Nat → Record) :
    ∃ w v, simulate u xOnFirst true bits records = .ok (some w) ∧ simulateMixed u xOnFirst true bits records = .ok (some v) ∧
      w.mem[1]? = some 1 ∧ v.mem[1 * 4 + 1]? = some 0 ∧ v.mem[2 * 4 + 2]? = some 1 := by
  have hnd : xOnFirst.qubits.Nodup := by decide
  obtain ⟨w, s, e1, e2, e3, _⟩ := simulate_gates (c := xOnFirst) ⟨hnd, by decide, by decide⟩ xOnFirst_ops u true bits records
  obtain ⟨v, s', f1, f2, f3, _⟩ := simulateMixed_ok hnd (by decide) (by decide) xOnFirst_ops u true bits records
  have h1 := exec_det hnd (xOnFirst_exec u bits) e2
  have h2 := exec_det hnd (xOnFirst_exec u bits) f2
  subst h1; subst h2
  refine ⟨w, v, e1, f1, ?_, ?_, ?_⟩
  · have := e3.2 (Function.update (fun _ => false) first2 true)
    have hi : index true (Function.update (fun _ => false) first2 true) = 1 := by decide +kernel
    rw [hi] at this
    rw [this]; simp [basisState]
  · have := stores_tensor_get f3 (Function.update (fun _ => true) first2 false) (Function.update (fun _ => true) first2 false)
    have hi : index false (Function.update (fun _ => true) first2 false) = 1 := by decide +kernel
    have hne : Function.update (fun _ => true) first2 false ≠ Function.update (fun _ => false) first2 true := by
      intro h
      have := congrFun h first2
      simp at this
    rw [hi] at this
    refine (show v.mem[1 * 4 + 1]? = _ from this).trans ?_
    simp [basisState, hne]
  · have := stores_tensor_get f3 (Function.update (fun _ => false) first2 true) (Function.update (fun _ => false) first2 true)
    have hi : index false (Function.update (fun _ => false) first2 true) = 2 := by decide +kernel
    rw [hi] at this
    refine (show v.mem[2 * 4 + 2]? = _ from this).trans ?_
    simp [basisState, conjState]

/-- **C51 (states with real amplitudes only).** `circuit.density_matrix` of a real state is |ψ><ψ|. What is missing: states with
complex amplitudes, for which the code omits the conjugation. -/
theorem C51_real_partial (state : List ℂ) (hr : ∀ a ∈ state, a.im = 0) (i j : Nat) (a b : ℂ) (hi : state[i]? = some a)
    (hj : state[j]? = some b) : densityEntry state i j = .ok (a * star b) := by
  have hb : star b = b := Complex.conj_eq_iff_im.2 (hr b (List.mem_of_getElem? hj))
  simp [densityEntry, hi, hj, hb]
  rfl

/-- **C51, exactly when.** `circuit.density_matrix` of a state is |ψ><ψ| if and only if all amplitudes are real (or all are 0, which no state is). -/
theorem C51_iff (state : List ℂ) :
    (∀ i j a b, state[i]? = some a → state[j]? = some b → densityEntry state i j = .ok (a * star b)) ↔
      (∀ a ∈ state, a.im = 0) ∨ ∀ a ∈ state, a = 0 := by
  constructor
  · intro h
    by_cases hz : ∀ a ∈ state, a = 0
    · exact .inr hz
    · left
      push Not at hz
      obtain ⟨a, ha, hne⟩ := hz
      obtain ⟨i, hi⟩ := List.getElem?_of_mem ha
      intro b hb
      obtain ⟨j, hj⟩ := List.getElem?_of_mem hb
      have h1 := h i j a b hi hj
      simp only [densityEntry, hi, hj] at h1
      have h2 : a * b = a * star b := Except.ok.inj h1
      exact Complex.conj_eq_iff_im.1 (mul_left_cancel₀ hne h2).symm
  · rintro (h | h) i j a b hi hj
    · exact C51_real_partial state h i j a b hi hj
    · have ha := h a (List.mem_of_getElem? hi)
      subst ha
      simp [densityEntry, hi, hj]
      rfl

/-- `H; S` on one qubit. -/
noncomputable def hThenS : SCircuit :=
  ⟨[0], [{ oid := 0, kind := .single .hadamard, qubits := [0] }, { oid := 1, kind := .single .s, qubits := [0] }]⟩

/-- Its qubit. -/
def only : Fin hThenS.qubits.length := ⟨0, by decide⟩

/-- **C51 is violated:** after simulating `H; S` the off-diagonal entries of `density_matrix` are not those of |ψ><ψ|, and
the matrix is not Hermitian. -/
theorem C51_conjugate_violated (u : Nat → ℝ) (bits : Nat → Option Bool) (records : Nat → Record) :
    ∃ w a b d d', simulate u hThenS false bits records = .ok (some w) ∧ w.mem[0]? = some a ∧ w.mem[1]? = some b ∧
      densityEntry w.mem 0 1 = .ok d ∧ densityEntry w.mem 1 0 = .ok d' ∧ d ≠ a * star b ∧ d' ≠ star d := by
  have hnd : hThenS.qubits.Nodup := by decide
  obtain ⟨hh, ha, _⟩ := library_cols (b := .hadamard) trivial
  obtain ⟨ss, hs, _⟩ := library_cols (b := .s) trivial
  obtain ⟨w, s, e1, e2, e3, _⟩ := simulate_gates (c := hThenS) ⟨hnd, by decide, by decide⟩ (by
    intro op h
    simp only [hThenS, List.mem_cons, List.not_mem_nil, or_false] at h
    rcases h with rfl | rfl <;> exact ⟨trivial, rfl, by decide, by decide⟩) u false bits records
  have ex : Exec hThenS u hThenS.ops ⟨zeroState _, bits, 0⟩
      ⟨applyGate only (gateOf ss) (applyGate only (gateOf hh) (zeroState _)), bits, 0⟩ := by
    refine .cons (.gate (c := hThenS) (s := ⟨zeroState _, bits, 0⟩) (ts := [only]) (by rintro ⟨_, _, h, _⟩; cases h) rfl (.single only ha)) ?_
    refine .cons (.gate (c := hThenS) (s := ⟨applyGate only (gateOf hh) (zeroState _), bits, 0⟩) (ts := [only])
      (by rintro ⟨_, _, h, _⟩; cases h) rfl (.single only hs)) .nil
  have := exec_det hnd ex e2
  subst this
  cases ha; cases hs
  generalize hr : ((Real.sqrt 2 / 2 : ℝ) : ℂ) = r at *
  have hr0 : r * r = 1 / 2 := by
    rw [← hr, ← ofReal_mul, show (Real.sqrt 2 / 2) * (Real.sqrt 2 / 2) = Real.sqrt 2 * Real.sqrt 2 / 4 by ring,
      Real.mul_self_sqrt (by norm_num)]
    push_cast; norm_num
  have hst : star r = r := by rw [← hr]; exact Complex.conj_ofReal _
  have i0 : index false (fun _ : Fin hThenS.qubits.length => false) = 0 := by decide +kernel
  have i1 : index false (fun _ : Fin hThenS.qubits.length => true) = 1 := by decide +kernel
  have u0 : ∀ b b' : Bool, Function.update (fun _ : Fin hThenS.qubits.length => b) only b' = fun _ => b' := by
    intro b b'
    funext i
    have : i = only := Subsingleton.elim (α := Fin 1) i only
    subst this; simp
  have hft : (fun _ : Fin hThenS.qubits.length => true) ≠ fun _ => false := fun h => by
    have := congrFun h only
    simp at this
  have v0 := e3.2 (fun _ => false)
  have v1 := e3.2 (fun _ => true)
  rw [show index false (fun _ : Fin hThenS.qubits.length => false) = 0 from i0] at v0
  rw [show index false (fun _ : Fin hThenS.qubits.length => true) = 1 from i1] at v1
  have w0 : w.mem[0]? = some r := by
    rw [v0]
    simp [applyGate, gateOf, zeroState, u0, hft]
  have w1 : w.mem[1]? = some (I * r) := by
    rw [v1]
    simp [applyGate, gateOf, zeroState, u0, hft]
  refine ⟨w, r, I * r, r * (I * r), I * r * r, e1, w0, w1, ?_, ?_, ?_, ?_⟩
  · simp only [densityEntry, w0, w1]; rfl
  · simp only [densityEntry, w0, w1]; rfl
  · intro h
    rw [star_mul', hst, show star I = -I from Complex.conj_I] at h
    have : I * (r * r) = 0 := by linear_combination h / 2
    rw [hr0] at this
    simp at this
  · intro h
    rw [star_mul', star_mul', hst, show star I = -I from Complex.conj_I] at h
    have : I * (r * r) = 0 := by linear_combination h / 2
    rw [hr0] at this
    simp at this

/-! ## C47: sampling -/

/-- **C47 (one simulation).** A measurement that is simulated for the first time records the state before the measurement and
its qubits. Sampling it, without arguments or with given qubits, any number of times, then leaves the record unchanged
and returns the requested number of rows, one bit per qubit; row `k` consists of the outcomes of measuring the qubits one
after the other in the recorded state, starting at random number `k * (number of qubits)`. What is missing: the second and
later simulations, see `C47_resimulation_violated`. -/
theorem C47_sample_partial {n : Nat} (hn : n ≤ 30) (u v : Nat → ℝ) (hu : Uniform u) (hv : Uniform v) (op : SOp)
    (hk : op.kind = .measurement) (hc : op.cond = none) (ts : List (Fin n)) (hts : ts ≠ []) (w : World) {ψ : State n ℂ}
    (hm : Stores false w.mem ψ) (h1 : Spec.normSq ψ = 1) (hfresh : (w.records op.oid).indices = []) :
    ∃ w', applyInstruction u n op (ts.map Fin.val) false false w = .ok w' ∧
      (w'.records op.oid).state = some w.mem ∧ (w'.records op.oid).indices = ts.map Fin.val ∧
      ∀ (qs : List (Fin n)) (arg : Option (List Int)) (num : Nat),
        (arg = none ∧ qs = ts ∨ qs ≠ [] ∧ arg = some (qs.map fun t : Fin n => (t.val : Int))) →
        sample v (w'.records op.oid) arg num = .ok ((List.range num).map (fun k =>
          (measureAll v qs (k * qs.length) ψ).1.map fun b => (b.toNat : Int)), w'.records op.oid) := by
  have h : applyInstruction u n op (ts.map Fin.val) false false w = Sim.measure u op (ts.map Fin.val) w := by
    unfold applyInstruction
    have : isBlocked op w.bits = false := by simp [isBlocked, hc]
    rw [this, hk]
    rfl
  unfold Sim.measure at h
  obtain ⟨mem', e1, _⟩ := measureLoop_ok hn u hu op ts 0
    { w with records := Function.update w.records op.oid { (w.records op.oid) with state := some w.mem } } ψ hm h1
  rw [e1] at h
  refine ⟨_, h, ?_, ?_, ?_⟩
  · simp
  · simp [hfresh]
  · intro qs arg num harg
    have hne : qs ≠ [] := by
      rcases harg with ⟨_, rfl⟩ | ⟨h, _⟩
      · exact hts
      · exact h
    have key : ∀ l : List Nat, sample v { state := some w.mem, indices := l } (some (qs.map fun t : Fin n => (t.val : Int))) num =
        .ok ((List.range num).map (fun k => (measureAll v qs (k * qs.length) ψ).1.map fun b => (b.toNat : Int)),
          { state := some w.mem, indices := l }) := by
      intro l
      unfold sample
      dsimp only
      have hlt : ¬ ∃ m, (qs.map fun t : Fin n => (t.val : Int)).max? = some m ∧ m ≥ (w.mem.length.log2 : Int) := by
        rw [max?_lt_iff, log2_length hm]
        rintro ⟨x, hx, hge⟩
        obtain ⟨t, _, rfl⟩ := List.mem_map.1 hx
        have := t.isLt
        omega
      cases hmax : (qs.map fun t : Fin n => (t.val : Int)).max? with
      | none =>
        rw [List.max?_eq_none_iff] at hmax
        exact absurd (List.map_eq_nil_iff.1 hmax) hne
      | some m =>
        dsimp only
        rw [if_neg (fun hge => hlt ⟨m, hmax, hge⟩), sampleLoop_ok hn v hv qs hm h1 num 0, ok_bind]
        simp only [Nat.zero_add]
        rfl
    have hnone : ∀ l : List Nat, sample v { state := some w.mem, indices := l } none num =
      sample v { state := some w.mem, indices := l } (some (l.map Int.ofNat)) num := fun _ => rfl
    simp only [Function.update_self, hfresh, List.nil_append]
    rcases harg with ⟨rfl, rfl⟩ | ⟨_, rfl⟩
    · rw [hnone, List.map_map]
      exact key _
    · exact key _

/-- A measurement of one qubit. -/
noncomputable def oneMeasurement : SCircuit := ⟨[0], [{ oid := 0, kind := .measurement, qubits := [0], bits := some [0] }]⟩

/-- **C47 is violated after a second simulation:** the measurement object of a one-qubit measurement then returns two values
per sample. -/
theorem C47_resimulation_violated (u v : Nat → ℝ) (hu : Uniform u) (hv : Uniform v) (bits : Nat → Option Bool) :
    ∃ w1 w2 a b r, simulate u oneMeasurement false bits (fun _ => {}) = .ok (some w1) ∧
      simulate u oneMeasurement false w1.bits w1.records = .ok (some w2) ∧
      sample v (w2.records 0) none 1 = .ok ([[a, b]], r) := by
  have run : ∀ (bits : Nat → Option Bool) (records : Nat → Record), ∃ w,
      simulate u oneMeasurement false bits records = .ok (some w) ∧
      w.records 0 = { state := some (initialState 1), indices := (records 0).indices ++ [0] } := by
    intro bits records
    obtain ⟨mem', e1, e2, e3⟩ := measureLoop_ok (n := 1) (by omega) u hu { oid := 0, kind := .measurement, qubits := [0], bits := some [0] }
      [0] 0 { mem := initialState 1, bits := bits, drawn := 0, records := (Function.update records 0
        ({ (records 0) with state := some (initialState 1) })) } (zeroState 1) (stores_initial false) normSq_zeroState
    obtain ⟨w, e1', hst, hrec⟩ : ∃ w : World, measureLoop u { oid := 0, kind := .measurement, qubits := [0], bits := some [0] } [0] 0
        { mem := initialState 1, bits := bits, drawn := 0, records := (Function.update records 0
          ({ (records 0) with state := some (initialState 1) })) } = .ok w ∧
        Stores false w.mem (measureAll u ([0] : List (Fin 1)) 0 (zeroState 1)).2 ∧
        w.records 0 = { state := some (initialState 1), indices := (records 0).indices ++ [0] } := ⟨_, e1, e2, by simp⟩
    have hloop : loop u oneMeasurement false { mem := initialState 1, bits := bits, drawn := 0, records := records } = .ok w := by
      have ht : targetsOf oneMeasurement { oid := 0, kind := .measurement, qubits := [0], bits := some [0] } = .ok [0] :=
        targetsOf_ok (c := oneMeasurement) (by decide) _ (ts := [⟨0, by decide⟩]) rfl
      unfold loop
      rw [show oneMeasurement.ops = [{ oid := 0, kind := .measurement, qubits := [0], bits := some [0] }] from rfl,
        List.foldlM_cons, ht, ok_bind]
      exact congrArg (· >>= pure) e1'
    exact ⟨w, simulate_of_loop (c := oneMeasurement) ⟨by decide, by decide, by decide⟩ hloop hst e3, hrec⟩
  obtain ⟨w1, h1, h2⟩ := run bits (fun _ => {})
  obtain ⟨w2, h3, h4⟩ := run w1.bits w1.records
  rw [h2] at h4
  obtain ⟨mem', hrow⟩ := sampleRow_ok (n := 1) (by omega) v hv [0, 0] 0 (initialState 1) (zeroState 1) (stores_initial false) normSq_zeroState
  have hlen : (initialState 1).length.log2 = 1 := log2_length (n := 1) (stores_initial false)
  have hm := measureAll_basisState v hv (fun _ : Fin 1 => false) [0, 0] 0
  rw [← zeroState_eq] at hm
  rw [hm] at hrow
  refine ⟨w1, w2, 0, 0, w2.records 0, h1, h3, ?_⟩
  rw [h4]
  unfold sample
  dsimp only
  have hmax : (List.map Int.ofNat ([] ++ [0] ++ [0])).max? = some 0 := by decide
  rw [hmax]
  dsimp only
  rw [hlen, if_neg (by decide)]
  have hr2 : sampleRow v (List.map Int.ofNat ([] ++ [0] ++ [0])) (initialState 1) 0 = .ok ([0, 0], mem', 2) := hrow
  simp only [sampleLoop, hr2, ok_bind, pure_ok]

/-! ## C49: reproducibility -/

/-- **C49 (conditions that read only measured bits).** If every condition bit of the circuit is written before by an
unconditional measurement, simulating again with the same random numbers gives the same state and the same bits, for
circuits with arbitrary operations and any bit values before the first simulation. What is missing: circuits whose
conditions read a bit that is not written before in the same simulation, see `C49_stale_bit_violated`. -/
theorem C49_reproducible_partial (u : Nat → ℝ) (c : SCircuit) (le : Bool) (hr : ReadsWritten ∅ c.ops)
    (bits : Nat → Option Bool) (records records' : Nat → Record) (w : World)
    (h : simulate u c le bits records = .ok (some w)) :
    ∃ w', simulate u c le w.bits records' = .ok (some w') ∧ w'.mem = w.mem ∧ w'.bits = w.bits :=
  simulate_again u c le hr bits records records' h

/-- The example circuit meets the hypothesis (its conditional operation reads bit 5, which is measured before). -/
example : ReadsWritten ∅ demo.ops := by
  refine .cons (by simp) (.cons (by simp) (.cons (by simp) (.cons (by simp) (.cons ?_ (.cons (by simp) (.cons (by simp) .nil))))))
  intro bs hbs b hb
  cases hbs
  simp at hb
  subst hb
  simp

/-- `X if bit 0; X; measure -> bit 0`. -/
noncomputable def flipper : SCircuit :=
  ⟨[0], [{ oid := 0, kind := .single .x, qubits := [0], cond := some [0] }, { oid := 1, kind := .single .x, qubits := [0] },
    { oid := 2, kind := .measurement, qubits := [0], bits := some [0] }]⟩

/-- **C49 is violated:** the second simulation of this circuit, with the same random numbers (whatever they are), gives another
state and another bit value, because the condition reads the value left over from the first simulation. -/
theorem C49_stale_bit_violated (u : Nat → ℝ) (hu : Uniform u) (records : Nat → Record) :
    ∃ w1 w2, simulate u flipper false (fun _ => none) records = .ok (some w1) ∧
      simulate u flipper false w1.bits w1.records = .ok (some w2) ∧ w1.mem ≠ w2.mem ∧ w1.bits 0 = some false ∧
      w2.bits 0 = some true := by
  let q : Fin flipper.qubits.length := ⟨0, by decide⟩
  have hnd : flipper.qubits.Nodup := by decide
  have hops : ∀ op ∈ flipper.ops, GateOp flipper op ∨ MeasureOp flipper op := by
    intro op h
    simp only [flipper, List.mem_cons, List.not_mem_nil, or_false] at h
    rcases h with rfl | rfl | rfl
    · exact .inl ⟨trivial, rfl, by decide, by decide⟩
    · exact .inl ⟨trivial, rfl, by decide, by decide⟩
    · exact .inr ⟨rfl, by decide⟩
  obtain ⟨a, ha, _⟩ := cols_x
  have hg : GateAct (.single .x) [q] (applyGate q (gateOf a)) := .single q ha
  have hx : ∀ b : Bool, applyGate q (gateOf a) (basisState fun _ => b) = basisState fun _ => !b := by
    intro b
    rw [applyGate_x_basisState ha]
    congr 1
    funext i
    have : i = q := Subsingleton.elim (α := Fin 1) i q
    subst this; simp
  -- the three operations
  have fin : ∀ (bits : Nat → Option Bool) (b : Bool),
      Exec flipper u [{ oid := 1, kind := .single .x, qubits := [0] }, { oid := 2, kind := .measurement, qubits := [0], bits := some [0] }]
        ⟨basisState fun _ => b, bits, 0⟩ ⟨basisState fun _ => !b, Function.update bits 0 (some !b), 1⟩ := by
    intro bits b
    have s1 : Step flipper u { oid := 1, kind := .single .x, qubits := [0] } ⟨basisState fun _ => b, bits, 0⟩
        ⟨applyGate q (gateOf a) (basisState fun _ => b), bits, 0⟩ :=
      .gate (c := flipper) (s := ⟨basisState fun _ => b, bits, 0⟩) (ts := [q]) (by rintro ⟨_, _, h, _⟩; cases h) rfl hg
    rw [hx] at s1
    have s2 : Step flipper u { oid := 2, kind := .measurement, qubits := [0], bits := some [0] } ⟨basisState fun _ => !b, bits, 0⟩ _ :=
      .measure (c := flipper) (s := ⟨basisState fun _ => !b, bits, 0⟩) (ts := [q]) (by rintro ⟨_, _, h, _⟩; cases h) rfl rfl
    dsimp only at s2
    rw [measureAll_basisState u hu] at s2
    exact .cons s1 (.cons s2 .nil)
  have ex1 : Exec flipper u flipper.ops ⟨zeroState _, fun _ => none, 0⟩
      ⟨basisState fun _ => false, Function.update (fun _ => none) 0 (some false), 1⟩ := by
    have s0 : Step flipper u { oid := 0, kind := .single .x, qubits := [0], cond := some [0] } ⟨zeroState _, fun _ => none, 0⟩
        ⟨applyGate q (gateOf a) (zeroState _), fun _ => none, 0⟩ :=
      .gate (c := flipper) (s := ⟨zeroState _, fun _ => none, 0⟩) (ts := [q]) (by rintro ⟨_, _, _, _, h⟩; cases h) rfl hg
    rw [zeroState_eq, hx] at s0
    exact .cons s0 (fin _ true)
  have ex2 : ∀ bits : Nat → Option Bool, bits 0 = some false → Exec flipper u flipper.ops ⟨zeroState _, bits, 0⟩
      ⟨basisState fun _ => true, Function.update bits 0 (some true), 1⟩ := by
    intro bits hb
    have s0 : Step flipper u { oid := 0, kind := .single .x, qubits := [0], cond := some [0] } ⟨zeroState _, bits, 0⟩ ⟨zeroState _, bits, 0⟩ :=
      .blocked ⟨[0], 0, rfl, by decide, hb⟩
    rw [zeroState_eq] at s0
    exact .cons s0 (fin _ false)
  obtain ⟨w1, t1, e1, e2, e3, e4, _⟩ := simulate_all (c := flipper) ⟨hnd, by decide, by decide⟩ hops u hu (fun _ => none) records
  have h1 := exec_det hnd ex1 e2
  subst h1
  have hb1 : w1.bits 0 = some false := by rw [e4]; simp
  obtain ⟨w2, t2, f1, f2, f3, f4, _⟩ := simulate_all (c := flipper) ⟨hnd, by decide, by decide⟩ hops u hu w1.bits w1.records
  have h2 := exec_det hnd (ex2 w1.bits hb1) f2
  subst h2
  refine ⟨w1, w2, e1, f1, ?_, hb1, by rw [f4]; simp⟩
  intro he
  rw [he] at e3
  have := congrFun (Stores.eq e3 f3) (fun _ => false)
  have hne : (fun _ : Fin flipper.qubits.length => false) ≠ fun _ => true := fun h => by
    have := congrFun h q
    simp at this
  simp [basisState, hne] at this

/-! ## C71-C74, C77: operations outside the library, and refusals -/

section
variable {n : Nat}

/-- The array with rows and columns exchanged. -/
def transposed (a : Arr2) : Arr2 := { a with e01 := a.e10, e10 := a.e01 }

/-- **C71 (C-ordered arrays).** A user-defined single-qubit operation whose matrix property returns a C-ordered complex array
acts as that matrix; likewise as target of a controlled operation with one or two controls. What is missing: arrays with
Fortran memory order and real dtype, see below. -/
theorem C71_user_matrix_partial (hn : n ≤ 30) (u : Nat → ℝ) (op : SOp) (a : Arr2) (hco : a.cOrder = true)
    (hct : a.complexType = true) (nc : Nat) (hk : op.kind = .single (.user a) ∨ op.kind = .controlled nc (.user a))
    {ts : List (Fin n)} {f : State n ℂ → State n ℂ} (hf : GateAct op.kind ts f) (le : Bool) (w : World) {ψ : State n ℂ}
    (hm : Stores le w.mem ψ) (hb : ¬ Blocked op w.bits) :
    ∃ mem', applyInstruction u n op (ts.map Fin.val) le false w = .ok { w with mem := mem' } ∧ Stores le mem' (f ψ) := by
  have hus : usable op.kind := by
    rcases hk with h | h <;> rw [h] <;> intro a' ha' <;> cases ha' <;> exact ⟨hco, hct⟩
  exact apply_gate_ok hn u op hf hus le false w hm ((isBlocked_false_iff _ _).2 hb)

/-- **C71 is violated for Fortran-ordered arrays:** the transposed matrix is applied. -/
theorem C71_fortran_order_violated (hn : n ≤ 30) (u : Nat → ℝ) (a : Arr2) (hco : a.cOrder = false) (hct : a.complexType = true)
    (t : Fin n) (oid : Nat) (qs : List Nat) (le : Bool) (w : World) {ψ : State n ℂ} (hm : Stores le w.mem ψ) :
    ∃ mem', applyInstruction u n { oid := oid, kind := .single (.user a), qubits := qs } [t.val] le false w =
        .ok { w with mem := mem' } ∧ Stores le mem' (applyGate t (fun i j => gateOf a j i) ψ) := by
  have hus : usable (.single (.user { transposed a with cOrder := true })) := by
    intro a' ha'; cases ha'; exact ⟨rfl, hct⟩
  obtain ⟨mem', h1, h2⟩ := apply_gate_ok hn u
    { oid := oid, kind := .single (.user { transposed a with cOrder := true }), qubits := qs }
    (ts := [t]) (.single t rfl) hus le false w hm rfl
  refine ⟨mem', ?_, ?_⟩
  · rw [← h1]
    have : gateArray (.user a) false = gateArray (.user { transposed a with cOrder := true }) false := by
      simp [gateArray, Base.matrix, memview, hct, Arr2.buffer, hco, transposed, bind, Except.bind]
    unfold applyInstruction
    simp only [this]
    rfl
  · have : (fun i j => gateOf a j i) = gateOf { transposed a with cOrder := true } := by
      funext i j; cases i <;> cases j <;> rfl
    rw [this]
    exact h2

/-- The two maps differ: for the Pauli matrix Y. -/
example : (fun i j => gateOf ⟨0, -I, I, 0, false, true⟩ j i) ≠ gateOf ⟨0, -I, I, 0, false, true⟩ := by
  intro h
  have := congrFun (congrFun h true) false
  simp only [gateOf] at this
  have h2 := congrArg Complex.im this
  simp at h2
  linarith

/-- A real array is refused. -/
theorem C71_real_array_refused (u : Nat → ℝ) (a : Arr2) (hct : a.complexType = false) (oid : Nat) (qs ts : List Nat) (le cj : Bool) (w : World) :
    applyInstruction u n { oid := oid, kind := .single (.user a), qubits := qs } ts le cj w = .error .valueError := by
  have : gateArray (.user a) cj = .error .valueError := by
    cases cj <;> simp [gateArray, Base.matrix, memview, hct, Arr2.conj, bind, Except.bind]
  unfold applyInstruction
  simp only [this, err_bind]
  rfl

/-- **C72 is violated:** a controlled operation with a number of controls other than 1 and 2 has no effect in simulation. (For 1
and 2 controls see `C71_user_matrix_partial` and C75.) -/
theorem C72_many_controls_violated (u : Nat → ℝ) (nc : Nat) (h1 : nc ≠ 1) (h2 : nc ≠ 2) (b : Base) (hb : Library b) (oid : Nat)
    (qs ts : List Nat) (le : Bool) (w : World) :
    applyInstruction u n { oid := oid, kind := .controlled nc b, qubits := qs } ts le false w = .ok w := by
  obtain ⟨a, ha, h3, h4, _⟩ := library_cols hb
  have hg := gateArray_ok ha h3 h4 false
  unfold applyInstruction
  simp only [hg, ok_bind, if_neg h1, if_neg h2]
  rfl

/-- **C72 for 1 and 2 controls.** A controlled operation with one or two controls acts as the controlled gate. What is missing:
other numbers of controls. -/
theorem C72_controls_partial (hn : n ≤ 30) (u : Nat → ℝ) (op : SOp) (nc : Nat) (b : Base) (hk : op.kind = .controlled nc b)
    (hb : Library b) {ts : List (Fin n)} {f : State n ℂ → State n ℂ} (hf : GateAct op.kind ts f) (le : Bool) (w : World)
    {ψ : State n ℂ} (hm : Stores le w.mem ψ) (hbl : ¬ Blocked op w.bits) :
    ∃ mem', applyInstruction u n op (ts.map Fin.val) le false w = .ok { w with mem := mem' } ∧ Stores le mem' (f ψ) := by
  have hus : usable op.kind := by rw [hk]; exact usable_of_library hb
  exact apply_gate_ok hn u op hf hus le false w hm ((isBlocked_false_iff _ _).2 hbl)

example : GateAct (n := 3) (.controlled 2 (.user ⟨1, 0, 0, I, true, true⟩)) [0, 1, 2] (applyControlled [0, 1] 2 (gateOf ⟨1, 0, 0, I, true, true⟩)) :=
  .controlled2 0 1 2 rfl (by decide) (by decide) (by decide)

/-- **C73 is violated:** a circuit that contains a barrier cannot be simulated. -/
theorem C73_barrier_violated (u : Nat → ℝ) (c : SCircuit) (le : Bool) (bits : Nat → Option Bool) (records : Nat → Record)
    (op : SOp) (hop : op ∈ c.ops) (hk : op.kind = .barrier) (hc : op.cond = none) (h1 : c.qubits ≠ []) :
    ∃ e, simulate u c le bits records = .error e := by
  have hlen : c.qubits.length ≠ 0 := by simpa using h1
  unfold simulate
  rw [if_neg hlen]
  unfold loop
  obtain ⟨e, he⟩ := foldlM_error (fun (w : World) (op : SOp) => do
    let targets ← targetsOf c op
    applyInstruction u c.qubits.length op targets le false w) (fun r => ∃ e, r = .error e) (fun _ h => h) (a := op) (by
      intro w
      cases targetsOf c op with
      | error e => exact ⟨e, rfl⟩
      | ok ts =>
        rw [ok_bind]
        unfold applyInstruction
        have : isBlocked op w.bits = false := by simp [isBlocked, hc]
        rw [this, hk]
        simp only [Bool.false_eq_true, if_false]
        split
        · exact ⟨_, rfl⟩
        · exact ⟨_, rfl⟩) c.ops { mem := initialState c.qubits.length, bits := bits, drawn := 0, records := records } hop
  rw [he, err_bind]
  exact ⟨e, rfl⟩

/-- **C74 is violated in the simulator:** a controlled gate whose control and target are the same qubit is not refused. -/
theorem C74_repeated_qubit_violated (hn : n ≤ 30) (u : Nat → ℝ) (b : Base) (hb : Library b) (oid : Nat) (qs : List Nat) (q : Fin n)
    (le : Bool) (w : World) (hm : w.mem.length = 2 ^ n) :
    ∃ w', applyInstruction u n { oid := oid, kind := .controlled 1 b, qubits := qs } [q.val, q.val] le false w = .ok w' := by
  obtain ⟨a, ha, h3, h4, _⟩ := library_cols hb
  have hg := gateArray_ok ha h3 h4 false
  obtain ⟨norm, mem', h, _⟩ := C40_memory_safe_partial Complex.normSq (gateControl (R := ℂ)) le hn [q] [q] rfl rfl
    [(conjIf false a).e00, (conjIf false a).e01, (conjIf false a).e10, (conjIf false a).e11] (fun _ => (by decide : 2 ^ 1 * 2 ^ 1 ≤ 4)) 1 w.mem hm
  refine ⟨{ w with mem := mem' }, ?_⟩
  have hcall : callKernel gateControl le n w.mem
      [(conjIf false a).e00, (conjIf false a).e01, (conjIf false a).e10, (conjIf false a).e11] [q.val] [q.val] = .ok mem' := by
    unfold callKernel
    rw [show ([q.val].map (BitVec.ofNat 64)) = [q].map q64 from rfl, h]
    rfl
  unfold applyInstruction
  simp only [hg, ok_bind, item0, item1, if_true, hcall]
  rfl

/-- **C77.** A little-endian simulation never returns a result for a circuit with a measurement (that is not conditional). -/
theorem C77_little_endian_measurement (u : Nat → ℝ) (c : SCircuit) (bits : Nat → Option Bool) (records : Nat → Record)
    (op : SOp) (hop : op ∈ c.ops) (hk : op.kind = .measurement) (hc : op.cond = none) (h1 : c.qubits ≠ []) :
    ∃ e, simulate u c true bits records = .error e := by
  have hlen : c.qubits.length ≠ 0 := by simpa using h1
  unfold simulate
  rw [if_neg hlen]
  unfold loop
  obtain ⟨e, he⟩ := foldlM_error (fun (w : World) (op : SOp) => do
    let targets ← targetsOf c op
    applyInstruction u c.qubits.length op targets true false w) (fun r => ∃ e, r = .error e) (fun _ h => h) (a := op) (by
      intro w
      cases targetsOf c op with
      | error e => exact ⟨e, rfl⟩
      | ok ts =>
        rw [ok_bind]
        unfold applyInstruction
        have : isBlocked op w.bits = false := by simp [isBlocked, hc]
        rw [this, hk]
        exact ⟨_, rfl⟩) c.ops { mem := initialState c.qubits.length, bits := bits, drawn := 0, records := records } hop
  rw [he, err_bind]
  exact ⟨e, rfl⟩

/-- **C77.** A density-matrix simulation never returns a result for a circuit with a measurement. -/
theorem C77_mixed_measurement (u : Nat → ℝ) (c : SCircuit) (le : Bool) (bits : Nat → Option Bool) (records : Nat → Record)
    (op : SOp) (hop : op ∈ c.ops) (hk : op.kind = .measurement) (h1 : c.qubits ≠ []) :
    ∃ e, simulateMixed u c le bits records = .error e := by
  have hlen : c.qubits.length ≠ 0 := by simpa using h1
  unfold simulateMixed
  rw [if_neg hlen]
  obtain ⟨e, he⟩ := foldlM_error (fun (w : World) (op : SOp) => do
    match op.kind with
    | .measurement => .error .typeError
    | _ =>
      let targets ← targetsOf c op
      let w1 ← applyInstruction u (2 * c.qubits.length) op targets false false w
      applyInstruction u (2 * c.qubits.length) op (targets.map (· + c.qubits.length)) false true w1)
    (fun r => ∃ e, r = .error e) (fun _ h => h) (a := op) (by
      intro w
      simp only [hk]
      exact ⟨_, rfl⟩) c.ops { mem := initialState (2 * c.qubits.length), bits := bits, drawn := 0, records := records } hop
  rw [show densityLoop u c _ = .error e from he, err_bind]
  exact ⟨e, rfl⟩

/-- **C77.** An operation on a qubit that is not in the circuit makes the simulation fail. -/
theorem C77_foreign_qubit (u : Nat → ℝ) (c : SCircuit) (le : Bool) (bits : Nat → Option Bool) (records : Nat → Record)
    (op : SOp) (hop : op ∈ c.ops) (q : Nat) (hq : q ∈ op.qubits) (hq' : q ∉ c.qubits) (h1 : c.qubits ≠ []) :
    ∃ e, simulate u c le bits records = .error e := by
  have hlen : c.qubits.length ≠ 0 := by simpa using h1
  unfold simulate
  rw [if_neg hlen]
  unfold loop
  obtain ⟨e, he⟩ := foldlM_error (fun (w : World) (op : SOp) => do
    let targets ← targetsOf c op
    applyInstruction u c.qubits.length op targets le false w) (fun r => ∃ e, r = .error e) (fun _ h => h) (a := op) (by
      intro w
      rw [targetsOf_error op ⟨q, hq, hq'⟩]
      exact ⟨_, rfl⟩) c.ops { mem := initialState c.qubits.length, bits := bits, drawn := 0, records := records } hop
  rw [he, err_bind]
  exact ⟨e, rfl⟩

example : ∃ e, simulate (fun _ => 0) demo true (fun _ => none) (fun _ => {}) = .error e :=
  C77_little_endian_measurement _ demo _ _ { oid := 4, kind := .measurement, qubits := [10, 11], bits := some [5, 6] }
    (by simp [demo, demoOps]) rfl rfl (by simp [demo])

end

end DG.Props
