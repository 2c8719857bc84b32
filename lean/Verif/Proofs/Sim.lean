import Verif.Proofs.OpSet
import Verif.Spec.Simulation

/-! # The simulator refines the textbook semantics -/

namespace DG.Sim
open Complex Spec Kernel Props

variable {n : Nat}

/-! ## Measurement -/

theorem complete_measurement : Complete measurementOps := by
  intro a b
  cases a <;> cases b <;> simp [measurementOps, bitMat, measurement0, measurement1]

theorem applyGate_measurement (t : Fin n) (m : Bool) (ψ : State n ℂ) (x : Basis n) :
    applyGate t (bitMat (if m then measurement1 else measurement0)) ψ x = if x t = m then ψ x else 0 := by
  have h : ∀ b, x t = b → Function.update x t b = x := fun b hb => by rw [← hb]; simp
  simp only [applyGate, Fintype.sum_bool]
  cases m <;> cases hx : x t <;> simp [bitMat, measurement0, measurement1, h _ hx]

theorem prob_measurement (t : Fin n) (m : Bool) (ψ : State n ℂ) :
    prob t ψ (if m then measurement1 else measurement0) = born t m ψ := by
  unfold prob Spec.normSq born
  refine Finset.sum_congr rfl (fun x _ => ?_)
  rw [applyGate_measurement]
  split <;> simp

theorem collapsed_measurement (t : Fin n) (m : Bool) (ψ : State n ℂ) :
    collapsed t ψ (if m then measurement1 else measurement0) = project t m ψ := by
  funext x
  unfold collapsed project
  rw [applyGate_measurement, prob_measurement]
  split <;> simp

theorem born_add (t : Fin n) (ψ : State n ℂ) : born t false ψ + born t true ψ = Spec.normSq ψ := by
  unfold born Spec.normSq
  rw [← Finset.sum_add_distrib]
  refine Finset.sum_congr rfl (fun x _ => ?_)
  cases x t <;> simp

theorem born_nonneg (t : Fin n) (m : Bool) (ψ : State n ℂ) : 0 ≤ born t m ψ := by
  unfold born
  refine Finset.sum_nonneg (fun x _ => ?_)
  split
  · exact Complex.normSq_nonneg _
  · exact le_refl _

theorem outcome_false {t : Fin n} {ψ : State n ℂ} {u : ℝ} : outcome t ψ u = false ↔ u < born t false ψ := by
  unfold outcome; split <;> simp_all

theorem outcome_true {t : Fin n} {ψ : State n ℂ} {u : ℝ} : outcome t ψ u = true ↔ born t false ψ ≤ u := by
  unfold outcome; split
  · simp; assumption
  · simp; exact not_lt.1 (by assumption)

theorem log2_length {le : Bool} {mem : List ℂ} {ψ : State n ℂ} (hm : Stores le mem ψ) : mem.length.log2 = n := by
  rw [hm.1]; exact Nat.log2_two_pow

/-- Sampling a qubit of a normalised state. -/
theorem sampleQubit_ok (hn : n ≤ 30) (le : Bool) {mem : List ℂ} {ψ : State n ℂ} (hm : Stores le mem ψ)
    (h1 : Spec.normSq ψ = 1) (t : Fin n) {u : ℝ} (hu0 : 0 ≤ u) (hu1 : u < 1) :
    sampleQubit t.val mem u false le = .ok (((outcome t ψ u).toNat : Int), mem) ∧
    ∃ mem', sampleQubit t.val mem u true le = .ok (((outcome t ψ u).toNat : Int), mem') ∧
      Stores le mem' (project t (outcome t ψ u) ψ) ∧ Spec.normSq (project t (outcome t ψ u) ψ) = 1 ∧
      0 < born t (outcome t ψ u) ψ := by
  obtain ⟨i, hi, hs, e0, mem', e1, e2, e3⟩ := opSet_ok hn complete_measurement le hm h1 t hu0 hu1
  have hlen : i < 2 := hi
  have key : i = (outcome t ψ u).toNat ∧ measurementOps[i]'hi = (if outcome t ψ u then measurement1 else measurement0) := by
    have hp0 : prob t ψ measurement0 = born t false ψ := prob_measurement t false ψ
    have hcase : i = 0 ∨ i = 1 := by omega
    rcases hcase with rfl | rfl
    · have := hs.2.2
      simp [measurementOps, hp0] at this
      have ho : outcome t ψ u = false := outcome_false.2 this
      rw [ho]; exact ⟨rfl, rfl⟩
    · have := hs.2.1
      simp [measurementOps, hp0] at this
      have ho : outcome t ψ u = true := outcome_true.2 this
      rw [ho]; exact ⟨rfl, rfl⟩
  have hpos := selects_pos hs
  simp only [List.getElem_map, key.2, prob_measurement] at hpos
  simp only [key.2, collapsed_measurement] at e2 e3
  rw [key.1] at e0 e1
  unfold sampleQubit
  rw [log2_length hm]
  exact ⟨e0, mem', e1, e2, e3, hpos⟩

/-- Writing outcomes starting at position `idx` of the measurement's bits. -/
theorem storeBit_eq (bits : Option (List Nat)) (idx : Nat) (m : Bool) (ms : List Bool) (vals : Nat → Option Bool) :
    writeBits (storeBit bits idx (m.toNat : Int) vals) (((bits.getD []).drop (idx + 1)).zip ms) =
      writeBits vals (((bits.getD []).drop idx).zip (m :: ms)) := by
  cases bits with
  | none => simp [storeBit, writeBits]
  | some bs =>
    simp only [storeBit, Option.getD_some]
    cases h : bs[idx]? with
    | none =>
      have := List.getElem?_eq_none_iff.1 h
      rw [List.drop_of_length_le (by omega), List.drop_of_length_le (by omega)]
      simp [writeBits]
    | some b =>
      obtain ⟨hlt, hb⟩ := List.getElem?_eq_some_iff.1 h
      rw [List.drop_eq_getElem_cons hlt, hb, List.zip_cons_cons, writeBits]
      cases m <;> rfl

theorem measureLoop_ok (hn : n ≤ 30) (u : Nat → ℝ) (hu : ∀ k, 0 ≤ u k ∧ u k < 1) (op : SOp) :
    ∀ (ts : List (Fin n)) (idx : Nat) (w : World) (ψ : State n ℂ), Stores false w.mem ψ → Spec.normSq ψ = 1 →
    ∃ mem', measureLoop u op (ts.map Fin.val) idx w = .ok
        { mem := mem'
          bits := writeBits w.bits (((op.bits.getD []).drop idx).zip (measureAll u ts w.drawn ψ).1)
          drawn := w.drawn + ts.length
          records := Function.update w.records op.oid
            { (w.records op.oid) with indices := (w.records op.oid).indices ++ ts.map Fin.val } } ∧
      Stores false mem' (measureAll u ts w.drawn ψ).2 ∧ Spec.normSq (measureAll u ts w.drawn ψ).2 = 1
  | [], idx, w, ψ, hm, h1 => by
    refine ⟨w.mem, ?_, hm, h1⟩
    simp [measureLoop, measureAll, writeBits]
  | t :: ts, idx, w, ψ, hm, h1 => by
    obtain ⟨_, mem1, e1, e2, e3, _⟩ := sampleQubit_ok hn false hm h1 t (hu w.drawn).1 (hu w.drawn).2
    obtain ⟨mem', e4, e5, e6⟩ := measureLoop_ok hn u hu op ts (idx + 1)
      { mem := mem1, bits := storeBit op.bits idx ((outcome t ψ (u w.drawn)).toNat : Int) w.bits, drawn := w.drawn + 1,
        records := Function.update w.records op.oid
          { (w.records op.oid) with indices := (w.records op.oid).indices ++ [t.val] } } _ e2 e3
    refine ⟨mem', ?_, e5, e6⟩
    simp only [List.map_cons, measureLoop, e1, ok_bind]
    rw [e4]
    simp only [storeBit_eq]
    simp only [measureAll, Function.update_self, Function.update_idem, List.length_cons, List.append_assoc,
      List.cons_append, List.nil_append, List.map_cons, Nat.add_assoc, Nat.add_comm 1]

/-! ## Blocking -/

theorem isBlocked_iff (op : SOp) (bits : Nat → Option Bool) : isBlocked op bits = true ↔ Blocked op bits := by
  unfold isBlocked Blocked
  cases op.cond with
  | none => simp
  | some bs =>
    have hb : ∀ b, bitTrue (bits b) = false ↔ bits b = some false := by
      intro b
      cases h : bits b with
      | none => simp [bitTrue]
      | some v => cases v <;> simp [bitTrue]
    cases bs with
    | nil => simp
    | cons b bs =>
      simp only [Bool.not_eq_true', Option.some.injEq]
      constructor
      · intro h
        rw [List.all_eq_false] at h
        obtain ⟨b', hb', h'⟩ := h
        exact ⟨_, b', rfl, hb', (hb b').1 (by simpa using h')⟩
      · rintro ⟨_, b', rfl, hb', h'⟩
        rw [List.all_eq_false]
        exact ⟨b', hb', by simpa using (hb b').2 h'⟩

theorem isBlocked_false_iff (op : SOp) (bits : Nat → Option Bool) : isBlocked op bits = false ↔ ¬ Blocked op bits := by
  rw [← isBlocked_iff]; simp

/-! ## Operands -/

theorem exists_targets (c : SCircuit) : ∀ (qs : List Nat), (∀ q ∈ qs, q ∈ c.qubits) →
    ∃ ts : List (Fin c.qubits.length), qs = ts.map (qubitAt c)
  | [], _ => ⟨[], rfl⟩
  | q :: qs, h => by
    obtain ⟨ts, hts⟩ := exists_targets c qs (fun q' hq => h q' (by simp [hq]))
    obtain ⟨i, hi, he⟩ := List.getElem_of_mem (h q (by simp))
    exact ⟨⟨i, hi⟩ :: ts, by simp [hts, qubitAt, he]⟩

theorem targetsOf_ok {c : SCircuit} (hnd : c.qubits.Nodup) (op : SOp) {ts : List (Fin c.qubits.length)}
    (h : op.qubits = ts.map (qubitAt c)) : targetsOf c op = .ok (ts.map Fin.val) := by
  unfold targetsOf
  rw [h]
  clear h
  induction ts with
  | nil => rfl
  | cons t ts ih =>
    rw [List.map_cons, List.mapM_cons, ih]
    have hm : qubitAt c t ∈ c.qubits := List.getElem_mem _
    have hi : c.qubits.idxOf (qubitAt c t) = t.val := by
      have := hnd.idxOf_getElem t.val t.isLt
      exact this
    simp only [if_pos hm, hi, ok_bind, pure_ok, List.map_cons]

theorem targetsOf_error {c : SCircuit} (op : SOp) (h : ∃ q ∈ op.qubits, q ∉ c.qubits) : targetsOf c op = .error .valueError := by
  unfold targetsOf
  generalize op.qubits = qs at h
  induction qs with
  | nil => simp at h
  | cons q qs ih =>
    rw [List.mapM_cons]
    by_cases hq : q ∈ c.qubits
    · have : ∃ q ∈ qs, q ∉ c.qubits := by
        obtain ⟨q', h1, h2⟩ := h
        rcases List.mem_cons.1 h1 with rfl | h1
        · exact absurd hq h2
        · exact ⟨q', h1, h2⟩
      rw [if_pos hq, ih this, ok_bind]; rfl
    · rw [if_neg hq, err_bind]

theorem qubitAt_inj {c : SCircuit} (hnd : c.qubits.Nodup) {i j : Fin c.qubits.length} (h : qubitAt c i = qubitAt c j) : i = j :=
  Fin.ext ((List.Nodup.getElem_inj_iff hnd).1 h)

/-- Every gate operation of a circuit has a meaning. -/
theorem gateAct_exists {c : SCircuit} {op : SOp} (h : GateOp c op) :
    ∃ (ts : List (Fin c.qubits.length)) (f : _), op.qubits = ts.map (qubitAt c) ∧ GateAct op.kind ts f := by
  obtain ⟨hs, hl, hnd, hm⟩ := h
  obtain ⟨ts, hts⟩ := exists_targets c op.qubits hm
  rw [hts] at hl hnd
  have hnd' := hnd.of_map _
  rw [List.length_map] at hl
  refine ⟨ts, ?_⟩
  generalize op.kind = k at *
  cases k with
  | single b =>
    obtain ⟨a, ha, _⟩ := library_cols hs
    match ts, hl with
    | [t], _ => exact ⟨_, hts, .single t ha⟩
  | controlled nc b =>
    obtain ⟨rfl, hb⟩ := hs
    obtain ⟨a, ha, _⟩ := library_cols hb
    match ts, hl, hnd' with
    | [c', t], _, hnd' => exact ⟨_, hts, .controlled1 c' t ha (by simpa using hnd')⟩
  | swap =>
    match ts, hl, hnd' with
    | [a, b], _, hnd' => exact ⟨_, hts, .swap a b (by simpa using hnd')⟩
  | cswap =>
    match ts, hl, hnd' with
    | [c', a, b], _, hnd' =>
      simp at hnd'
      exact ⟨_, hts, .cswap c' a b hnd'.1.1 hnd'.1.2 hnd'.2⟩
  | ccx =>
    match ts, hl, hnd' with
    | [c', a, b], _, hnd' =>
      simp at hnd'
      exact ⟨_, hts, .ccx c' a b hnd'.1.1 hnd'.1.2 hnd'.2⟩
  | measurement => exact absurd hs (by simp [Supported])
  | barrier => exact absurd hs (by simp [Supported])
  | «opaque» => exact absurd hs (by simp [Supported])

theorem supported_usable {k : Kind} (h : Supported k) : usable k := by
  cases k with
  | single b => exact usable_of_library h
  | controlled nc b => exact usable_of_library h.2
  | _ => trivial

theorem supported_unitary {k : Kind} (h : Supported k) : k.unitary := by
  cases k with
  | single b => obtain ⟨a, h1, _, _, h2⟩ := library_cols h; exact ⟨a, h1, h2⟩
  | controlled nc b => obtain ⟨a, h1, _, _, h2⟩ := library_cols h.2; exact ⟨a, h1, h2⟩
  | _ => trivial

/-! ## The loop -/

/-- Any circuit of gates, big- or little-endian. -/
theorem loop_gates {c : SCircuit} (hq : GoodQubits c) (u : Nat → ℝ) (le : Bool) :
    ∀ (ops : List SOp), (∀ op ∈ ops, GateOp c op) → ∀ (w : World) (s : SimState c.qubits.length),
    Stores le w.mem s.ψ → w.bits = s.bits → w.drawn = s.drawn →
    ∃ w' s', loop u { c with ops := ops } le w = .ok w' ∧ Exec c u ops s s' ∧ Stores le w'.mem s'.ψ ∧ w'.bits = s'.bits ∧
      w'.drawn = s'.drawn ∧ s'.bits = s.bits ∧ Spec.normSq s'.ψ = Spec.normSq s.ψ := by
  intro ops
  induction ops with
  | nil => intro _ w s hm hb hd; exact ⟨w, s, rfl, .nil, hm, hb, hd, rfl, rfl⟩
  | cons op ops ih =>
    intro hops w s hm hb hd
    have hg := hops op (by simp)
    obtain ⟨ts, f, hts, hf⟩ := gateAct_exists hg
    have htar : targetsOf { c with ops := op :: ops } op = .ok (ts.map Fin.val) := targetsOf_ok (c := c) hq.1 op hts
    by_cases hbl : isBlocked op w.bits = true
    · obtain ⟨w', s', e1, e2, e3⟩ := ih (fun o ho => hops o (by simp [ho])) w s hm hb hd
      refine ⟨w', s', ?_, .cons (.blocked (by rw [← hb]; exact (isBlocked_iff _ _).1 hbl)) e2, e3⟩
      unfold loop at e1 ⊢
      rw [List.foldlM_cons, htar, ok_bind, apply_blocked _ _ _ _ _ _ _ hbl]
      exact e1
    · have hbl' : isBlocked op w.bits = false := by simpa using hbl
      obtain ⟨mem', e1, e2⟩ := apply_gate_ok hq.2.2 u op hf (supported_usable hg.1) le false w hm hbl'
      obtain ⟨w', s', e3, e4, e5, e6, e7, e8, e9⟩ := ih (fun o ho => hops o (by simp [ho])) { w with mem := mem' }
        { s with ψ := f s.ψ } e2 hb hd
      refine ⟨w', s', ?_, .cons (.gate (by rw [← hb]; exact (isBlocked_false_iff _ _).1 hbl') hts hf) e4, e5, e6, e7, e8, ?_⟩
      · unfold loop at e3 ⊢
        rw [List.foldlM_cons, htar, ok_bind]
        rw [e1]
        exact e3
      · rw [e9]; exact DG.GateAct.norm hf (supported_unitary hg.1) s.ψ

/-- Any circuit of gates and measurements, big-endian. -/
theorem loop_all {c : SCircuit} (hq : GoodQubits c) (u : Nat → ℝ) (hu : ∀ k, 0 ≤ u k ∧ u k < 1) :
    ∀ (ops : List SOp), (∀ op ∈ ops, GateOp c op ∨ MeasureOp c op) → ∀ (w : World) (s : SimState c.qubits.length),
    Stores false w.mem s.ψ → w.bits = s.bits → w.drawn = s.drawn → Spec.normSq s.ψ = 1 →
    ∃ w' s', loop u { c with ops := ops } false w = .ok w' ∧ Exec c u ops s s' ∧ Stores false w'.mem s'.ψ ∧
      w'.bits = s'.bits ∧ w'.drawn = s'.drawn ∧ Spec.normSq s'.ψ = 1 := by
  intro ops
  induction ops with
  | nil => intro _ w s hm hb hd h1; exact ⟨w, s, rfl, .nil, hm, hb, hd, h1⟩
  | cons op ops ih =>
    intro hops w s hm hb hd h1
    have ih' := ih (fun o ho => hops o (by simp [ho]))
    have hmem : ∀ q ∈ op.qubits, q ∈ c.qubits := by
      rcases hops op (by simp) with h | h
      · exact h.2.2.2
      · exact h.2
    obtain ⟨ts0, hts0⟩ := exists_targets c op.qubits hmem
    have htar0 : ∀ ts : List (Fin c.qubits.length), op.qubits = ts.map (qubitAt c) →
        targetsOf { c with ops := op :: ops } op = .ok (ts.map Fin.val) := fun ts h => targetsOf_ok (c := c) hq.1 op h
    by_cases hbl : isBlocked op w.bits = true
    · obtain ⟨w', s', e1, e2, e3⟩ := ih' w s hm hb hd h1
      refine ⟨w', s', ?_, .cons (.blocked (by rw [← hb]; exact (isBlocked_iff _ _).1 hbl)) e2, e3⟩
      unfold loop at e1 ⊢
      rw [List.foldlM_cons, htar0 ts0 hts0, ok_bind, apply_blocked _ _ _ _ _ _ _ hbl]
      exact e1
    · have hbl' : isBlocked op w.bits = false := by simpa using hbl
      have hnb : ¬ Blocked op s.bits := by rw [← hb]; exact (isBlocked_false_iff _ _).1 hbl'
      rcases hops op (by simp) with hg | hg
      · obtain ⟨ts, f, hts, hf⟩ := gateAct_exists hg
        obtain ⟨mem', e1, e2⟩ := apply_gate_ok hq.2.2 u op hf (supported_usable hg.1) false false w hm hbl'
        obtain ⟨w', s', e3, e4, e5⟩ := ih' { w with mem := mem' } { s with ψ := f s.ψ } e2 hb hd
          (by rw [← h1]; exact DG.GateAct.norm hf (supported_unitary hg.1) s.ψ)
        refine ⟨w', s', ?_, .cons (.gate hnb hts hf) e4, e5⟩
        unfold loop at e3 ⊢
        rw [List.foldlM_cons, htar0 ts hts, ok_bind]
        rw [e1]
        exact e3
      · obtain ⟨mem', e1, e2, e3⟩ := measureLoop_ok hq.2.2 u hu op ts0 0
          { w with records := Function.update w.records op.oid { (w.records op.oid) with state := some w.mem } } s.ψ hm h1
        have hap : applyInstruction u c.qubits.length op (ts0.map Fin.val) false false w =
            measure u op (ts0.map Fin.val) w := by
          simp [applyInstruction, hbl', hg.1]
        simp only [List.drop_zero] at e1 e2 e3
        obtain ⟨W, ⟨k1, k2, k3⟩, e1⟩ : ∃ W : World, (W.mem = mem' ∧
            W.bits = writeBits w.bits ((op.bits.getD []).zip (measureAll u ts0 w.drawn s.ψ).1) ∧
            W.drawn = w.drawn + ts0.length) ∧ measureLoop u op (ts0.map Fin.val) 0 _ = .ok W := ⟨_, ⟨rfl, rfl, rfl⟩, e1⟩
        obtain ⟨w', s', e4, e5, e6⟩ := ih' W
          { ψ := (measureAll u ts0 s.drawn s.ψ).2
            bits := writeBits s.bits ((op.bits.getD []).zip (measureAll u ts0 s.drawn s.ψ).1)
            drawn := s.drawn + ts0.length } (by rw [k1]; exact hd ▸ e2)
          (by rw [k2, hb, hd]) (by rw [k3, hd]) (hd ▸ e3)
        refine ⟨w', s', ?_, .cons (.measure hnb hg.1 hts0) e5, e6⟩
        unfold loop at e4 ⊢
        rw [List.foldlM_cons, htar0 ts0 hts0, ok_bind]
        rw [hap, measure, e1]
        exact e4

/-! ## Initial state and the final check -/

theorem stores_initial (le : Bool) : Stores le (initialState n) (zeroState n) := by
  have hlen : (initialState n).length = 2 ^ n := by simp [initialState, Nat.shiftLeft_eq]
  have hidx0 : index le (fun _ : Fin n => false) = 0 := by
    apply Nat.eq_of_testBit_eq
    intro i
    simp only [index, Nat.testBit_ofBits, Nat.zero_testBit]
    split <;> simp
  refine ⟨hlen, fun x => ?_⟩
  have hlt := index_lt le x
  unfold initialState zeroState
  by_cases hx : x = fun _ => false
  · subst hx
    rw [hidx0, if_pos rfl, List.getElem?_set_self]
    simp [Nat.shiftLeft_eq]
  · rw [if_neg hx, List.getElem?_set_ne]
    · rw [List.getElem?_replicate, if_pos (by simpa [Nat.shiftLeft_eq] using hlt)]
    · intro h0
      exact hx (index_inj (le := le) (by rw [hidx0]; exact h0.symm))

theorem normSq_zeroState : Spec.normSq (zeroState n) = 1 := by
  unfold Spec.normSq zeroState
  rw [Finset.sum_eq_single (fun _ => false)]
  · simp
  · intro x _ hx; simp [hx]
  · intro h; exact absurd (Finset.mem_univ _) h

/-- The sum over the list is the sum over the basis states. -/
theorem sum_stores {R : Type} [AddCommMonoid R] {A : Type} {le : Bool} {mem : List A} {ψ : State n A} (hm : Stores le mem ψ)
    (g : A → R) : (mem.map g).sum = ∑ x, g (ψ x) := by
  have h1 : mem = (List.range (2 ^ n)).map (fun i => ψ (basisOf le n i)) := by
    apply List.ext_getElem?
    intro i
    by_cases hi : i < 2 ^ n
    · have := hm.2 (basisOf le n i)
      rw [index_basisOf le hi] at this
      rw [this]
      simp [hi]
    · rw [List.getElem?_eq_none (by rw [hm.1]; omega), List.getElem?_eq_none (by simpa using hi)]
  rw [h1, List.map_map]
  have h2 : ((List.range (2 ^ n)).map (g ∘ fun i => ψ (basisOf le n i))).sum =
      ∑ i ∈ Finset.range (2 ^ n), g (ψ (basisOf le n i)) := rfl
  rw [h2]
  refine Finset.sum_nbij' (fun i => basisOf le n i) (fun x => index le x) ?_ ?_ ?_ ?_ ?_
  · intro i _; exact Finset.mem_univ _
  · intro x _; exact Finset.mem_range.2 (index_lt le x)
  · intro i hi; exact index_basisOf le (Finset.mem_range.1 hi)
  · intro x _; exact basisOf_index le x
  · intro i _; rfl

end DG.Sim
