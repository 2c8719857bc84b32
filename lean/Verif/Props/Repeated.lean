import Verif.Proofs.Repeated
import Verif.Proofs.Replace
import Verif.Props.Simulator

/-!
# C73 and C74: what happens in simulations with barriers and with repeated qubits
-/

noncomputable section

namespace DG.Props
open Complex DG.Sim DG.Spec DG.Kernel

/-! ## C74 -/

/-- Numbers `..01..`: the bits of `k`, with `01` inserted at the position `p` (of the qubit `q` in the index of the state). -/
def quarterIndex (le : Bool) (n q k : Nat) : Nat :=
  let p := if le then q else n - 1 - q
  k / 2 ^ p * 2 ^ (p + 2) + 2 ^ p + k % 2 ^ p

/-- **C74: what happens.** A controlled gate whose control is its target is not refused. It multiplies a quarter of the amplitudes, those with the indices
`quarterIndex`, by the sum of the second row of the matrix of the gate. -/
theorem C74_exact {n : Nat} (hn : n ≤ 30) (u : Nat → ℝ) {b : Base} {a : Arr2} (ha : b.matrix = .ok a) (h1 : a.cOrder = true) (h2 : a.complexType = true)
    (op : SOp) (hk : op.kind = .controlled 1 b) {q : Nat} (hq : q < n) (le : Bool) (w : World) (hm : w.mem.length = 2 ^ n) (hb : ¬ Blocked op w.bits) :
    applyInstruction u n op [q, q] le false w =
      .ok { w with mem := ((List.range (2 ^ n / 4)).map (quarterIndex le n q)).foldl (fun mem i => mem.set i ((a.e10 + a.e11) * mem.getD i 0)) w.mem } := by
  have hg := gateArray_ok ha h1 h2 false
  have hr := run_same le hn hq a.e00 a.e01 a.e10 a.e11 w.mem hm
  have hcall : callKernel gateControl le n w.mem [a.e00, a.e01, a.e10, a.e11] [q] [q] =
      .ok (((List.range (2 ^ n / 4)).map (sameIndex (pos le n q))).foldl (scaleAt (a.e10 + a.e11)) w.mem) := by
    unfold callKernel
    rw [hr]
    rfl
  simp only [conjIf, Bool.false_eq_true, if_false] at hg
  unfold applyInstruction
  rw [if_neg (by rw [(isBlocked_false_iff _ _).2 hb]; simp), hk]
  simp only [hg, ok_bind, item0, item1, if_true, hcall]
  rfl

/-- **C74 is violated, for all circuits:** a `CX` whose control is its target is ignored, wherever it is. -/
theorem C74_ignored_violated (u : Nat → ℝ) (qs : List Nat) (hn : qs.length ≤ 30) (pre post : List SOp) (op : SOp) (hk : op.kind = .controlled 1 .x) {q : Nat}
    (hq : op.qubits = [q, q]) (hqs : q ∈ qs) (le : Bool) (bits : Nat → Option Bool) (records : Nat → Record) :
    simulate u ⟨qs, pre ++ [op] ++ post⟩ le bits records = simulate u ⟨qs, pre ++ [] ++ post⟩ le bits records := by
  unfold simulate
  simp only [loop_eq]
  rw [foldlM_middle (P := fun w : World => w.mem.length = 2 ^ qs.length) (A := [op]) (B := [])]
  · intro w o w' hw h
    unfold libStep at h
    obtain ⟨ts, -, h⟩ := bind_ok h
    exact (applyInstruction_length h).trans hw
  · intro w hw
    have ht : targetsOf ⟨qs, []⟩ op = .ok [qs.idxOf q, qs.idxOf q] := by
      unfold targetsOf
      rw [hq]
      simp [hqs, pure, Except.pure]
      rfl
    have hs : libStep u qs le w op = .ok w := by
      unfold libStep
      rw [ht, ok_bind]
      by_cases hb : isBlocked op w.bits = true
      · unfold applyInstruction
        rw [if_pos hb]
      · have e := C74_exact hn u (b := .x) rfl rfl rfl op hk (List.idxOf_lt_length_of_mem hqs) le w hw (fun h => hb ((isBlocked_iff _ _).2 h))
        have e4 : (fun (mem : List ℂ) i => mem.set i (((1 : ℂ) + 0) * mem.getD i 0)) = scaleAt 1 := by
          funext mem i
          simp [scaleAt]
        rw [e, e4, scaleAll_one]
    rw [List.foldlM_cons, hs]
    rfl
  · simp [initialState, Nat.shiftLeft_eq]

/-- The positions of the operands. -/
theorem targets_idx {qs : List Nat} {op : SOp} (h : ∀ q ∈ op.qubits, q ∈ qs) : targetsOf ⟨qs, []⟩ op = .ok (op.qubits.map fun q => qs.idxOf q) := by
  unfold targetsOf
  generalize op.qubits = l at h
  induction l with
  | nil => rfl
  | cons q l ih =>
    rw [List.mapM_cons, ih (fun x hx => h x (by simp [hx])), if_pos (h q (by simp))]
    rfl

/-- **C74 is violated, for all gates and all operand lists:** a circuit of library gates whose operands are qubits of the circuit, repeated or not, is simulated. The
only error there can be is the `ValueError` of the final check of the norm, and it needs a gate with a repeated qubit. -/
theorem C74_accepted_violated (u : Nat → ℝ) (c : SCircuit) (hq : GoodQubits c)
    (hops : ∀ op ∈ c.ops, Supported op.kind ∧ op.qubits.length = arity op.kind ∧ ∀ q ∈ op.qubits, q ∈ c.qubits) (le : Bool) (bits : Nat → Option Bool)
    (records : Nat → Record) :
    (∃ w, simulate u c le bits records = .ok (some w) ∧ w.bits = bits ∧ w.mem.length = 2 ^ c.qubits.length) ∨
    (simulate u c le bits records = .error .valueError ∧ ∃ op ∈ c.ops, ¬ op.qubits.Nodup) := by
  have hn := hq.2.2
  have hlen : c.qubits.length ≠ 0 := by have := hq.2.1; omega
  have key : ∀ (ops : List SOp), (∀ op ∈ ops, Supported op.kind ∧ op.qubits.length = arity op.kind ∧ ∀ q ∈ op.qubits, q ∈ c.qubits) →
      ∀ w : World, w.mem.length = 2 ^ c.qubits.length →
        ∃ mem', ops.foldlM (libStep u c.qubits le) w = .ok { w with mem := mem' } ∧ mem'.length = 2 ^ c.qubits.length := by
    intro ops
    induction ops with
    | nil => intro _ w hw; exact ⟨w.mem, rfl, hw⟩
    | cons op ops ih =>
      intro h w hw
      obtain ⟨h1, h2, h3⟩ := h op (by simp)
      obtain ⟨m1, e1, e2⟩ := apply_accepts hn u op h1 (op.qubits.map fun q => c.qubits.idxOf q) (by simpa using h2) (by
        intro t ht
        obtain ⟨q, hq', rfl⟩ := List.mem_map.1 ht
        exact List.idxOf_lt_length_of_mem (h3 q hq')) le false w hw
      obtain ⟨m2, e3, e4⟩ := ih (fun o ho => h o (by simp [ho])) { w with mem := m1 } e2
      refine ⟨m2, ?_, e4⟩
      rw [List.foldlM_cons]
      have : libStep u c.qubits le w op = .ok { w with mem := m1 } := by
        unfold libStep
        rw [targets_idx h3, ok_bind, e1]
      rw [this, ok_bind, e3]
  obtain ⟨m, e1, e2⟩ := key c.ops hops { mem := initialState c.qubits.length, bits := bits, drawn := 0, records := records } (by simp [initialState, Nat.shiftLeft_eq])
  have hsim : simulate u c le bits records = (assertState c.qubits.length m >>= fun _ => pure (some { mem := m, bits := bits, drawn := 0, records := records })) := by
    unfold simulate
    rw [if_neg hlen]
    have : loop u c le { mem := initialState c.qubits.length, bits := bits, drawn := 0, records := records } =
        .ok { mem := m, bits := bits, drawn := 0, records := records } := e1
    rw [this, ok_bind]
  by_cases hnd : ∀ op ∈ c.ops, op.qubits.Nodup
  · obtain ⟨w, s, h1, -, h3, h4⟩ := C75_gates c hq u bits records (fun op ho => ⟨(hops op ho).1, (hops op ho).2.1, hnd op ho, (hops op ho).2.2⟩) le
    exact Or.inl ⟨w, h1, h4, h3.1⟩
  · push Not at hnd
    rcases e : assertState c.qubits.length m with x | x
    · refine Or.inr ⟨?_, hnd⟩
      have hx : x = .valueError := by
        unfold assertState at e
        split at e
        · cases e; rfl
        · split at e
          · cases e
          · cases e; rfl
      rw [hsim, e, hx]
      rfl
    · exact Or.inl ⟨_, by rw [hsim, e]; rfl, rfl, e2⟩

/-- **C74 is violated, for all circuits:** a `SWAP` of a qubit with itself, and a `CSWAP` of a qubit with itself (whatever the control), is ignored, wherever it is. -/
theorem C74_swap_ignored_violated (u : Nat → ℝ) (qs : List Nat) (hn : qs.length ≤ 30) (pre post : List SOp) (op : SOp) {q k : Nat}
    (hk : op.kind = .swap ∧ op.qubits = [q, q] ∨ op.kind = .cswap ∧ op.qubits = [k, q, q]) (hqs : ∀ x ∈ op.qubits, x ∈ qs) (le : Bool)
    (bits : Nat → Option Bool) (records : Nat → Record) :
    simulate u ⟨qs, pre ++ [op] ++ post⟩ le bits records = simulate u ⟨qs, pre ++ [] ++ post⟩ le bits records := by
  unfold simulate
  simp only [loop_eq]
  rw [foldlM_middle (P := fun w : World => w.mem.length = 2 ^ qs.length) (A := [op]) (B := [])]
  · intro w o w' hw h
    unfold libStep at h
    obtain ⟨ts, -, h⟩ := bind_ok h
    exact (applyInstruction_length h).trans hw
  · intro w hw
    have hs : libStep u qs le w op = .ok w := by
      unfold libStep
      rw [targets_idx hqs, ok_bind]
      unfold applyInstruction
      by_cases hb : isBlocked op w.bits = true
      · rw [if_pos hb]
      rw [if_neg hb]
      rcases hk with ⟨h1, h2⟩ | ⟨h1, h2⟩
      · have hlt : ∀ x ∈ qs.idxOf q :: ([] : List Nat), x < qs.length := by
          intro x hx
          rw [List.mem_singleton.1 hx]
          exact List.idxOf_lt_length_of_mem (hqs q (by simp [h2]))
        have e := callKernel_swap_same swapOp (Or.inl rfl) le hn (qs.idxOf q) [] hlt rfl w.mem hw
        rw [h1, h2]
        simp only [List.map_cons, List.map_nil, item0, item1, ok_bind, e]
        rfl
      · have hlt : ∀ x ∈ qs.idxOf q :: [qs.idxOf k], x < qs.length := by
          intro x hx
          rcases List.mem_cons.1 hx with rfl | hx
          · exact List.idxOf_lt_length_of_mem (hqs q (by simp [h2]))
          · rw [List.mem_singleton.1 hx]
            exact List.idxOf_lt_length_of_mem (hqs k (by simp [h2]))
        have e := callKernel_swap_same cswapOp (Or.inr rfl) le hn (qs.idxOf q) [qs.idxOf k] hlt rfl w.mem hw
        rw [h1, h2]
        simp only [List.map_cons, List.map_nil, item0, item1, item2, ok_bind, e]
        rfl
    rw [List.foldlM_cons, hs]
    rfl
  · simp [initialState, Nat.shiftLeft_eq]

/-- The hypotheses are met by circuits with repeated qubits. -/
example : let c : SCircuit := ⟨[5, 7], [⟨0, .single .hadamard, [5], none, none⟩, ⟨1, .ccx, [5, 7, 5], none, none⟩, ⟨2, .cswap, [7, 5, 5], none, none⟩]⟩
    GoodQubits c ∧ (∀ op ∈ c.ops, Supported op.kind ∧ op.qubits.length = arity op.kind ∧ ∀ q ∈ op.qubits, q ∈ c.qubits) ∧ ∃ op ∈ c.ops, ¬ op.qubits.Nodup := by
  refine ⟨⟨by decide, by decide, by decide⟩, ?_, ⟨1, .ccx, [5, 7, 5], none, none⟩, by simp, by decide⟩
  intro op ho
  simp only [List.mem_cons, List.not_mem_nil, or_false] at ho
  rcases ho with rfl | rfl | rfl <;> simp [Supported, arity, Library]

/-! ## C73 -/

theorem targets_in {qs : List Nat} {op : SOp} (h : ∀ q ∈ op.qubits, q ∈ qs) : ∃ ts, targetsOf ⟨qs, []⟩ op = .ok ts := by
  unfold targetsOf
  refine mapM_exists _ fun q hq => ⟨_, if_pos (h q hq)⟩

/-- **C73: what happens.** Where the simulation comes to a barrier that is not blocked by its condition, it raises: AttributeError, or IndexError for a barrier on
one qubit. -/
theorem C73_exact (qs : List Nat) (pre post : List SOp) (b : SOp) (hq : GoodQubits ⟨qs, pre⟩) (hpre : ∀ op ∈ pre, GateOp ⟨qs, pre⟩ op ∨ MeasureOp ⟨qs, pre⟩ op)
    (hk : b.kind = .barrier) (hb : ∀ q ∈ b.qubits, q ∈ qs) (u : Nat → ℝ) (hu : Uniform u) (bits : Nat → Option Bool) (records : Nat → Record)
    (hbl : ∀ s, Exec ⟨qs, pre⟩ u pre ⟨zeroState _, bits, 0⟩ s → ¬ Blocked b s.bits) :
    simulate u ⟨qs, pre ++ b :: post⟩ false bits records = .error (if b.qubits.length = 1 then .indexError else .attributeError) := by
  obtain ⟨w, s, e1, e2, -, e4, -, -⟩ := loop_all hq u hu pre hpre { mem := initialState qs.length, bits := bits, drawn := 0, records := records }
    ⟨zeroState _, bits, 0⟩ (stores_initial false) rfl rfl normSq_zeroState
  obtain ⟨ts, ht⟩ := targets_in hb
  have hlen : qs.length ≠ 0 := by have := hq.2.1; simp only at this; omega
  unfold simulate
  rw [if_neg hlen]
  simp only [loop_eq] at e1 ⊢
  rw [List.foldlM_append, e1, ok_bind, List.foldlM_cons]
  have : libStep u qs false w b = .error (if b.qubits.length = 1 then .indexError else .attributeError) := by
    unfold libStep
    rw [ht, ok_bind]
    unfold applyInstruction
    rw [if_neg (by rw [(isBlocked_false_iff _ _).2 (by rw [e4]; exact hbl s e2)]; simp), hk]
    simp only [numQubitsOf, hk]
    by_cases h : b.qubits.length = 1 <;> simp [h]
  rw [this]
  rfl

/-- **C73 (barriers that are blocked).** A barrier that is blocked by its condition has no effect on the simulation. -/
theorem C73_blocked_partial (qs : List Nat) (pre post : List SOp) (b : SOp) (hq : GoodQubits ⟨qs, pre⟩) (hpre : ∀ op ∈ pre, GateOp ⟨qs, pre⟩ op ∨ MeasureOp ⟨qs, pre⟩ op)
    (hb : ∀ q ∈ b.qubits, q ∈ qs) (u : Nat → ℝ) (hu : Uniform u) (bits : Nat → Option Bool) (records : Nat → Record)
    (hbl : ∀ s, Exec ⟨qs, pre⟩ u pre ⟨zeroState _, bits, 0⟩ s → Blocked b s.bits) :
    simulate u ⟨qs, pre ++ b :: post⟩ false bits records = simulate u ⟨qs, pre ++ post⟩ false bits records := by
  obtain ⟨w, s, e1, e2, -, e4, -, -⟩ := loop_all hq u hu pre hpre { mem := initialState qs.length, bits := bits, drawn := 0, records := records }
    ⟨zeroState _, bits, 0⟩ (stores_initial false) rfl rfl normSq_zeroState
  obtain ⟨ts, ht⟩ := targets_in hb
  unfold simulate
  simp only [loop_eq] at e1 ⊢
  rw [List.foldlM_append, List.foldlM_append, e1, ok_bind, ok_bind, List.foldlM_cons]
  have : libStep u qs false w b = .ok w := by
    unfold libStep
    rw [ht, ok_bind]
    unfold applyInstruction
    rw [if_pos ((isBlocked_iff _ _).2 (by rw [e4]; exact hbl s e2))]
  rw [this, ok_bind]

/-- Case: a barrier with a condition on a bit with value 0, behind a gate. -/
theorem C73_blocked_demo (u : Nat → ℝ) (hu : Uniform u) (records : Nat → Record) (post : List SOp) :
    simulate u ⟨[4, 7], [{ oid := 1, kind := .single .hadamard, qubits := [7] }] ++ { oid := 2, kind := .barrier, qubits := [4, 7], cond := some [3] } :: post⟩ false
      (fun _ => some false) records =
    simulate u ⟨[4, 7], [{ oid := 1, kind := .single .hadamard, qubits := [7] }] ++ post⟩ false (fun _ => some false) records := by
  refine C73_blocked_partial [4, 7] _ post _ ⟨by decide, by decide, by decide⟩ ?_ (by decide) u hu _ records ?_
  · intro op ho
    simp only [List.mem_singleton] at ho
    subst ho
    exact .inl ⟨trivial, rfl, by decide, by decide⟩
  · intro s h
    cases h with
    | cons h1 h =>
      cases h
      have : s.bits = fun _ => some false := by
        cases h1 with
        | blocked => rfl
        | gate => rfl
        | measure h2 h3 => cases h3
      refine ⟨[3], 3, rfl, by simp, ?_⟩
      rw [this]

end DG.Props
