import Verif.Proofs.Custom
import Verif.Proofs.SimExtra
import Verif.Proofs.SimFinal

/-! Simulations of circuits with operations made by `create_operation`: C105. -/

noncomputable section

namespace DG.Props
open Complex DG.Sim DG.Spec DG.Unitary DG.Custom

/-- **C105 (part).** Simulating a circuit with operations made from circuits with one qubit is the same as simulating the circuit in which each of them is
replaced by the operations of its circuit: same state, bits, random numbers and records, or the same exception, whatever the other operations are.
Missing: operations on several qubits, empty circuits, circuits with repeated variables, with conditions, or changed since. -/
theorem C105_inline_partial (c : CCircuit) (hn : c.qubits.length ≤ 30) {L : List (List SOp)} (hL : List.Forall₂ Inlines c.ops L) (u : Nat → ℝ)
    (littleEndian : Bool) (bits : Nat → Option Bool) (records : Nat → Record) :
    simulateC u c littleEndian bits records = simulate u ⟨c.qubits, L.flatten⟩ littleEndian bits records := by
  unfold simulateC simulate
  split
  · rfl
  · rw [loop_eq]
    rw [foldlM_inline (P := fun w : World => w.mem.length = 2 ^ c.qubits.length) (R := Inlines) (g := libStep u c.qubits littleEndian)
      libStep_length ?_ hL _ (initialState_length _)]
    intro a L w h hw
    cases h with
    | lib op => rw [foldlM_single]; rfl
    | custom h => exact vector_custom hn u littleEndian h w hw

/-- **C105 (part).** The same for simulations of the density matrix. -/
theorem C105_density_partial (c : CCircuit) (hn : c.qubits.length ≤ 15) {L : List (List SOp)} (hL : List.Forall₂ Inlines c.ops L) (u : Nat → ℝ)
    (littleEndian : Bool) (bits : Nat → Option Bool) (records : Nat → Record) :
    simulateMixedC u c bits records = simulateMixed u ⟨c.qubits, L.flatten⟩ littleEndian bits records := by
  unfold simulateMixedC simulateMixed
  split
  · rfl
  · rw [densityLoop_eq]
    rw [foldlM_inline (P := fun w : World => w.mem.length = 2 ^ (2 * c.qubits.length)) (R := Inlines) (g := libDensity u c.qubits)
      libDensity_length ?_ hL _ (initialState_length _)]
    intro a L w h hw
    cases h with
    | lib op => rw [foldlM_single]; rfl
    | custom h => exact density_custom (by omega) u h w hw

/-- An operation made from the circuit RX(v0), Hadamard on qubit 7, with parameter θ, on qubit 2. -/
def customDemo (θ : ℝ) : CustomOp :=
  { oid := 5, kind := .opaque, qubits := [2], cond := some [0], classQubits := 1, parametric := true, params := [θ]
    circuit := ⟨[7], [{ oid := 1, kind := .single (.rx (.var 3)), qubits := [7] }, { oid := 2, kind := .single .hadamard, qubits := [7] }]⟩ }

theorem customDemo_standsFor (θ : ℝ) : StandsFor (customDemo θ)
    [{ oid := 1, kind := .single (.rx (.num θ)), qubits := [2], cond := some [0] }, { oid := 2, kind := .single .hadamard, qubits := [2], cond := some [0] }] :=
  .mk 2 7 [{ oid := 1, kind := .single (.rx (.num θ)), qubits := [7] }, { oid := 2, kind := .single .hadamard, qubits := [7] }] rfl rfl rfl
    (.parametric (fun _ => θ) rfl rfl) (by simp) (by
      intro o ho
      simp only [List.mem_cons, List.not_mem_nil, or_false] at ho
      rcases ho with rfl | rfl
      · exact ⟨rfl, rfl, _, rfl, trivial⟩
      · exact ⟨rfl, rfl, _, rfl, trivial⟩)

/-- Qubits 1 and 2: CX(1, 2), the operation above, a measurement of qubit 2 in bit 0. -/
example (θ : ℝ) : List.Forall₂ Inlines
    [.lib { oid := 8, kind := .controlled 1 .x, qubits := [1, 2] }, .custom (customDemo θ),
      .lib { oid := 9, kind := .measurement, qubits := [2], bits := some [0] }]
    [[{ oid := 8, kind := .controlled 1 .x, qubits := [1, 2] }],
      [{ oid := 1, kind := .single (.rx (.num θ)), qubits := [2], cond := some [0] }, { oid := 2, kind := .single .hadamard, qubits := [2], cond := some [0] }], [{ oid := 9, kind := .measurement, qubits := [2], bits := some [0] }]] :=
  .cons (.lib _) (.cons (.custom (customDemo_standsFor θ)) (.cons (.lib _) .nil))

/-- The conditions of the operations inside of the circuit have no effect on the matrix of the operation made from it, whatever the circuit is; C105
demands circuits without them. -/
theorem C105_conditions_violated (c : UCircuit) (conds : Nat → Option (List Nat)) (ps : List ℝ) :
    customMatrix { c with ops := c.ops.map fun o => { o with cond := conds o.oid } } false ps = customMatrix c false ps := by
  show List.foldlM (applyOp c.qubits) _ (c.ops.map _) = List.foldlM (applyOp c.qubits) _ c.ops
  rw [List.foldlM_map]
  refine foldlM_congr c.ops (fun o _ S => ?_) _
  obtain ⟨⟨oid, k, qs, cond, bits⟩, ct, tg⟩ := o
  cases k <;> rfl

/-- C105 fails for operations on several qubits: every simulation of a circuit that contains one raises an exception. -/
theorem C105_several_violated (c : CCircuit) (hq : c.qubits ≠ []) (op : CustomOp) (hop : .custom op ∈ c.ops) (hc : op.cond = none) (h1 : op.classQubits ≠ 1)
    (u : Nat → ℝ) (littleEndian : Bool) (bits : Nat → Option Bool) (records : Nat → Record) :
    (∃ e, simulateC u c littleEndian bits records = .error e) ∧ (∃ e, simulateMixedC u c bits records = .error e) := by
  have hlen : ¬ c.qubits.length = 0 := by simpa using hq
  have hap : ∀ m ts le cj w, applyCustom m op ts le cj w = .error .attributeError := by
    intro m ts le cj w
    unfold applyCustom isBlocked
    rw [hc]
    simp [h1]
  constructor
  · obtain ⟨e, he⟩ := Sim.foldlM_error (vectorStep u c.qubits littleEndian) (fun r => ∃ e, r = .error e) (fun _ h => h) (a := .custom op)
      (by
        intro w
        unfold vectorStep
        rcases targets c.qubits (.custom op) with e | ts
        · exact ⟨e, rfl⟩
        · exact ⟨_, hap _ _ _ _ _⟩) c.ops { mem := initialState c.qubits.length, bits := bits, drawn := 0, records := records } hop
    refine ⟨e, ?_⟩
    unfold simulateC
    rw [if_neg hlen, he]
    rfl
  · obtain ⟨e, he⟩ := Sim.foldlM_error (densityStep u c.qubits) (fun r => ∃ e, r = .error e) (fun _ h => h) (a := .custom op)
      (by
        intro w
        unfold densityStep
        rw [show (Instr.custom op).isMeasurement = false from rfl]
        simp only [Bool.false_eq_true, if_false]
        rcases targets c.qubits (.custom op) with e | ts
        · exact ⟨e, rfl⟩
        · refine ⟨.attributeError, ?_⟩
          rw [Sim.ok_bind]
          show (applyCustom _ _ _ _ _ _ >>= _) = _
          rw [hap]
          rfl) c.ops { mem := initialState (2 * c.qubits.length), bits := bits, drawn := 0, records := records } hop
    refine ⟨e, ?_⟩
    unfold simulateMixedC
    rw [if_neg hlen, he]
    rfl

/-- The exception is an `AttributeError`, not the `ValueError` that the code means to raise, if nothing fails before. -/
theorem C105_several_error (c : CCircuit) (hq : c.qubits ≠ []) (pre post : List Instr) (op : CustomOp) (hop : c.ops = pre ++ .custom op :: post)
    (hon : ∀ q ∈ op.qubits, q ∈ c.qubits) (hc : op.cond = none) (h1 : op.classQubits ≠ 1) (u : Nat → ℝ) (littleEndian : Bool)
    (bits : Nat → Option Bool) (records : Nat → Record) (w : World) (hpre : simulateC u ⟨c.qubits, pre⟩ littleEndian bits records = .ok (some w)) :
    simulateC u c littleEndian bits records = .error .attributeError := by
  have hlen : ¬ c.qubits.length = 0 := by simpa using hq
  unfold simulateC at hpre ⊢
  rw [if_neg hlen] at hpre ⊢
  obtain ⟨v, e1, -⟩ := bind_ok hpre
  have e1' : List.foldlM (vectorStep u c.qubits littleEndian) { mem := initialState c.qubits.length, bits := bits, drawn := 0, records := records } pre = .ok v := e1
  rw [hop, List.foldlM_append, e1', Sim.ok_bind, List.foldlM_cons]
  have ht : ∃ ts, targets c.qubits (.custom op) = .ok ts := by
    unfold targets
    have e : (Instr.custom op).qubits = op.qubits := rfl
    rw [e]
    generalize op.qubits = l at hon
    induction l with
    | nil => exact ⟨[], rfl⟩
    | cons q l ih =>
      obtain ⟨ts, e⟩ := ih fun q hq => hon q (by simp [hq])
      refine ⟨c.qubits.idxOf q :: ts, ?_⟩
      rw [List.mapM_cons, if_pos (hon q (by simp)), Sim.ok_bind, e]
      rfl
  obtain ⟨ts, ht⟩ := ht
  have : vectorStep u c.qubits littleEndian v (.custom op) = .error .attributeError := by
    unfold vectorStep
    rw [ht, Sim.ok_bind]
    show applyCustom _ _ _ _ _ _ = _
    unfold applyCustom isBlocked
    rw [hc]
    simp [h1]
  rw [this]
  rfl

/-- An operation made from the circuit CX(0, 1). -/
def pairDemo : CustomOp :=
  { oid := 5, kind := .opaque, qubits := [3, 4], classQubits := 2
    circuit := ⟨[0, 1], [{ oid := 1, kind := .controlled 1 .x, qubits := [0, 1], control := [0], target := [1] }]⟩ }

example : pairDemo.cond = none ∧ pairDemo.classQubits ≠ 1 ∧ (∀ q ∈ pairDemo.qubits, q ∈ [4, 3]) := by
  refine ⟨rfl, by decide, by decide⟩
example (u : Nat → ℝ) (le : Bool) (bits : Nat → Option Bool) (records : Nat → Record) :
    ∃ e, simulateC u ⟨[4, 3], [.lib { oid := 8, kind := .single .x, qubits := [4] }, .custom pairDemo]⟩ le bits records = .error e :=
  (C105_several_violated _ (by simp) pairDemo (by simp) rfl (by decide) u le bits records).1

/-- C105 fails for operations made from a circuit without operations, which mean the identity: the simulation raises an exception. -/
theorem C105_empty_violated (c : CCircuit) (hq : c.qubits ≠ []) (op : CustomOp) (hop : .custom op ∈ c.ops) (hc : op.cond = none)
    (h1 : op.circuit.ops = []) (u : Nat → ℝ) (littleEndian : Bool) (bits : Nat → Option Bool) (records : Nat → Record) :
    ∃ e, simulateC u c littleEndian bits records = .error e := by
  have hlen : ¬ c.qubits.length = 0 := by simpa using hq
  obtain ⟨e, he⟩ := Sim.foldlM_error (vectorStep u c.qubits littleEndian) (fun r => ∃ e, r = .error e) (fun _ h => h) (a := .custom op)
    (by
      intro w
      unfold vectorStep
      rcases targets c.qubits (.custom op) with e | ts
      · exact ⟨e, rfl⟩
      · rw [Sim.ok_bind]
        show ∃ e, applyCustom _ _ _ _ _ _ = _
        unfold applyCustom isBlocked customArray
        rw [hc]
        simp only [Bool.false_eq_true, if_false, h1]
        split
        · exact ⟨_, rfl⟩
        · rcases customMatrix op.circuit op.parametric op.params with e | M
          · exact ⟨e, rfl⟩
          · exact ⟨.valueError, rfl⟩) c.ops { mem := initialState c.qubits.length, bits := bits, drawn := 0, records := records } hop
  refine ⟨e, ?_⟩
  unfold simulateC
  rw [if_neg hlen, he]
  rfl

/-- The circuit that consists of one custom operation: the kernel takes the first four numbers of the array for the matrix. -/
theorem alone_custom (op : CustomOp) (h1 : op.qubits = [0]) (h2 : op.classQubits = 1) (h3 : op.cond = none) {a b c d : ℂ} {r : List ℂ}
    (h4 : customArray op false = .ok (a :: b :: c :: d :: r)) (h5 : normSq a + normSq c = 1) (u : Nat → ℝ) (bits : Nat → Option Bool)
    (records : Nat → Record) : ∃ w, simulateC u ⟨[0], [.custom op]⟩ false bits records = .ok (some w) ∧ w.mem = [a, c] := by
  obtain ⟨m, e1, e2⟩ := kernel2 (N := ℝ) Complex.normSq Kernel.singleQubit rfl rfl rfl rfl rfl false (n := 1) (by decide) 0 [] (by simp) rfl
    a b c d 1 (initialState 1) (zeroState 1) (Sim.stores_initial false)
  have hm : m = [a, c] := by
    refine stores_unique e2 ⟨rfl, fun x => ?_⟩
    have hx : x = (fun _ => x 0) := by funext i; rw [Subsingleton.elim i 0]
    have hi : ∀ b : Bool, index false (fun _ : Fin 1 => b) = b.toNat := by decide
    have hu : ∀ b b' : Bool, Function.update (fun _ : Fin 1 => b) 0 b' = fun _ => b' := by decide
    have hf : ∀ b b' : Bool, ((fun _ : Fin 1 => b) = fun _ => b') ↔ b = b' := by decide
    rw [Kernel.applyControlled_nil, hx, hi]
    cases x 0 <;> simp [applyGate, hu, zeroState, hf, mat2]
  subst hm
  have e3 : applyCustom 1 op [0] false false { mem := initialState 1, bits := bits, drawn := 0, records := records } =
      .ok { mem := [a, c], bits := bits, drawn := 0, records := records } := by
    unfold applyCustom isBlocked
    rw [h3, h4]
    have e4 : callKernel Kernel.singleQubit false 1 (initialState 1) (a :: b :: c :: d :: r) [0] [] = .ok [a, c] := by
      have := Sim.callKernel_eq e1
      unfold callKernel at this ⊢
      rw [run_take _ _ _ _ _ _ _ (by simp)]
      exact this
    simp only [Bool.false_eq_true, if_false, h2, ne_eq, not_true, Sim.ok_bind, Sim.item0, e4, Sim.pure_ok]
  refine ⟨{ mem := [a, c], bits := bits, drawn := 0, records := records }, ?_, rfl⟩
  unfold simulateC
  have e5 : vectorStep u [0] false { mem := initialState 1, bits := bits, drawn := 0, records := records } (.custom op) =
      .ok { mem := [a, c], bits := bits, drawn := 0, records := records } := by
    unfold vectorStep targets
    rw [show (Instr.custom op).qubits = [0] from h1]
    exact e3
  rw [if_neg (by simp)]
  have e6 : List.foldlM (vectorStep u [0] false) { mem := initialState 1, bits := bits, drawn := 0, records := records } [Instr.custom op] =
      .ok { mem := [a, c], bits := bits, drawn := 0, records := records } := by
    rw [foldlM_single]; exact e5
  show (List.foldlM (vectorStep u [0] false) { mem := initialState 1, bits := bits, drawn := 0, records := records } [Instr.custom op] >>= _) = _
  rw [e6, Sim.ok_bind]
  have e7 : assertState 1 [a, c] = .ok () := by
    unfold assertState norm2
    rw [if_neg (by simp), if_pos]
    simp only [List.map_cons, List.map_nil, List.sum_cons, List.sum_nil, add_zero, h5, Real.sqrt_one]
    exact Sim.isCloseOne_one
  show (assertState 1 [a, c] >>= _) = _
  rw [e7]
  rfl

/-- An operation made from a circuit with the qubits `qs`, the first of which is turned by RY(θ), when the circuit had one qubit. -/
def turnDemo (θ : ℝ) (qs : List Nat) : CustomOp :=
  { oid := 5, kind := .opaque, qubits := [0], classQubits := 1, circuit := ⟨qs, [{ oid := 1, kind := .single (.ry (.num θ)), qubits := [7] }]⟩ }

/-- C105 fails for an operation whose circuit has got another qubit since: the matrix has four rows, of which the kernel takes the first for the whole
matrix, without an error. For RY(θ) on |0> the result is cos(θ/2)|0> - sin(θ/2)|1> instead of cos(θ/2)|0> + sin(θ/2)|1>, for every θ. -/
theorem C105_grown_violated (θ : ℝ) (u : Nat → ℝ) (bits : Nat → Option Bool) (records : Nat → Record) :
    (∃ w, simulateC u ⟨[0], [.custom (turnDemo θ [7])]⟩ false bits records = .ok (some w) ∧
      w.mem = [((Real.cos (θ / 2) : ℝ) : ℂ), ((Real.sin (θ / 2) : ℝ) : ℂ)]) ∧
    (∃ w, simulateC u ⟨[0], [.custom (turnDemo θ [7, 8])]⟩ false bits records = .ok (some w) ∧
      w.mem = [((Real.cos (θ / 2) : ℝ) : ℂ), -((Real.sin (θ / 2) : ℝ) : ℂ)]) := by
  have h1 : normSq ((Real.cos (θ / 2) : ℝ) : ℂ) + normSq ((Real.sin (θ / 2) : ℝ) : ℂ) = 1 := by
    rw [normSq_ofReal, normSq_ofReal]
    nlinarith [Real.sin_sq_add_cos_sq (θ / 2)]
  refine ⟨alone_custom (turnDemo θ [7]) rfl rfl rfl (b := -((Real.sin (θ / 2) : ℝ) : ℂ)) (d := ((Real.cos (θ / 2) : ℝ) : ℂ)) (r := []) ?_ h1 u bits records,
    alone_custom (turnDemo θ [7, 8]) rfl rfl rfl (b := 0) (d := 0)
      (r := ((flat (kron (ofArr ⟨((Real.cos (θ / 2) : ℝ) : ℂ), -((Real.sin (θ / 2) : ℝ) : ℂ), ((Real.sin (θ / 2) : ℝ) : ℂ), ((Real.cos (θ / 2) : ℝ) : ℂ), true, true⟩)
        (eye 2))).drop 4)) ?_ (by rw [normSq_neg]; exact h1) u bits records⟩
  · have e : customArray (turnDemo θ [7]) false = .ok (flat ⟨2, fun i j => ∑ k ∈ Finset.range 2,
        (ofArr ⟨((Real.cos (θ / 2) : ℝ) : ℂ), -((Real.sin (θ / 2) : ℝ) : ℂ), ((Real.sin (θ / 2) : ℝ) : ℂ), ((Real.cos (θ / 2) : ℝ) : ℂ), true, true⟩).e i k * (eye 2).e k j⟩) := rfl
    rw [e, flat_two rfl]
    simp [ofArr, eye, Finset.sum_range_succ]
  · have e : customArray (turnDemo θ [7, 8]) false = .ok (flat ⟨4, fun i j => ∑ k ∈ Finset.range 4,
        (kron (ofArr ⟨((Real.cos (θ / 2) : ℝ) : ℂ), -((Real.sin (θ / 2) : ℝ) : ℂ), ((Real.sin (θ / 2) : ℝ) : ℂ), ((Real.cos (θ / 2) : ℝ) : ℂ), true, true⟩) (eye 2)).e i k *
          (eye 4).e k j⟩) := rfl
    rw [e]
    simp [flat, kron, ofArr, eye, Finset.sum_range_succ, List.range_succ]

end DG.Props
