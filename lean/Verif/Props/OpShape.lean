import Verif.Proofs.OpShape
import Verif.Props.Circuit

/-!
# Property C98: operations are well-formed in every history

`w.ops` are the operations that were ever constructed, in circuits or not; see `Spec/OpShape.lean` for `Furnished` and `Aligned`.
-/

namespace DG.Props
open Spec
variable {K : Type} [DecidableEq K] [Zero K]

/-- C98, for all histories: every operation has as many parameters as its class declares, or none; only measurements have measured bits, and as many as
`num_qubits`; only controlled operations have control and target qubits. -/
theorem C98_filled {A : Call K → Prop} {w : World K} (h : Reach A w) {o : Nat} {op : OpObj K} (ho : w.ops[o]? = some op) :
    ∃ k, w.classes[op.cls]? = some k ∧ Furnished k op := by
  obtain ⟨k, h1, h2⟩ := Shape.reach (s := false) (by simp) h op (mem_of_get? ho)
  exact ⟨k, h1, h2.1⟩

/-- C98, for histories without assignments to `op.qubits`: `num_qubits` is the number of qubits, and the qubits of a controlled operation, of a class that
declares the number of control qubits, are the control qubits and then the target qubits. Missing: such assignments and such classes, see below. -/
theorem C98_partial {A : Call K → Prop} (hA : ∀ e, A e → KeepsOperands e) {w : World K} (h : Reach A w) {o : Nat} {op : OpObj K} (ho : w.ops[o]? = some op) :
    ∃ k, w.classes[op.cls]? = some k ∧ Furnished k op ∧ Aligned k op := by
  obtain ⟨k, h1, h2⟩ := Shape.reach (s := true) (fun e he _ => hA e he) h op (mem_of_get? ho)
  exact ⟨k, h1, h2.1, h2.2 rfl⟩

/-- C98: in histories without assignments to `op.qubits`, a measurement has a bit for each of its qubits. -/
theorem C98_measured {A : Call K → Prop} (hA : ∀ e, A e → KeepsOperands e) {w : World K} (h : Reach A w) {o : Nat} {op : OpObj K} (ho : w.ops[o]? = some op)
    {bs : List Nat} (hb : op.bits = some bs) : ∃ qs, op.qubits = some qs ∧ qs.length = bs.length := by
  obtain ⟨k, -, h2, h3⟩ := C98_partial hA h ho
  obtain ⟨-, h4⟩ := h2.bits bs hb
  rw [h3.number, Option.map_eq_some_iff] at h4
  exact h4

/-- C98 is violated by every assignment of other qubits to a controlled operation: its control and target qubits stay the old ones. -/
theorem C98_assigned_violated {w w' : World K} {o : Nat} {op : OpObj K} (ho : w.ops[o]? = some op) {qs c t : List Nat} (hq : op.qubits = some (c ++ t))
    (hc : op.control = some c) (ht : op.target = some t) (hne : qs ≠ c ++ t) (h : setQubits o qs w = (.ok (), w')) :
    ∃ op', w'.ops[o]? = some op' ∧ op'.qubits = some qs ∧ op'.control = some c ∧ op'.target = some t ∧ ∀ k, (k.kind = .controlled ∨ k.kind = .pcontrolled) →
      k.ar.numControl ≠ none → ¬ Aligned k op' := by
  unfold setQubits at h
  simp only [bind_def, opObj, M.deref, ho] at h
  have hk := (checkArity_kin op.cls qs.length w).1
  generalize checkArity op.cls qs.length w = z at h hk
  obtain ⟨_ | _, w1⟩ := z
  · cases h
  · dsimp only at h hk
    have ho1 : w1.ops[o]? = some op := by rw [hk]; exact ho
    simp only [modOp, M.write, ho1] at h
    cases h
    refine ⟨{ op with qubits := some qs }, ?_, rfl, hc, ht, fun k hk1 hk2 ha => ?_⟩
    · show (w1.ops.set o _)[o]? = _
      rw [List.getElem?_set_self (List.getElem?_eq_some_iff.1 ho1).1]
    · obtain ⟨c', t', h1, h2, h3⟩ := ha.halves hk1 hk2 qs rfl
      dsimp only at h1 h2
      rw [hc] at h1; rw [ht] at h2
      cases h1; cases h2
      exact hne h3

/-! ## Examples and violations -/

/-- A circuit with three qubits and three bits, and the operations `CX(q0, q1)`, `CRX(1)(q0, q2)`, `Measurement(q0, q1) | (b0, b1, b2)`, an operation `RX` of a variable,
applied again to qubit 2, and an operation of a class of controlled operations that declares no number of control qubits. -/
def shapeDemo : Prog Int :=
  .seq (.call (.newClass ⟨"CX", .controlled, ⟨true, some 2, some 1, some 1⟩, none⟩)) <|
  .seq (.call (.newClass ⟨"CRX", .pcontrolled, ⟨true, some 2, some 1, some 1⟩, some 1⟩)) <|
  .seq (.call (.newClass ⟨"Measurement", .measurement, ⟨false, none, none, none⟩, none⟩)) <|
  .seq (.call (.newClass ⟨"RX", .parametric, ⟨false, some 1, none, none⟩, some 1⟩)) <|
  .seq (.call (.newClass ⟨"CAny", .controlled, ⟨true, none, none, none⟩, none⟩)) <|
  .seq (.call (.newCirc true (some 3) (some 3))) <|
  .seq (.call (.getParam 0 0)) <|
  .seq (.withCtx 0 <|
    .seq (.call (.construct 0 none (.qubits (some [0, 1])))) <|
    .seq (.call (.construct 1 (some [.num 1]) (.split (some [0]) (some [2])))) <|
    .seq (.call (.construct 2 none (.qubits (some [0, 1])))) <|
    .seq (.call (.measureInto 2 [0, 1, 2])) <|
    .seq (.call (.construct 3 (some [.var 0]) (.qubits (some [1])))) <|
    .call (.reapply 3 (.qubits (some [2])))) <|
  .call (.construct 4 none (.qubits (some [0, 1])))

example : (shapeDemo.run {}).1 = .ok () ∧
    shapeDemo.final.ops.map (fun op => (op.qubits, op.numQubits, op.control, op.target)) = [(some [0, 1], some 2, some [0], some [1]),
      (some [0, 2], some 2, some [0], some [2]), (some [0, 1], some 2, none, none), (some [1], some 1, none, none), (some [2], some 1, none, none),
      (some [0, 1], some 2, some [0, 1], some [0, 1])] ∧
    shapeDemo.final.ops.map (fun op => (op.params.length, op.bits)) = [(0, none), (1, none), (0, some [0, 1]), (1, none), (1, none), (0, none)] := by
  refine ⟨?_, ?_, ?_⟩ <;> decide +kernel

theorem shapeDemo_reach : Reach KeepsOperands shapeDemo.final := ⟨shapeDemo, by simp [shapeDemo, Prog.All, KeepsOperands], Prog.visits_run _ _⟩

/-- C98 holds of the demo. -/
example : ∀ o < 6, ∃ op k, shapeDemo.final.ops[o]? = some op ∧ shapeDemo.final.classes[op.cls]? = some k ∧ Furnished k op ∧ Aligned k op := by
  intro o ho
  have hlen : shapeDemo.final.ops.length = 6 := by decide +kernel
  obtain ⟨op, h0⟩ : ∃ op, shapeDemo.final.ops[o]? = some op := ⟨_, List.getElem?_eq_getElem (by omega)⟩
  obtain ⟨k, h1, h2, h3⟩ := C98_partial (fun _ h => h) shapeDemo_reach h0
  exact ⟨op, k, h0, h1, h2, h3⟩

/-- C98 is violated for classes of controlled operations that do not declare the number of control qubits: all qubits are control and target qubits. -/
theorem C98_undeclared_violated : (shapeDemo.run {}).1 = .ok () ∧
    (shapeDemo.final.ops[5]?).map (fun op => (op.qubits, op.control, op.target)) = some (some [0, 1], some [0, 1], some [0, 1]) := by
  refine ⟨?_, ?_⟩ <;> decide +kernel

/-- The demo, followed by the assignment of qubits 2 and 0 to the first operation and of qubits 0, 1 and 2 to the measurement. -/
def assignDemo : Prog Int := .seq shapeDemo <| .seq (.call (.setQubits 0 [2, 0])) <| .call (.setQubits 2 [0, 1, 2])

/-- C98 is violated by assignments to `op.qubits`: the controlled operation `CX(q0, q1)` has qubits 2 and 0, but control qubit 0 and target qubit 1, and a measurement of
three qubits has `num_qubits` 2 and measures into two bits. -/
theorem C98_violated : (assignDemo.run {}).1 = .ok () ∧
    (assignDemo.final.ops[0]?).map (fun op => (op.qubits, op.control, op.target)) = some (some [2, 0], some [0], some [1]) ∧
    (assignDemo.final.ops[2]?).map (fun op => (op.qubits, op.numQubits, op.bits)) = some (some [0, 1, 2], some 2, some [0, 1]) := by
  refine ⟨?_, ?_, ?_⟩ <;> decide +kernel

end DG.Props
