import Verif.Spec.DirectOps
import Verif.Props.Circuit

/-!
# C122 — the list of operations of a circuit that is used directly

`circuit.circuit` gives the list itself, so that `circuit.circuit.insert(0, op)` is possible beside `circuit.append(op)`.  Whoever only puts in operations on qubits of the circuit keeps
C24, also when lists are reordered or shortened.  But the list knows neither the lock of the circuit nor its qubits.
-/

namespace DG.Props
open DG.Spec
variable {K : Type} [DecidableEq K] [Zero K]

/-- After a call on the list every operation was there before or was brought in. -/
theorem mem_listCall {l l' : List Nat} {e : ListCall} (h : e.run l = .ok l') {o : Nat} (ho : o ∈ l') : o ∈ l ∨ ListCall.brings e = some o := by
  cases e with
  | append a =>
    cases h
    rcases List.mem_append.1 ho with ho | ho
    · exact .inl ho
    · exact .inr (by rw [List.mem_singleton.1 ho]; rfl)
  | insert i a =>
    cases h
    rcases List.mem_append.1 ho with ho | ho
    · exact .inl (List.mem_of_mem_take ho)
    · rcases List.mem_cons.1 ho with rfl | ho
      · exact .inr rfl
      · exact .inl (List.mem_of_mem_drop ho)
  | assign i a =>
    simp only [ListCall.run] at h
    split at h
    · cases h
      rcases List.mem_or_eq_of_mem_set ho with ho | rfl
      · exact .inl ho
      · exact .inr rfl
    · cases h
  | delete i =>
    simp only [ListCall.run] at h
    split at h
    · cases h
      exact .inl (List.mem_of_mem_eraseIdx ho)
    · cases h
  | clear => cases h; cases ho
  | reverse => cases h; exact .inl (List.mem_reverse.1 ho)

/-- The invariant of C24 in such histories. -/
theorem carefulOps_inv {A : Call K → Prop} (hA : ∀ e, A e → KeepsRegisters e ∧ KeepsOperands e) {w : World K} (h : CarefulOps A w) : QInv true true w := by
  have hu : true = true → true = true := fun h => h
  induction h with
  | start => exact ⟨by simp, by simp⟩
  | call e _ he ih =>
    by_cases hb : e.Basic
    · exact (QInv.prims hu).toA.exec e hb _ ih
    · exact QInv.calls hu e (keeps_true_true e (hA e he)) hb _ ih
  | enter c _ ih => exact QInv.ctxPrims.openCtx (QInv.prims hu).toA c _ ih
  | leave x _ ih => exact QInv.ctxPrims.exitCtx (QInv.prims hu).toA x _ ih
  | @freeze w _ ih =>
    unfold freezeEnter
    split
    · exact ih
    · exact QInv.ctxPrims.setFrozen _ _ _ ih
  | @unfreeze w _ ih =>
    unfold freezeExit
    split
    · exact ih
    · exact QInv.ctxPrims.setFrozen _ _ _ ih
  | @direct w c e _ hb ih =>
    unfold directOps
    split
    · exact ih
    · rename_i C hC
      split
      · exact ih
      · rename_i l hl
        have hnew : ∀ o ∈ l, o < w.ops.length := fun o ho => by
          rcases mem_listCall hl ho with ho | ho
          · exact ih.ops rfl C (mem_of_get? hC) o ho
          · obtain ⟨op, items, h1, -, -⟩ := hb o ho
            exact (List.getElem?_eq_some_iff.1 h1).1
        refine ⟨forall_set ih.bank ?_ c, fun _ => forall_set (ih.ops rfl) hnew c⟩
        obtain ⟨L, h1, h2, h3, h4, h5⟩ := ih.bank C (mem_of_get? hC)
        refine ⟨L, h1, h2, h3, ?_, h5⟩
        intro k hk
        simp only [World.usedIf, if_true, World.used, List.mem_flatMap] at hk h4
        obtain ⟨o, ho, hk⟩ := hk
        rcases mem_listCall hl ho with ho' | ho'
        · exact h4 k ⟨o, ho', hk⟩
        · obtain ⟨op, items, g1, g2, g3⟩ := hb o ho'
          have e1 := (seen_qubits hC h1 (h2 (.inl rfl))).1
          rw [e1] at g2
          cases g2
          have hk' : k ∈ op.qubits.getD [] := by
            rw [g1] at hk
            exact hk
          simpa using g3 k hk'

/-- In every such history all operations of a circuit exist and act on its qubits (C24).  Missing: histories in which other operations are put in directly (`C122_foreign_violated`). -/
theorem C122_direct_partial {A : Call K → Prop} (hA : ∀ e, A e → KeepsRegisters e ∧ KeepsOperands e) {w : World K} (h : CarefulOps A w) {c : Nat} {C : Circ}
    (hC : w.circs[c]? = some C) : ∀ o ∈ opsOf w c, Belongs w c o := by
  have hi := carefulOps_inv hA h
  obtain ⟨L, h1, h2, -, h4, -⟩ := hi.bank C (mem_of_get? hC)
  intro o ho
  rw [opsOf_of_get hC] at ho
  have hlt := hi.ops rfl C (mem_of_get? hC) o ho
  refine ⟨_, _, List.getElem?_eq_getElem hlt, (seen_qubits hC h1 (h2 (.inl rfl))).1, fun q hq => ?_⟩
  refine List.mem_map_of_mem (h4 q ?_)
  simp only [World.usedIf, if_true, World.used, List.mem_flatMap]
  exact ⟨o, ho, by rw [List.getElem?_eq_getElem hlt]; exact hq⟩

/-- A call on the list changes the list of that circuit as Python's lists do, or raises `IndexError` and changes nothing; nothing else changes. -/
theorem C122_effect (w : World K) {c : Nat} {C : Circ} (hC : w.circs[c]? = some C) (e : ListCall) :
    (∀ l, e.run C.ops = .ok l → (directOps c e w).1 = .ok () ∧ opsOf (directOps c e w).2 c = l ∧
      ∃ circs, (directOps c e w).2 = { w with circs := circs } ∧ circs.length = w.circs.length ∧ (∀ d, d ≠ c → circs[d]? = w.circs[d]?) ∧
        circs[c]? = some { C with ops := l }) ∧
    (∀ x, e.run C.ops = .error x → directOps c e w = (.error .indexError, w) ∧ ∃ i, (e = .delete i ∨ ∃ o, e = .assign i o) ∧ (i < -C.ops.length ∨ C.ops.length ≤ i)) := by
  have hlt : c < w.circs.length := (List.getElem?_eq_some_iff.1 hC).1
  constructor
  · intro l hl
    have e1 : directOps c e w = (.ok (), w.setCirc c { C with ops := l }) := by simp only [directOps, hC, hl]
    have e2 : (w.setCirc c { C with ops := l }).circs[c]? = some { C with ops := l } := by simp [World.setCirc, hlt]
    rw [e1]
    refine ⟨rfl, opsOf_of_get e2, _, rfl, by simp [World.setCirc], fun d hd => by simp [World.setCirc, Ne.symm hd], e2⟩
  · intro x hx
    have key : ∀ i, listIndex C.ops.length i = .error x → x = .indexError ∧ (i < -C.ops.length ∨ C.ops.length ≤ i) := by
      intro i hi
      unfold listIndex at hi
      split at hi
      · cases hi
      · split at hi
        · cases hi
        · cases hi
          refine ⟨rfl, ?_⟩
          omega
    have main : x = .indexError ∧ ∃ i, (e = .delete i ∨ ∃ o, e = .assign i o) ∧ (i < -C.ops.length ∨ C.ops.length ≤ i) := by
      cases e with
      | assign i o =>
        simp only [ListCall.run] at hx
        split at hx
        · cases hx
        · rename_i h; cases hx; exact ⟨(key i h).1, i, .inr ⟨o, rfl⟩, (key i h).2⟩
      | delete i =>
        simp only [ListCall.run] at hx
        split at hx
        · cases hx
        · rename_i h; cases hx; exact ⟨(key i h).1, i, .inl rfl, (key i h).2⟩
      | append _ => cases hx
      | insert _ _ => cases hx
      | clear => cases hx
      | reverse => cases hx
    obtain ⟨rfl, hm⟩ := main
    refine ⟨?_, hm⟩
    simp only [directOps, hC, hx]

/-- What the calls do to a list `l`: `append` and `insert` put one operation in at the end or between two parts, `assign` and `delete` replace or remove the one at the position (counted from
the end if it is negative). -/
theorem C122_lists (l : List Nat) (o : Nat) :
    (ListCall.append o).run l = .ok (l ++ [o]) ∧
    (∀ i : Nat, i ≤ l.length → ∃ a b, l = a ++ b ∧ a.length = i ∧ (ListCall.insert i o).run l = .ok (a ++ o :: b)) ∧
    (∀ a x b, l = a ++ x :: b → (ListCall.assign a.length o).run l = .ok (a ++ o :: b) ∧ (ListCall.assign (-(b.length + 1 : Nat)) o).run l = .ok (a ++ o :: b) ∧
      (ListCall.delete a.length).run l = .ok (a ++ b) ∧ (ListCall.delete (-(b.length + 1 : Nat))).run l = .ok (a ++ b)) ∧
    ListCall.clear.run l = .ok [] ∧ ListCall.reverse.run l = .ok l.reverse := by
  refine ⟨rfl, ?_, ?_, rfl, rfl⟩
  · intro i hi
    refine ⟨l.take i, l.drop i, (List.take_append_drop i l).symm, by simp [hi], ?_⟩
    have : ¬ ((i : Int) < 0) := by omega
    simp [ListCall.run, this]
  · rintro a x b rfl
    have h1 : listIndex (a ++ x :: b).length a.length = .ok a.length := by
      unfold listIndex
      rw [if_pos (by simp)]
      simp
    have h2 : listIndex (a ++ x :: b).length (-(b.length + 1 : Nat)) = .ok a.length := by
      unfold listIndex
      rw [if_neg (by simp; omega), if_pos (by simp; omega)]
      congr 1
      simp
      omega
    simp only [ListCall.run, h1, h2]
    simp [List.eraseIdx_append_of_length_le]

/-- The lock of a circuit does not protect its list: for every locked circuit, `append` raises `CircuitError` and changes nothing, but every operation can be put in directly, and the list can be
emptied. -/
theorem C122_locked_violated (w : World K) {c : Nat} {C : Circ} (hC : w.circs[c]? = some C) (hl : C.locked = true) (o : Nat) :
    appendOp c o w = (.error .circuitError, w) ∧
    (directOps c (.append o) w).1 = .ok () ∧ opsOf (directOps c (.append o) w).2 c = C.ops ++ [o] ∧
    (directOps c .clear w).1 = .ok () ∧ opsOf (directOps c .clear w).2 c = [] := by
  have h1 := (C122_effect w hC (.append o)).1 _ rfl
  have h2 := (C122_effect w hC .clear).1 _ rfl
  refine ⟨?_, h1.1, h1.2.1, h2.1, h2.2.1⟩
  simp [appendOp, circ, M.deref, M.raiseIf, bind, M.bind, hC, hl]

/-- Nor are the qubits checked: an operation with a qubit that is not in the circuit can be put in every circuit directly, after which C24 does not hold. -/
theorem C122_foreign_violated (w : World K) {c : Nat} {C : Circ} (hC : w.circs[c]? = some C) {o : Nat} {op : OpObj K} (ho : w.ops[o]? = some op)
    (hq : ∀ items, seen (qubitsOf c w).1 = .ok items → ∃ q ∈ op.qubits.getD [], Lbl.obj q ∉ items) :
    (directOps c (.append o) w).1 = .ok () ∧ o ∈ opsOf (directOps c (.append o) w).2 c ∧ ¬ Belongs (directOps c (.append o) w).2 c o := by
  obtain ⟨h1, h2, circs, h3, -, -, h4⟩ := (C122_effect w hC (.append o)).1 _ rfl
  refine ⟨h1, by rw [h2]; simp, ?_⟩
  rintro ⟨op', items, g1, g2, g3⟩
  rw [h3] at g1 g2
  have : op' = op := by
    have g : w.ops[o]? = some op' := g1
    rw [ho] at g
    exact (Option.some.inj g).symm
  subst this
  have e : seen (qubitsOf c w).1 = .ok items := by
    rw [← g2]
    unfold qubitsOf
    simp only [h4, hC]
  obtain ⟨q, hq1, hq2⟩ := hq items e
  exact hq2 (g3 q hq1)

/-- A class, a circuit with two qubits, an operation on the second one, which is appended, and a lock. -/
def lockDemo : World Int :=
  (execCall (.lock 0) (execCall (.append 0 0) (execCall (.construct 0 none (.qubits (some [1]))) (execCall (.newCirc false (some 2) none)
    (execCall (.newClass ⟨"X", .plain, ⟨false, some 1, none, none⟩, none⟩) ({} : World Int)).2).2).2).2).2

/-- Not vacuous: the locked circuit gets its operation once more and the list is reversed; both operations belong to it. -/
example : CarefulOps (fun e : Call Int => KeepsRegisters e ∧ KeepsOperands e) (directOps 0 .reverse (directOps 0 (.append 0) lockDemo).2).2 ∧
    opsOf (directOps 0 .reverse (directOps 0 (.append 0) lockDemo).2).2 0 = [0, 0] := by
  have h0 : CarefulOps (fun e : Call Int => KeepsRegisters e ∧ KeepsOperands e) lockDemo :=
    .call _ (.call _ (.call _ (.call _ (.call _ .start ⟨trivial, trivial⟩) ⟨trivial, trivial⟩) ⟨trivial, trivial⟩) ⟨trivial, trivial⟩) ⟨trivial, trivial⟩
  have h1 : ∃ C, lockDemo.circs[0]? = some C := ⟨_, rfl⟩
  have h2 : opsOf lockDemo 0 = [0] := by decide +kernel
  refine ⟨.direct 0 .reverse (.direct 0 (.append 0) h0 ?_) (by intro o h; cases h), by decide +kernel⟩
  intro o ho
  cases ho
  obtain ⟨C, hC⟩ := h1
  exact C122_direct_partial (fun _ h => h) h0 hC 0 (by rw [h2]; simp)

example : (ListCall.insert (-1) 7).run [1, 2, 3] = .ok [1, 2, 7, 3] ∧ (ListCall.insert 9 7).run [1, 2] = .ok [1, 2, 7] ∧ (ListCall.delete (-3)).run [1, 2] = .error .indexError := by decide

end DG.Props
