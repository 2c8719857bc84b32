import Verif.Props.Refused
import Verif.Proofs.CircuitRegs

/-!
# C124 — `add_qubit`, `add_bit` and `extend`

`add_qubit` and `add_bit` with the label of a register that exists are all or nothing, too; and a failing `extend` changes nothing but the operations of its circuit.
-/

namespace DG.Props
open DG.Spec
variable {K : Type}

theorem set_held (rs : PyDict RLabel Reg) (l : RLabel) (r : Reg) (h : rs.get? l = some r) : rs.set l r = rs := by
  induction rs with
  | nil => cases h
  | cons p rs ih =>
    obtain ⟨k, v⟩ := p
    simp only [PyDict.get?] at h
    simp only [PyDict.set]
    split
    · rename_i hk
      rw [if_pos hk] at h
      cases h
      rfl
    · rename_i hk
      rw [if_neg hk] at h
      rw [ih h]

theorem add_one_error {ev : EqEnv} {r r' : Reg} {k : Nat} {e : Err} (h : r.add ev [.obj k] = (.error e, r')) : r' = r := by
  unfold Reg.add at h
  split at h
  · cases h; rfl
  · cases h; rfl
  · simp only [CyReg.extend, CyReg.append] at h
    by_cases hc : r.cy.count (.obj k) = true
    · simp only [hc, if_true, Bool.false_eq_true, if_false] at h
      cases h
      rfl
    · simp only [hc, if_false] at h
      cases h

theorem store_error {ev : EqEnv} {b b' : Bank} {l : RLabel} {k : Nat} {e : Err} (h : b.store ev l k = (.error e, b')) : b'.regs = b.regs := by
  unfold Bank.store at h
  split at h
  · cases h; rfl
  · rename_i r hr
    split at h
    · rename_i hx
      cases h
      rw [add_one_error hx]
      exact set_held _ _ _ hr
    · cases h

theorem addItem_error {ev : EqEnv} {b b' : Bank} {pre : String} {g : Option (Nat × Bool)} {l : RLabel} {k : Nat} {e : Err} (hl : b.regs.contains l = true)
    (h : b.addItem ev pre g (some l) k = (.error e, b')) : b'.regs = b.regs := by
  unfold Bank.addItem Bank.chooseRegister at h
  simp only [hl, if_true] at h
  have hf := flat_regs ev b
  rcases hz : b.flat ev with ⟨e' | all, b2⟩ <;> rw [hz] at h hf <;> dsimp only at h hf
  · cases h
    exact hf
  · by_cases hh : Bank.holds all (g.map Prod.fst) = true
    · rw [if_pos hh] at h
      cases h
      exact hf
    · rw [if_neg hh] at h
      split at h <;> split at h <;> first | (cases h; done) | (rename_i hs; cases h; rw [store_error hs]; exact hf)

variable [DecidableEq K] [Zero K]

/-- C124: `circuit.add_qubit(qubit, label)` with the label of a register that exists leaves all circuits as they were if it raises. -/
theorem C124_add_qubit_partial (w : World K) (c : Nat) (q : Given) (l : RLabel) {D : Circ} (hD : w.circs[c]? = some D) (hl : D.q.regs.contains l = true) {x : Err}
    (hx : (execCall (.addQubit c q (some l)) w).1 = .error x) {d : Nat} {C : Circ} (hC : w.circs[d]? = some C) :
    ((execCall (.addQubit c q (some l)) w).2.circs[d]?).map sees = some (sees C) := by
  have h0 : Keep d (sees C) w.active w.ctxs w := ⟨by rw [hC]; rfl, rfl, rfl⟩
  simp only [execCall, addQubit, hD] at hx ⊢
  cases q with
  | other => exact h0.1
  | none =>
    dsimp only at hx ⊢
    rcases hr : D.q.addItem qubitEnv "qreg" none (some l) w.qubits.length with ⟨e' | new, b⟩
    · exact (h0.setSame hD (by simp [sees, addItem_error hl hr])).1
    · rw [hr] at hx
      cases hx
  | item k =>
    dsimp only at hx ⊢
    cases hk : w.qubits[k]? with
    | none => exact h0.1
    | some v =>
      rw [hk] at hx
      dsimp only at hx ⊢
      rcases hr : D.q.addItem qubitEnv "qreg" (some (k, true)) (some l) w.qubits.length with ⟨e' | new, b⟩
      · exact (h0.setSame hD (by simp [sees, addItem_error hl hr])).1
      · rw [hr] at hx
        cases hx

/-- C124: so does `circuit.add_bit(bit, label)` with the label of a register that exists. -/
theorem C124_add_bit_partial (w : World K) (c : Nat) (q : Given) (l : RLabel) {D : Circ} (hD : w.circs[c]? = some D) (hl : D.c.regs.contains l = true) {x : Err}
    (hx : (execCall (.addBit c q (some l)) w).1 = .error x) {d : Nat} {C : Circ} (hC : w.circs[d]? = some C) :
    ((execCall (.addBit c q (some l)) w).2.circs[d]?).map sees = some (sees C) := by
  have h0 : Keep d (sees C) w.active w.ctxs w := ⟨by rw [hC]; rfl, rfl, rfl⟩
  simp only [execCall, addBit, hD] at hx ⊢
  cases q with
  | other => exact h0.1
  | none =>
    dsimp only at hx ⊢
    rcases hr : D.c.addItem w.bitEnv "creg" none (some l) w.bits.length with ⟨e' | new, b⟩
    · exact (h0.setSame hD (by simp [sees, addItem_error hl hr])).1
    · rw [hr] at hx
      cases hx
  | item k =>
    dsimp only at hx ⊢
    cases hk : w.bits[k]? with
    | none => exact h0.1
    | some v =>
      rw [hk] at hx
      dsimp only at hx ⊢
      rcases hr : D.c.addItem w.bitEnv "creg" (some (k, BitState.bool ⟨v.value⟩)) (some l) w.bits.length with ⟨e' | new, b⟩
      · exact (h0.setSame hD (by simp [sees, addItem_error hl hr])).1
      · rw [hr] at hx
        cases hx

/-- Not vacuous: adding a qubit to the register where it is raises `ValueError`. -/
example : let w := (execCall (.newCirc false (some 1) (some 1)) ({} : World Int)).2
    (execCall (.addQubit 0 (.item 0) (some (.str "qreg0"))) w).1 = .error .valueError ∧ (execCall (.addBit 0 (.item 0) (some (.str "creg0"))) w).1 = .error .valueError ∧
    (w.circs.map fun C => (C.q.regs.contains (.str "qreg0"), C.c.regs.contains (.str "creg0"))) = [(true, true)] := by decide +kernel

/-- If `m` raises, `P` still holds, otherwise `Q` holds afterwards. -/
def EitherHolds {α : Type} (P Q : World K → Prop) (m : M K α) : Prop := ∀ w, P w → match m w with
  | (.error _, w') => P w'
  | (.ok _, w') => Q w'

omit [DecidableEq K] [Zero K] in
theorem either_bind {α β : Type} {P Q : World K → Prop} {m : M K α} {f : α → M K β} (hm : Pres P m) (hf : ∀ a, EitherHolds P Q (f a)) : EitherHolds P Q (m >>= f) := by
  intro w h
  have h1 := hm w h
  rw [bind_def]
  rcases hw : m w with ⟨e' | a, w'⟩
  · rw [hw] at h1
    exact h1
  · rw [hw] at h1
    exact hf a w' h1

theorem either_appendOp (c o : Nat) (C : Circ) (A : Option Nat) (X : List Ctx) :
    EitherHolds (Keep (K := K) c (sees C) A X) (Keep (K := K) c (sees { C with ops := C.ops ++ [o] }) A X) (appendOp c o) := by
  unfold appendOp
  refine either_bind (pres_deref _) fun _ => either_bind (pres_raiseIf _ _) fun _ => either_bind (pres_whenever (keep_evalInPlace _ _)) fun _ =>
    either_bind (pres_deref _) fun op => either_bind ?_ fun _ => ?_
  · exact pres_each fun q => pres_bind (keep_qubitsOf _) fun r => pres_raiseIf _ _
  · intro w h
    obtain ⟨h1, h2⟩ := h
    cases hC : w.circs[c]? with
    | none => rw [hC] at h1; cases h1
    | some D =>
      have hlt : c < w.circs.length := (List.getElem?_eq_some_iff.1 hC).1
      rw [hC] at h1
      simp only [Option.map_some, Option.some.injEq, sees, Prod.mk.injEq] at h1
      simp only [modCirc, M.write]
      refine ⟨?_, ?_⟩
      · have hD : w.circs[c] = D := (List.getElem?_eq_some_iff.1 hC).2
        simp [World.setCirc, hlt, sees, hD, h1]
      · simpa [hC, World.setCirc] using h2

/-- C124: a failing `circuit.extend(operations)` keeps the operations before one that fails, and nothing else of the circuit changes. -/
theorem C124_extend_partial (w : World K) (c : Nat) (os : List Nat) {C : Circ} (hC : w.circs[c]? = some C) {x : Err} (hx : (execCall (.extend c os) w).1 = .error x) :
    ∃ done o rest, os = done ++ o :: rest ∧ ((execCall (.extend c os) w).2.circs[c]?).map sees = some (sees { C with ops := C.ops ++ done }) := by
  have h0 : Keep c (sees C) w.active w.ctxs w := ⟨by rw [hC]; rfl, rfl, rfl⟩
  have key : ∀ (os : List Nat) (A : Option Nat) (X : List Ctx) (C : Circ) (w : World K), Keep c (sees C) A X w → (extendOps c os w).1 = .error x →
      ∃ done o rest, os = done ++ o :: rest ∧ ((extendOps c os w).2.circs[c]?).map sees = some (sees { C with ops := C.ops ++ done }) := by
    intro os A X
    induction os with
    | nil => intro C w _ h; cases h
    | cons o os ih =>
      intro C w hk h
      have ha := either_appendOp c o C A X w hk
      rw [extend_cons] at h ⊢
      rcases hw : appendOp c o w with ⟨e' | u, w'⟩
      · rw [hw] at ha
        refine ⟨[], o, os, rfl, ?_⟩
        simpa using ha.1
      · rw [hw] at ha h
        obtain ⟨done, o', rest, h1, h2⟩ := ih _ w' ha h
        refine ⟨o :: done, o', rest, by rw [h1]; rfl, ?_⟩
        dsimp only at h2 ⊢
        rw [h2]
        simp
  exact key os w.active w.ctxs C w h0 hx

end DG.Props
