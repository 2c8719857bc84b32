import Verif.Spec.Refused
import Verif.Props.Frame

/-!
# C124 — a call that raises an exception leaves the circuits as they were

A user who catches an exception of a call relies on the circuits being as before the call.  This holds for all calls but those that consist of several steps: `extend` and calls of templates
keep the operations before the failing one, `reset` has removed the operations when it fails, and `add_qubit` with a qubit that is in the circuit already creates the register for it first.
-/

namespace DG.Props
open DG.Spec
variable {K : Type}

/-- If `m` raises, `P` still holds. -/
def HoldsOnError {α : Type} (P : World K → Prop) (m : M K α) : Prop := ∀ w, P w → ∀ e, (m w).1 = .error e → P (m w).2

theorem holds_of_pres {α : Type} {P : World K → Prop} {m : M K α} (h : Pres P m) : HoldsOnError P m := fun w hw _ _ => h w hw

theorem holds_of_safe {α : Type} {P : World K → Prop} {m : M K α} (h : ∀ w e, (m w).1 ≠ .error e) : HoldsOnError P m := fun w _ e he => absurd he (h w e)

theorem holds_bind {α β : Type} {P : World K → Prop} {m : M K α} {f : α → M K β} (hm : Pres P m) (hf : ∀ a, HoldsOnError P (f a)) : HoldsOnError P (m >>= f) := by
  intro w h e he
  have h1 := hm w h
  rw [bind_def] at he ⊢
  rcases hw : m w with ⟨e' | a, w'⟩
  · rw [hw] at h1
    exact h1
  · rw [hw] at h1 he
    exact hf a w' h1 e he

/-- The last step cannot fail. -/
theorem holds_then {α β : Type} {P : World K → Prop} {m : M K α} {f : α → M K β} (hm : HoldsOnError P m) (hf : ∀ a w e, (f a w).1 ≠ .error e) : HoldsOnError P (m >>= f) := by
  intro w h e he
  have h1 := hm w h
  rw [bind_def] at he ⊢
  rcases hw : m w with ⟨e' | a, w'⟩
  · rw [hw] at h1
    exact h1 e' rfl
  · rw [hw] at he
    exact absurd he (hf a w' e)

theorem modCirc_safe (c : Nat) (f : Circ → Circ) (w : World K) (e : Err) : (modCirc c f w).1 ≠ .error e := by
  intro h
  simp [modCirc, M.write] at h

theorem modOp_safe (o : Nat) (f : OpObj K → OpObj K) (w : World K) (e : Err) : (modOp o f w).1 ≠ .error e := by
  intro h
  simp [modOp, M.write] at h

theorem size_regs (ev : EqEnv) (b : Bank) : (b.size ev).2.regs = b.regs := by
  have := flat_regs ev b
  unfold Bank.size
  split <;> rename_i h <;> rw [h] at this <;> exact this

theorem addRegister_error {ev : EqEnv} {b b' : Bank} {pre : String} {n : Int} {l : Option RLabel} {k : Nat} {e : Err} (h : b.addRegister ev pre n l k = (.error e, b')) :
    b'.regs = b.regs := by
  unfold Bank.addRegister at h
  dsimp only at h
  have hs := size_regs ev b
  rcases hz : b.size ev with ⟨e' | k', b1⟩ <;> rw [hz] at h hs <;> rcases l with _ | l <;> dsimp only at h <;> split at h <;> cases h <;> first | rfl | exact hs

section
variable {d : Nat} {V : Bool × List Nat × PyDict RLabel Reg × PyDict RLabel Reg × Bool × List Nat × Bool} {A : Option Nat} {X : List Ctx}

theorem holds_addQReg (c : Nat) (n : Int) (l : Option RLabel) : HoldsOnError (Keep (K := K) d V A X) (addQReg c n l) := by
  intro w h e he
  unfold addQReg at he ⊢
  cases hC : w.circs[c]? with
  | none => exact h
  | some C =>
    rw [hC] at he
    dsimp only at he ⊢
    rcases hr : C.q.addRegister qubitEnv "qreg" n l w.qubits.length with ⟨e' | new, b⟩
    · refine h.setSame hC ?_
      simp [sees, addRegister_error hr]
    · rw [hr] at he
      cases he

theorem holds_addCReg (c : Nat) (n : Int) (l : Option RLabel) : HoldsOnError (Keep (K := K) d V A X) (addCReg c n l) := by
  intro w h e he
  unfold addCReg at he ⊢
  cases hC : w.circs[c]? with
  | none => exact h
  | some C =>
    rw [hC] at he
    dsimp only at he ⊢
    rcases hr : C.c.addRegister w.bitEnv "creg" n l w.bits.length with ⟨e' | new, b⟩
    · refine h.setSame hC ?_
      simp [sees, addRegister_error hr]
    · rw [hr] at he
      cases he

theorem holds_getParam (c : Nat) (i : Int) : HoldsOnError (Keep (K := K) d V A X) (getParam c i) := by
  intro w h e he
  unfold getParam at he ⊢
  split
  · exact h
  · rename_i C hC
    rw [hC] at he
    dsimp only at he ⊢
    by_cases hp : (!C.param) = true
    · rw [if_pos hp]
      exact h
    · rw [if_neg hp] at he ⊢
      by_cases hi : i ≥ (C.vars.length : Int) ∧ C.varsFrozen = false
      · rw [if_pos hi] at he
        cases he
      · rw [if_neg hi]
        repeat' split
        all_goals exact h

variable [DecidableEq K] [Zero K]

theorem holds_appendOp (c o : Nat) : HoldsOnError (Keep (K := K) d V A X) (appendOp c o) := by
  unfold appendOp
  refine holds_bind (pres_deref _) fun C => holds_bind (pres_raiseIf _ _) fun _ => holds_bind (pres_whenever (keep_evalInPlace _ _)) fun _ =>
    holds_bind (pres_deref _) fun op => holds_bind ?_ fun _ => holds_of_safe (modCirc_safe _ _)
  exact pres_each fun q => pres_bind (keep_qubitsOf _) fun r => pres_raiseIf _ _

theorem holds_register (a : Option Nat) (o : Nat) : HoldsOnError (Keep (K := K) d V A X) (register a o) := by
  unfold register
  split
  · exact holds_of_pres (pres_pure _)
  · refine holds_bind (pres_deref _) fun C => ?_
    unfold M.whenever
    split
    · exact holds_appendOp _ _
    · exact holds_of_pres (pres_pure _)

theorem holds_init (op : OpObj K) (qs : Option (List Nat)) : HoldsOnError (Keep (K := K) d V A X) (initOperation op qs) := by
  unfold initOperation
  refine holds_bind (pres_read _) fun a => holds_bind ?_ fun _ => holds_bind (fun w h => h.same rfl rfl rfl) fun o => holds_then (holds_register a o) fun _ w e h => by cases h
  cases qs with
  | none => exact pres_raiseIf _ _
  | some l => exact keep_checkArity _ _

theorem holds_construct (k : Nat) (ps : Option (List (OpParam K))) (a : QArgs) : HoldsOnError (Keep (K := K) d V A X) (construct k ps a) := by
  unfold construct
  refine holds_bind (pres_deref _) fun C => ?_
  split
  · exact holds_init _ _
  · exact holds_init _ _
  · exact holds_bind (pres_raiseIf _ _) fun _ => holds_init _ _
  · exact holds_init _ _
  · rename_i ps a
    unfold checkParams
    cases hd : decide (some ps.length ≠ C.numParams) with
    | true => exact holds_of_pres fun w h => h
    | false =>
      refine holds_bind (pres_raiseIf _ _) fun _ => holds_then (holds_init _ _) fun o w e h => ?_
      simp only [bind_def, M.raiseIf, Bool.false_eq_true, if_false] at h
      rcases hm : modOp o (fun op => { op with params := ps }) w with ⟨e' | u, w'⟩
      · exact modOp_safe o (fun op => { op with params := ps }) w e' (by rw [hm])
      · rw [hm] at h
        cases h
  · exact holds_of_pres (pres_raise _)

theorem holds_reapply (o : Nat) (a : QArgs) : HoldsOnError (Keep (K := K) d V A X) (reapply o a) := by
  unfold reapply
  refine holds_bind (pres_deref _) fun op => holds_bind (pres_deref _) fun C => ?_
  split <;> first | exact holds_construct _ _ _ | exact holds_of_pres (pres_raise _)

theorem void_error {α : Type} {m : M K α} {w : World K} {e : Err} (h : (m.void w).1 = .error e) : (m w).1 = .error e := by
  unfold M.void at h
  split at h
  · cases h
  · rename_i hm
    rw [hm]
    cases h
    rfl

/-- **C124 (part).** In every state: if a call other than `add_qubit`, `add_bit`, `extend`, calls of templates and `reset(keep_registers=True)` raises an exception, every circuit is as the
user saw it before, also the one whose method was called or to which an operation would have been added.  Missing: the calls excluded, for which it is false. -/
theorem C124_refused_partial (w : World K) (e : Call K) (ha : AllOrNothing e) {x : Err} (hx : (execCall e w).1 = .error x) {d : Nat} {C : Circ} (hC : w.circs[d]? = some C) :
    ((execCall e w).2.circs[d]?).map sees = some (sees C) := by
  by_cases he : mayChange w e = some d
  · have h0 : Keep d (sees C) w.active w.ctxs w := ⟨by rw [hC]; rfl, rfl, rfl⟩
    have go : ∀ {α : Type} {m : M K α}, HoldsOnError (Keep (K := K) d (sees C) w.active w.ctxs) m → (m.void w).1 = .error x → ((m.void w).2.circs[d]?).map sees = some (sees C) := by
      intro α m h hx
      rw [void_snd]
      exact (h w h0 x (void_error hx)).1
    cases e with
    | addQReg c n l => exact (holds_addQReg c n l w h0 x hx).1
    | addCReg c n l => exact (holds_addCReg c n l w h0 x hx).1
    | getParam c i => exact go (holds_getParam c i) hx
    | construct k p a => exact go (holds_construct k p a) hx
    | reapply o a => exact go (holds_reapply o a) hx
    | append c o => exact (holds_appendOp c o w h0 x hx).1
    | remove c o =>
      simp only [execCall, removeOp] at hx ⊢
      split
      · rename_i h1 h2
        rw [h1, h2] at hx
        dsimp only at hx
        split
        · exact h0.1
        · rename_i h3
          rw [h3] at hx
          cases hx
      · exact h0.1
    | lock c => exact absurd hx (modCirc_safe _ _ _ _)
    | unlock c => exact absurd hx (modCirc_safe _ _ _ _)
    | reset c k =>
      cases ha
      exact (holds_bind (pres_deref _) (fun _ => holds_of_safe fun w e h => by
        simp [bind_def, modCirc, M.write, resetRegisters, unlockCirc] at h) w h0 x hx).1
    | addQubit c q l => exact ha.elim
    | addBit c q l => exact ha.elim
    | extend c os => exact ha.elim
    | call a q b => exact ha.elim
    | callParam a p q b => exact ha.elim
    | _ => cases he
  · exact C123_frame w e hC he

end

/-! ### Violations -/

/-- C124 fails: `circuit.add_qubit(q, "new")` with a qubit that is in the circuit raises `ValueError`, but the circuit has a new register. -/
theorem C124_add_qubit_violated :
    let w := (execCall (.newCirc false (some 1) none) ({} : World Int)).2
    let r := execCall (.addQubit 0 (.item 0) (some (.str "new"))) w
    r.1 = .error .valueError ∧ (w.circs.map (·.q.regs.length)) = [1] ∧ (r.2.circs.map (·.q.regs.length)) = [2] := by decide +kernel

/-- C124 fails: `circuit.extend([op, other])` with an operation on a qubit of another circuit raises `ValueError`, but the first operation is in the circuit. -/
theorem C124_extend_violated :
    let w := (execCall (.construct 0 none (.qubits (some [1]))) (execCall (.construct 0 none (.qubits (some [0]))) (execCall (.newQubit (.str "a")) (execCall (.newCirc false (some 1) none)
      (execCall (.newClass ⟨"X", .plain, ⟨false, some 1, none, none⟩, none⟩) ({} : World Int)).2).2).2).2).2
    let r := execCall (.extend 0 [0, 1]) w
    r.1 = .error .valueError ∧ (w.circs.map (·.ops)) = [[]] ∧ (r.2.circs.map (·.ops)) = [[0]] := by decide +kernel

/-- C124 fails: `circuit.reset()` raises `AttributeError` if a bit has got a value before `circuit.bits` was read, but the operations are gone. -/
theorem C124_reset_violated :
    let w := (execCall (.setBit 0 false false) (execCall (.append 0 0) (execCall (.construct 0 none (.qubits (some [0]))) (execCall (.newCirc false (some 1) (some 1))
      (execCall (.newClass ⟨"X", .plain, ⟨false, some 1, none, none⟩, none⟩) ({} : World Int)).2).2).2).2).2
    let r := execCall (.reset 0 true) w
    r.1 = .error .attributeError ∧ (w.circs.map (·.ops)) = [[0]] ∧ (r.2.circs.map (·.ops)) = [[]] := by decide +kernel

/-- C124 fails for the operation itself: appending an operation on a qubit of another circuit raises `ValueError`, but its variable has been replaced by its value. -/
theorem C124_append_violated :
    let w := (execCall (.construct 0 (some [.var 0]) (.qubits (some [1]))) (execCall (.setVar 0 5) (execCall (.newVar "v") (execCall (.newQubit (.str "a")) (execCall (.newCirc false (some 1) none)
      (execCall (.newClass ⟨"RX", .parametric, ⟨false, some 1, none, none⟩, some 1⟩) ({} : World Int)).2).2).2).2).2).2
    let r := execCall (.append 0 0) w
    r.1 = .error .valueError ∧ (w.ops.map fun o => o.params.map fun | .num _ => true | .var _ => false) = [[false]] ∧
      (r.2.ops.map fun o => o.params.map fun | .num _ => true | .var _ => false) = [[true]] := by decide +kernel

/-- Not vacuous: appending to a locked circuit that has an operation raises, and so does a register with a label that is taken. -/
example : let w := (execCall (.lock 0) (execCall (.append 0 0) (execCall (.construct 0 none (.qubits (some [0]))) (execCall (.newCirc false (some 1) none)
      (execCall (.newClass ⟨"X", .plain, ⟨false, some 1, none, none⟩, none⟩) ({} : World Int)).2).2).2).2).2
    (execCall (.append 0 0) w).1 = .error .circuitError ∧ (execCall (.addQReg 0 2 (some (.str "qreg0"))) w).1 = .error .valueError ∧ (w.circs.map (·.ops)) = [[0]] ∧
    AllOrNothing (.append 0 0 : Call Int) := by
  refine ⟨by decide +kernel, by decide +kernel, by decide +kernel, trivial⟩

end DG.Props
