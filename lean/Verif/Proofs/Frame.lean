import Verif.Spec.Frame
import Verif.Proofs.Pres

/-! Lemmas for C123. -/

namespace DG
open Spec
variable {K : Type}

/-- Circuit `d` looks like `V`; the active context and the contexts are `A` and `X`. -/
def Keep (d : Nat) (V : Bool × List Nat × PyDict RLabel Reg × PyDict RLabel Reg × Bool × List Nat × Bool) (A : Option Nat) (X : List Ctx) (w : World K) : Prop :=
  (w.circs[d]?).map sees = some V ∧ w.active = A ∧ w.ctxs = X

section
variable {d : Nat} {V : Bool × List Nat × PyDict RLabel Reg × PyDict RLabel Reg × Bool × List Nat × Bool} {A : Option Nat} {X : List Ctx}

theorem Keep.same {w w' : World K} (h : Keep d V A X w) (h1 : w'.circs = w.circs) (h2 : w'.active = w.active) (h3 : w'.ctxs = w.ctxs) : Keep d V A X w' := by
  unfold Keep at h ⊢
  rw [h1, h2, h3]
  exact h

theorem Keep.setOther {w : World K} (h : Keep d V A X w) {c : Nat} (hc : c ≠ d) (C : Circ) : Keep d V A X (w.setCirc c C) := by
  refine ⟨?_, h.2⟩
  simp only [World.setCirc]
  rw [List.getElem?_set_ne hc]
  exact h.1

theorem Keep.setSame {w : World K} (h : Keep d V A X w) {c : Nat} {C C' : Circ} (hC : w.circs[c]? = some C) (hs : sees C' = sees C) : Keep d V A X (w.setCirc c C') := by
  by_cases hc : c = d
  · subst hc
    have hlt : c < w.circs.length := (List.getElem?_eq_some_iff.1 hC).1
    have h1 := h.1
    rw [hC] at h1
    refine ⟨?_, h.2⟩
    simp only [World.setCirc]
    rw [List.getElem?_set_self hlt, Option.map_some, hs]
    exact h1
  · exact h.setOther hc C'

theorem flat_regs (ev : EqEnv) (b : Bank) : (b.flat ev).2.regs = b.regs := by
  unfold Bank.flat
  split
  · rfl
  · split <;> rfl

theorem keep_qubitsOf (c : Nat) : Pres (Keep (K := K) d V A X) (qubitsOf c) := by
  intro w h
  unfold qubitsOf
  split
  · exact h
  · rename_i C hC
    refine h.setSame hC ?_
    simp [sees, flat_regs]

theorem keep_bitsOf (c : Nat) : Pres (Keep (K := K) d V A X) (bitsOf c) := by
  intro w h
  unfold bitsOf
  split
  · exact h
  · rename_i C hC
    refine h.setSame hC ?_
    simp [sees, flat_regs]

theorem keep_modCirc {c : Nat} (hc : c ≠ d) (f : Circ → Circ) : Pres (Keep (K := K) d V A X) (modCirc c f) := by
  intro w h
  unfold modCirc M.write
  dsimp only
  split
  · exact h.setOther hc _
  · exact h

theorem keep_modOp (o : Nat) (f : OpObj K → OpObj K) : Pres (Keep (K := K) d V A X) (modOp o f) := by
  intro w h
  unfold modOp M.write
  dsimp only
  split
  · exact h.same rfl rfl rfl
  · exact h

theorem keep_addQReg {c : Nat} (hc : c ≠ d) (n : Int) (l : Option RLabel) : Pres (Keep (K := K) d V A X) (addQReg c n l) := by
  intro w h
  unfold addQReg
  split
  · exact h
  · split
    · exact h.setOther hc _
    · exact (h.setOther hc _).same rfl rfl rfl

theorem keep_addCReg {c : Nat} (hc : c ≠ d) (n : Int) (l : Option RLabel) : Pres (Keep (K := K) d V A X) (addCReg c n l) := by
  intro w h
  unfold addCReg
  split
  · exact h
  · split
    · exact h.setOther hc _
    · exact (h.setOther hc _).same rfl rfl rfl

theorem keep_addQubit {c : Nat} (hc : c ≠ d) (q : Given) (l : Option RLabel) : Pres (Keep (K := K) d V A X) (addQubit c q l) := by
  intro w h
  unfold addQubit
  split
  · exact h
  · dsimp only
    split
    · exact h
    · split
      · exact h.setOther hc _
      · exact (h.setOther hc _).same rfl rfl rfl
    · split
      · exact h
      · split
        · exact h.setOther hc _
        · exact (h.setOther hc _).same rfl rfl rfl

theorem keep_addBit {c : Nat} (hc : c ≠ d) (q : Given) (l : Option RLabel) : Pres (Keep (K := K) d V A X) (addBit c q l) := by
  intro w h
  unfold addBit
  split
  · exact h
  · dsimp only
    split
    · exact h
    · split
      · exact h.setOther hc _
      · exact (h.setOther hc _).same rfl rfl rfl
    · split
      · exact h
      · split
        · exact h.setOther hc _
        · exact (h.setOther hc _).same rfl rfl rfl

theorem keep_getParam {c : Nat} (hc : c ≠ d) (i : Int) : Pres (Keep (K := K) d V A X) (getParam c i) := by
  intro w h
  unfold getParam
  split
  · exact h
  · split
    · exact h
    · dsimp only
      split
      · exact (h.setOther hc _).same rfl rfl rfl
      · repeat' split
        all_goals exact h

theorem keep_setVar (v : Nat) (x : K) : Pres (Keep (K := K) d V A X) (setVar v x) := by
  intro w h
  unfold setVar M.write
  dsimp only
  split
  · exact h.same rfl rfl rfl
  · exact h

theorem keep_resetVar (v : Nat) : Pres (Keep (K := K) d V A X) (resetVar v) := by
  intro w h
  unfold resetVar M.write
  dsimp only
  split
  · exact h.same rfl rfl rfl
  · exact h

theorem keep_resetItem (x : Lbl) : Pres (Keep (K := K) d V A X) (resetItem x) := by
  intro w h
  unfold resetItem
  split
  · unfold M.write
    dsimp only
    split
    · exact h.same rfl rfl rfl
    · exact h
  · exact h

theorem keep_checkArity (k m : Nat) : Pres (Keep (K := K) d V A X) (checkArity k m) := by
  intro w h
  unfold checkArity
  split
  · exact h
  · exact h.same rfl rfl rfl

theorem keep_measureInto (o : Nat) (bs : List Nat) : Pres (Keep (K := K) d V A X) (measureInto o bs) := by
  unfold measureInto
  refine pres_bind (pres_deref _) fun op => pres_bind (pres_deref _) fun C => ?_
  split
  · exact pres_bind (pres_raiseIf _ _) fun _ => keep_modOp _ _
  · exact pres_raise _

theorem keep_setVars : ∀ (vs : List Nat) (xs : List K), Pres (Keep (K := K) d V A X) (setVars vs xs)
  | [], _ => pres_pure _
  | _ :: _, [] => pres_raise _
  | v :: vs, x :: xs => pres_bind (keep_setVar v x) fun _ => keep_setVars vs xs

variable [DecidableEq K] [Zero K]

theorem keep_evalInPlace (o : Nat) (g : Option (List K)) : Pres (Keep (K := K) d V A X) (evalInPlace o g) := by
  intro w h
  unfold evalInPlace
  split
  · exact h
  · split
    · exact h
    · split
      · exact h.same rfl rfl rfl
      · exact h

theorem keep_appendOp {c : Nat} (hc : c ≠ d) (o : Nat) : Pres (Keep (K := K) d V A X) (appendOp c o) := by
  unfold appendOp
  refine pres_bind (pres_deref _) fun C => pres_bind (pres_raiseIf _ _) fun _ => pres_bind (pres_whenever (keep_evalInPlace _ _)) fun _ =>
    pres_bind (pres_deref _) fun op => pres_bind ?_ fun _ => keep_modCirc hc _
  exact pres_each fun q => pres_bind (keep_qubitsOf _) fun r => pres_raiseIf _ _

/-- The target of the active context `A` among the contexts `X` is not `d`. -/
def NotTarget (d : Nat) (A : Option Nat) (X : List Ctx) : Prop := ∀ x, A = some x → ∀ Y, X[x]? = some Y → Y.frozen = false → Y.circuit ≠ d

omit [DecidableEq K] [Zero K] in
theorem notTarget {w : World K} (h : w.target ≠ some d) : NotTarget d w.active w.ctxs := by
  intro x hx Y hY hf he
  apply h
  unfold World.target
  rw [hx]
  simp [hY, hf, he]

theorem keep_register (ht : NotTarget d A X) (o : Nat) : Pres (Keep (K := K) d V A X) (register A o) := by
  intro w h
  unfold register
  split
  · exact h
  · rename_i x
    rw [bind_def]
    unfold ctxObj M.deref
    dsimp only
    have hX : w.ctxs = X := h.2.2
    cases hY : w.ctxs[x]? with
    | none => exact h
    | some Y =>
      rw [hX] at hY
      dsimp only
      unfold M.whenever
      cases hf : Y.frozen with
      | true => exact h
      | false => exact keep_appendOp (ht x rfl Y hY hf) o w h

theorem keep_init (ht : NotTarget d A X) (op : OpObj K) (qs : Option (List Nat)) : Pres (Keep (K := K) d V A X) (initOperation op qs) := by
  intro w h
  have key : Pres (Keep (K := K) d V A X) (do
      checkArg op.cls A qs
      let o ← newOp { op with qubits := qs, numQubits := qs.map List.length, cond := none }
      register A o
      pure o : M K Nat) := by
    refine pres_bind ?_ fun _ => pres_bind (fun w h => h.same rfl rfl rfl) fun o => pres_bind (keep_register ht o) fun _ => pres_pure _
    cases qs with
    | none => exact pres_raiseIf _ _
    | some l => exact keep_checkArity _ _
  have hA : w.active = A := h.2.1
  subst hA
  exact key w h

theorem keep_construct (ht : NotTarget d A X) (k : Nat) (ps : Option (List (OpParam K))) (a : QArgs) : Pres (Keep (K := K) d V A X) (construct k ps a) := by
  unfold construct
  refine pres_bind (pres_deref _) fun C => ?_
  split
  · exact keep_init ht _ _
  · exact keep_init ht _ _
  · exact pres_bind (pres_raiseIf _ _) fun _ => keep_init ht _ _
  · exact keep_init ht _ _
  · exact pres_bind (pres_raiseIf _ _) fun _ => pres_bind (keep_init ht _ _) fun _ => pres_bind (pres_raiseIf _ _) fun _ => pres_bind (keep_modOp _ _) fun _ => pres_pure _
  · exact pres_raise _

theorem keep_reapply (ht : NotTarget d A X) (o : Nat) (a : QArgs) : Pres (Keep (K := K) d V A X) (reapply o a) := by
  unfold reapply
  refine pres_bind (pres_deref _) fun op => pres_bind (pres_deref _) fun C => ?_
  split <;> first | exact keep_construct ht _ _ _ | exact pres_raise _

theorem keep_callOne (ht : NotTarget d A X) (qm : PyDict Lbl Nat) (bm : Option (PyDict Lbl Nat)) (o : Nat) : Pres (Keep (K := K) d V A X) (callOne qm bm o) := by
  unfold callOne
  refine pres_bind (pres_deref _) fun op => pres_bind (pres_deref _) fun C => pres_bind (pres_lookupAll _ _) fun m => ?_
  have hc := fun k ps a => pres_bind (keep_construct (K := K) (V := V) ht k ps a) fun _ => pres_pure ()
  split
  · exact pres_bind (pres_lookupAll _ _) fun _ => pres_bind (keep_construct ht _ _ _) fun _ => keep_measureInto _ _
  · exact hc _ _ _
  · exact hc _ _ _
  · exact hc _ _ _
  · split
    · exact hc _ _ _
    · exact pres_raise _
  · exact hc _ _ _

theorem keep_callCirc (ht : NotTarget d A X) (a : Nat) (qs : List Nat) (bs : Option (List Nat)) : Pres (Keep (K := K) d V A X) (callCirc a qs bs) := by
  unfold callCirc
  refine pres_bind (pres_read _) fun act => ?_
  split
  · exact pres_raise _
  · refine pres_bind (pres_deref _) fun Y => pres_bind (pres_raiseIf _ _) fun _ => pres_bind (keep_qubitsOf _) fun r => pres_bind (pres_raiseIf _ _) fun _ =>
      pres_bind ?_ fun bm => pres_bind (keep_qubitsOf _) fun r => pres_bind (pres_zipMap _ _) fun qm => pres_bind (pres_deref _) fun C => pres_each fun o => keep_callOne ht _ _ _
    unfold bitMap
    split
    · exact pres_pure _
    · exact pres_bind (keep_bitsOf _) fun r => pres_bind (pres_raiseIf _ _) fun _ => pres_bind (pres_zipMap _ _) fun _ => pres_pure _

theorem keep_evalOps {c : Nat} {inplace : Bool} (hc : inplace = false → c ≠ d) (g : Option (List (List K))) : ∀ (l : List Nat) (i : Nat),
    Pres (Keep (K := K) d V A X) (evalOps c g inplace i l)
  | [], _ => pres_pure _
  | o :: l, i => by
    refine pres_bind ?_ fun _ => keep_evalOps hc g l (i + 1)
    unfold evalAt
    refine pres_bind (pres_deref _) fun op => pres_bind (pres_deref _) fun C => ?_
    split
    · exact pres_raise _
    · split
      · split
        · exact keep_evalInPlace _ _
        · rename_i hi
          refine pres_bind ?_ fun o' => keep_modCirc (hc (by simpa using hi)) _
          intro w h
          unfold evalOpCopy
          split
          · exact h
          · split
            · exact h
            · exact h.same rfl rfl rfl
      · exact pres_pure _

end
end DG
