import Verif.Proofs.Interrupt
import Verif.Spec.Interrupt

/-! Interrupts: what holds in all states in which a call can be interrupted. -/

namespace DG
variable {K α β : Type}

/-- `P` holds wherever `m` can be interrupted. -/
def CutSafe (P : World K → Prop) (m : Steps (World K) α) : Prop := ∀ w, P w → ∀ w' ∈ m.cut w, P w'

section
variable {P : World K → Prop}

theorem cut_atom (m : M K α) : CutSafe P (.atom m) := by
  intro w h w' hw
  simp only [Steps.atom, List.mem_singleton] at hw
  subst hw; exact h

theorem cut_pure (a : α) : CutSafe (K := K) P (pure a) := fun _ _ _ hw => by cases hw

theorem Steps.cut_bind_eq {σ : Type} (m : Steps σ α) (f : α → Steps σ β) (s : σ) : (m >>= f).cut s = m.cut s ++ match m.run s with
    | (.ok a, s') => (f a).cut s'
    | (.error _, _) => [] := by
  show (Steps.bind m f).cut s = _
  unfold Steps.bind
  dsimp only
  generalize m.run s = z
  obtain ⟨_ | _, _⟩ := z <;> rfl

theorem cut_bind {m : Steps (World K) α} {f : α → Steps (World K) β} (h1 : CutSafe P m) (h2 : Pres P m.run) (h3 : ∀ a, CutSafe P (f a)) :
    CutSafe P (m >>= f) := by
  intro w h w' hw
  rw [Steps.cut_bind_eq, List.mem_append] at hw
  rcases hw with hw | hw
  · exact h1 w h w' hw
  · have h4 := h2 w h
    generalize m.run w = z at hw h4
    obtain ⟨_ | a, w1⟩ := z
    · cases hw
    · exact h3 a w1 h4 w' hw

theorem cut_step {m : M K α} {f : α → Steps (World K) β} (h2 : Pres P m) (h3 : ∀ a, CutSafe P (f a)) : CutSafe P (Steps.atom m >>= f) :=
  cut_bind (cut_atom m) h2 h3

theorem cut_whenever {c : Bool} {m : Steps (World K) Unit} (h : CutSafe P m) : CutSafe P (.whenever c m) := by
  cases c with
  | false => exact cut_pure _
  | true => exact h

theorem cut_each {l : List α} {f : α → Steps (World K) Unit} (h1 : ∀ a, CutSafe P (f a)) (h2 : ∀ a, Pres P (f a).run) : CutSafe P (.each l f) := by
  induction l with
  | nil => exact cut_pure _
  | cons a l ih => exact cut_bind (h1 a) (h2 a) fun _ => ih

theorem cut_void {m : Steps (World K) α} (h : CutSafe P m) : CutSafe P m.void := h

end

variable [DecidableEq K] [Zero K]

/-- `P` is kept by the single steps of `reset` and `unlock`. -/
structure CutPrims (P : World K → Prop) : Prop where
  dropOps : ∀ c, Pres P (modCirc c fun C => { C with ops := [] })
  dropCtx : ∀ c, Pres P (modCirc c fun C => { C with ctx := none })
  thaw : ∀ c, Pres P (modCirc c fun C => if C.param then { C with varsFrozen := false } else C)

section
variable {P : World K → Prop} (h : Prims P)
include h

theorem cut_eval (o : Nat) (g : Option (List K)) : CutSafe P (evalSteps o g) := by
  intro w hw w' hw'
  simp only [evalSteps, List.mem_cons] at hw'
  rcases hw' with rfl | hw'
  · exact hw
  · generalize ho : w.ops[o]? = z at hw'
    cases z with
    | none => cases hw'
    | some op =>
      dsimp only at hw'
      generalize w.classes[op.cls]? = z at hw'
      cases z with
      | none => cases hw'
      | some k =>
        dsimp only at hw'
        split at hw'
        · obtain ⟨i, -, rfl⟩ := List.mem_map.1 hw'
          have := h.setParams o ((evalLoop w.varVal g 0 op.params).2.take i ++ op.params.drop i) w hw
          unfold modOp M.write at this
          simp only [ho] at this
          exact this
        · cases hw'

theorem cut_checkMember (c : Nat) (qs : List Nat) : CutSafe P (checkMemberSteps c qs : Steps (World K) Unit) := by
  refine cut_each (fun _ => cut_step (h.qubitsOf c) fun _ => cut_atom _) fun q => ?_
  rw [run_bind (m' := qubitsOf c) (f' := fun r => M.raiseIf (!r.cy.count (.obj q)) .valueError) rfl fun _ => rfl]
  exact pres_bind (h.qubitsOf c) fun _ => pres_raiseIf _ _

theorem cut_append (c o : Nat) : CutSafe P (appendSteps c o : Steps (World K) Unit) := by
  unfold appendSteps
  refine cut_step (pres_deref _) fun C => cut_step (pres_raiseIf _ _) fun _ => cut_bind (cut_whenever (cut_eval h _ _)) ?_ fun _ =>
    cut_step (pres_deref _) fun op => cut_bind (cut_checkMember h _ _) ?_ fun _ => cut_atom _
  · rw [run_whenever (m' := evalInPlace o none) rfl]; exact pres_whenever (h.evalInPlace _ _)
  · unfold checkMemberSteps
    rw [run_each (f' := fun q => qubitsOf c >>= fun r => M.raiseIf (!r.cy.count (.obj q)) .valueError) fun q => run_bind rfl fun _ => rfl]
    exact pres_each fun _ => pres_bind (h.qubitsOf c) fun _ => pres_raiseIf _ _

theorem cut_register (a : Option Nat) (o : Nat) : CutSafe P (registerSteps a o : Steps (World K) Unit) := by
  unfold registerSteps
  cases a with
  | none => exact cut_pure _
  | some x => exact cut_step (pres_deref _) fun C => cut_whenever (cut_append h _ _)

theorem cut_init (op : OpObj K) (q : Option (List Nat)) : CutSafe P (initSteps op q) := by
  unfold initSteps
  exact cut_step (pres_read _) fun a => cut_step (h.to0.checkArg _ _ _) fun _ => cut_step (h.newOp _) fun o =>
    cut_bind (cut_register h _ _) (by rw [run_register]; exact pres_register h.appendOp _ _) fun _ => cut_pure _

theorem pres_init (op : OpObj K) (q : Option (List Nat)) : Pres P (initSteps op q).run := by
  rw [run_init]; exact h.to0.initOperation _ _

theorem cut_construct (k : Nat) (ps : Option (List (OpParam K))) (a : QArgs) : CutSafe P (constructSteps k ps a) := by
  unfold constructSteps
  refine cut_step (pres_deref _) fun C => ?_
  split
  · exact cut_init h _ _
  · exact cut_init h _ _
  · exact cut_step (pres_raiseIf _ _) fun _ => cut_init h _ _
  · exact cut_init h _ _
  · exact cut_step (pres_raiseIf _ _) fun _ => cut_bind (cut_init h _ _) (pres_init h _ _) fun o => cut_step (pres_raiseIf _ _) fun _ =>
      cut_step (h.setParams _ _) fun _ => cut_pure _
  · exact cut_atom _

theorem pres_construct (k : Nat) (ps : Option (List (OpParam K))) (a : QArgs) : Pres P (constructSteps k ps a).run := by
  rw [run_construct]; exact h.to0.construct _ _ _

theorem cut_reapply (o : Nat) (a : QArgs) : CutSafe P (reapplySteps o a : Steps (World K) Nat) := by
  unfold reapplySteps
  refine cut_step (pres_deref _) fun op => cut_step (pres_deref _) fun C => ?_
  split <;> first | exact cut_construct h _ _ _ | exact cut_atom _

theorem cut_callOne (qm : PyDict Lbl Nat) (bm : Option (PyDict Lbl Nat)) (o : Nat) : CutSafe P (callOneSteps qm bm o : Steps (World K) Unit) := by
  unfold callOneSteps
  refine cut_step (pres_deref _) fun op => cut_step (pres_deref _) fun C => cut_step (pres_lookupAll _ _) fun mapped => ?_
  have hc : ∀ k ps a, CutSafe P (constructSteps k ps a >>= fun _ => pure () : Steps (World K) Unit) := fun k ps a =>
    cut_bind (cut_construct h _ _ _) (pres_construct h _ _ _) fun _ => cut_pure _
  split
  · exact cut_step (pres_lookupAll _ _) fun _ => cut_bind (cut_construct h _ _ _) (pres_construct h _ _ _) fun _ => cut_atom _
  · exact hc _ _ _
  · exact hc _ _ _
  · exact hc _ _ _
  · split
    · exact hc _ _ _
    · exact cut_atom _
  · exact hc _ _ _

theorem cut_bitMap (a : Nat) (bs : Option (List Nat)) : CutSafe P (bitMapSteps a bs : Steps (World K) _) := by
  unfold bitMapSteps
  split
  · exact cut_pure _
  · exact cut_step (h.bitsOf _) fun _ => cut_step (pres_raiseIf _ _) fun _ => cut_step (pres_zipMap _ _) fun _ => cut_pure _

theorem cut_call (a : Nat) (qs : List Nat) (bs : Option (List Nat)) : CutSafe P (callSteps a qs bs : Steps (World K) Unit) := by
  unfold callSteps
  refine cut_step (pres_read _) fun act => ?_
  split
  · exact cut_atom _
  · refine cut_step (pres_deref _) fun _ => cut_step (pres_raiseIf _ _) fun _ => cut_step (h.qubitsOf _) fun _ =>
      cut_step (pres_raiseIf _ _) fun _ => cut_bind (cut_bitMap h _ _) (by rw [run_bitMap]; exact h.to0.bitMap _ _) fun _ => cut_step (h.qubitsOf _) fun _ =>
      cut_step (pres_zipMap _ _) fun _ => cut_step (pres_deref _) fun _ => cut_each (fun _ => cut_callOne h _ _ _) fun _ => ?_
    rw [run_callOne]; exact h.to0.callOne _ _ _

omit h [DecidableEq K] [Zero K] in
theorem cut_setVars (hs : ∀ v (x : K), Pres P (setVar v x)) : ∀ (vs : List Nat) (xs : List K), CutSafe P (setVarsSteps vs xs)
  | [], _ => cut_pure _
  | _ :: _, [] => cut_atom _
  | _ :: vs, _ :: xs => cut_step (hs _ _) fun _ => cut_setVars hs vs xs

omit h [DecidableEq K] [Zero K] in
theorem cut_resetVariables (hs : ∀ v, Pres P (resetVar v)) (c : Nat) : CutSafe P (resetVariablesSteps c : Steps (World K) Unit) :=
  cut_step (pres_deref _) fun _ => cut_each (fun _ => cut_atom _) fun _ => hs _

omit h [DecidableEq K] [Zero K] in
theorem cut_unlock (s : CutPrims P) (c : Nat) : CutSafe P (unlockSteps c : Steps (World K) Unit) :=
  cut_step (s.thaw c) fun _ => cut_atom _

theorem cut_resetBits (c : Nat) : CutSafe P (resetBitsSteps c : Steps (World K) Unit) := by
  unfold resetBitsSteps
  refine cut_step (h.bitsOf _) fun r => ?_
  split
  · exact cut_atom _
  · exact cut_each (fun _ => cut_atom _) fun _ => h.resetItem _

theorem cut_reset (s : CutPrims P) (c : Nat) : CutSafe P (resetSteps c true : Steps (World K) Unit) := by
  unfold resetSteps
  refine cut_step (pres_deref _) fun _ => cut_step (s.dropOps c) fun _ => cut_step (s.dropCtx c) fun _ =>
    cut_bind (cut_resetBits h c) ?_ fun _ => cut_unlock s c
  show Pres P (resetBitsSteps c).run
  rw [run_resetBits]
  unfold resetBits
  refine pres_bind (h.bitsOf _) fun r => ?_
  split
  · exact pres_raise _
  · exact pres_each fun _ => h.resetItem _

omit h [DecidableEq K] [Zero K] in
/-- `reset(keep_registers=False)`. -/
theorem cut_resetDrop (s : CutPrims P) (c : Nat) (hq : Pres P (modCirc c fun C => { C with q := C.q.clear })) (hc : Pres P (modCirc c fun C => { C with c := C.c.clear })) :
    CutSafe P (resetSteps c false : Steps (World K) Unit) := by
  unfold resetSteps
  refine cut_step (pres_deref _) fun _ => cut_step (s.dropOps c) fun _ => cut_step (s.dropCtx c) fun _ =>
    cut_bind (cut_step hq fun _ => cut_atom _) ?_ fun _ => cut_unlock s c
  show Pres P (Steps.run (_ >>= _))
  rw [run_bind (m' := modCirc c fun C => { C with q := C.q.clear }) (f' := fun _ => modCirc c fun C => { C with c := C.c.clear }) rfl fun _ => rfl]
  exact pres_bind hq fun _ => hc

theorem cut_open (g : CtxPrims P) (c : Nat) : CutSafe P (openSteps c : Steps (World K) Nat) := by
  unfold openSteps
  exact cut_step (g.contextOf _) fun x => cut_step (pres_deref _) fun X => cut_step (pres_deref _) fun C => cut_step (pres_raiseIf _ _) fun _ =>
    cut_step (pres_read _) fun a => cut_step (pres_raiseIf _ _) fun _ => cut_step (fun w hw => g.setActive _ w hw) fun _ =>
    cut_step (h.qubitsOf _) fun _ => cut_step (h.bitsOf _) fun _ => cut_pure _

omit h in
theorem cut_exit (g : CtxPrims P) (x : Nat) : CutSafe P (exitSteps x : Steps (World K) Unit) := by
  unfold exitSteps
  exact cut_step (pres_deref _) fun X => cut_step (g.freezeVars _) fun _ => cut_step (fun w hw => g.setActive _ w hw) fun _ =>
    cut_step (pres_read _) fun a => cut_bind (cut_each (fun _ => cut_resetVariables g.resetVar _) fun _ => by rw [run_resetVariables]; exact g.resetVariables _)
      (by rw [run_each (f' := resetVariables) run_resetVariables]; exact pres_each fun _ => g.resetVariables _) fun _ =>
    cut_step (fun w hw => g.setOnExit _ w hw) fun _ => cut_atom _

theorem cut_callParam (hv : ∀ v (x : K), Pres P (setVar v x)) (hx : ∀ a w, P w → P { w with onExit := w.onExit ++ [a] }) (a : Nat) (ps : List K)
    (qs : List Nat) (bs : Option (List Nat)) : CutSafe P (callParamSteps a ps qs bs) := by
  have hvs : ∀ (vs : List Nat) (xs : List K), Pres P (setVars vs xs) := by
    intro vs
    induction vs with
    | nil => exact fun _ => pres_pure _
    | cons v vs ih =>
      intro xs
      cases xs with
      | nil => exact pres_raise _
      | cons x xs => exact pres_bind (hv _ _) fun _ => ih xs
  unfold callParamSteps
  exact cut_step (pres_deref _) fun A => cut_step (pres_raiseIf _ _) fun _ => cut_step (pres_read _) fun _ =>
    cut_bind (cut_whenever (cut_setVars hv _ _)) (by rw [run_whenever (run_setVars _ _)]; exact pres_whenever (hvs _ _)) fun _ =>
    cut_step (fun w hw => hx _ w hw) fun _ => cut_call h _ _ _

theorem cut_evalCirc (c : Nat) (given : Option (List (List K))) (inplace : Bool) : CutSafe P (evalCircSteps c given inplace) := by
  have hat : ∀ i o, CutSafe P (evalAtSteps given i o) := by
    intro i o
    refine cut_step (pres_deref _) fun op => cut_step (pres_deref _) fun k => ?_
    cases nthParams given i with
    | error e => exact cut_atom _
    | ok ps => exact cut_whenever (cut_eval h _ _)
  have hl : ∀ (l : List Nat) (i : Nat), CutSafe P (evalOpsSteps given i l) := by
    intro l
    induction l with
    | nil => exact fun _ => cut_pure _
    | cons o l ih =>
      refine fun i => cut_bind (hat i o) ?_ fun _ => ih (i + 1)
      rw [run_evalAt c]
      refine pres_bind (pres_deref _) fun op => pres_bind (pres_deref _) fun k => ?_
      split
      · exact pres_raise _
      · split
        · simp only [if_true]; exact h.evalInPlace _ _
        · exact pres_pure _
  have hrun : ∀ (l : List Nat) (i : Nat), Pres P (evalOpsSteps given i l).run := by
    intro l
    induction l with
    | nil => exact fun _ => pres_pure _
    | cons o l ih =>
      refine fun i => ?_
      rw [run_evalOps c]
      refine pres_bind ?_ fun _ => by rw [← run_evalOps c]; exact ih (i + 1)
      refine pres_bind (pres_deref _) fun op => pres_bind (pres_deref _) fun k => ?_
      split
      · exact pres_raise _
      · split
        · simp only [if_true]; exact h.evalInPlace _ _
        · exact pres_pure _
  cases inplace with
  | false => exact cut_atom _
  | true => exact cut_step (pres_deref _) fun C => cut_step (pres_raiseIf _ _) fun _ => cut_step (pres_deref _) fun D => cut_bind (hl _ _) (hrun _ _) fun _ => cut_pure _

/-- All calls but those that add to the registers or drop them. -/
theorem cut_exec (s : CutPrims P) (hr : ∀ v, Pres P (resetVar v)) (hcp : ∀ a ps qs bs, CutSafe P (callParamSteps a ps qs bs)) (e : Call K) (ha : ¬ e.Adds)
    (hk : Spec.KeepsRegisters e) : CutSafe P (execSteps e) := by
  cases e with
  | addQubit => exact (ha trivial).elim
  | addBit => exact (ha trivial).elim
  | addQReg => exact (ha trivial).elim
  | addCReg => exact (ha trivial).elim
  | construct k p a => exact cut_void (cut_construct h _ _ _)
  | reapply o a => exact cut_void (cut_reapply h _ _)
  | setQubits o qs => exact cut_step (pres_deref _) fun op => cut_step (h.checkArity _ _) fun _ => cut_atom _
  | evalInPlace o g => exact cut_eval h _ _
  | append c o => exact cut_append h _ _
  | extend c os => exact cut_each (fun _ => cut_append h _ _) fun _ => by rw [run_append]; exact h.appendOp _ _
  | unlock c => exact cut_unlock s _
  | reset c k => cases hk; exact cut_reset h s _
  | call a q b => exact cut_call h _ _ _
  | callParam a p q b => exact hcp _ _ _ _
  | resetVariables a => exact cut_resetVariables hr _
  | evalCirc c g i => exact cut_void (cut_evalCirc h _ _ _)
  | _ => exact cut_atom _

end

/-- What all calls and interrupts keep. -/
theorem Prog.Exec.keeps {P : World K → Prop} {A I : Call K → Prop} {J : Bool} (hc : ∀ e, A e → Pres P (execCall e))
    (hi : ∀ e, A e → I e → CutSafe P (execSteps e)) (ho : ∀ c, Pres P (openCtx c)) (hoc : ∀ c, CutSafe P (openSteps c))
    (hx : ∀ x, Pres P (exitCtx x)) (hxc : ∀ x, CutSafe P (exitSteps x)) (hf : ∀ x b, Pres P (setFrozen x b)) {p : Prog K} {w w' : World K} {r : Outcome}
    (he : p.Exec I J w r w') : p.All A → P w → P w' := by
  have hfe : Pres P (freezeEnter (K := K)) := by
    intro w hw; unfold freezeEnter; split
    · exact hw
    · exact hf _ _ _ hw
  have hfx : Pres P (freezeExit (K := K)) := by
    intro w hw; unfold freezeExit; split
    · exact hw
    · exact hf _ _ _ hw
  have via : ∀ {α : Type} {m : M K α} {w w' : World K} {a : Except Err α}, Pres P m → m w = (a, w') → P w → P w' := by
    intro α m w w' a hm e hw
    have := hm w hw
    rwa [e] at this
  induction he with
  | now => exact fun _ h => h
  | late p w w' _ ih => exact ih
  | skip => exact fun _ h => h
  | call e w => exact fun ha h => hc e ha w h
  | callCut e w w' h1 h2 => exact fun ha h => hi e ha h1 w h w' h2
  | seq p q w w1 w' r _ _ ih1 ih2 => exact fun ha h => ih2 ha.2 (ih1 ha.1 h)
  | seqStop p q w w' r _ _ ih => exact fun ha h => ih ha.1 h
  | enterFails c p w w' e h1 => exact fun _ h => via (ho c) h1 h
  | block c x p w w1 w2 w' r h1 _ h3 ih => exact fun ha h => via (hx x) h3 (ih ha (via (ho c) h1 h))
  | exitFails c x p w w1 w2 w' r e h1 _ h3 ih => exact fun ha h => via (hx x) h3 (ih ha (via (ho c) h1 h))
  | enterCut c p w w' _ h1 => exact fun _ h => hoc c w h w' h1
  | exitCut c x p w w1 w2 w' r _ h1 _ h3 ih => exact fun ha h => hxc x w2 (ih ha (via (ho c) h1 h)) w' h3
  | freezeFails p w w' e h1 => exact fun _ h => via hfe h1 h
  | freeze p w w1 w2 w' r h1 _ h3 ih => exact fun ha h => via hfx h3 (ih ha (via hfe h1 h))
  | unfreezeFails p w w1 w2 w' r e h1 _ h3 ih => exact fun ha h => via hfx h3 (ih ha (via hfe h1 h))
  | freezeCut p w w1 _ h1 => exact fun _ h => via hfe h1 h
  | unfreezeCut p w w1 w2 r _ h1 _ ih => exact fun ha h => ih ha (via hfe h1 h)
  | attempt p w w' r _ ih => exact ih
  | attemptStop p w w' _ ih => exact ih

end DG
