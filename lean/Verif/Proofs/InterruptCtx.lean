import Verif.Proofs.InterruptSafe

/-! Interrupts: contexts. -/

namespace DG
open Spec
variable {K α : Type}

theorem cut_onQ {P : World K → Prop} {c : Nat} {f : World K → Steps Adding Unit}
    (h : ∀ w C b l, P w → w.circs[c]? = some C → P { w.setCirc c { C with q := b } with qubits := w.qubits ++ l }) : CutSafe P (onQ c f) := by
  intro w hw w' hw'
  simp only [onQ, List.mem_cons] at hw'
  rcases hw' with rfl | hw'
  · exact hw
  · generalize hC : w.circs[c]? = z at hw'
    cases z with
    | none => cases hw'
    | some C =>
      obtain ⟨r, -, rfl⟩ := List.mem_map.1 hw'
      exact h w C r.1 r.2 hw hC

theorem cut_onC {P : World K → Prop} {c : Nat} {f : World K → Steps Adding Unit}
    (h : ∀ w C b l, P w → w.circs[c]? = some C → P { w.setCirc c { C with c := b } with bits := w.bits ++ l }) : CutSafe P (onC c f) := by
  intro w hw w' hw'
  simp only [onC, List.mem_cons] at hw'
  rcases hw' with rfl | hw'
  · exact hw
  · generalize hC : w.circs[c]? = z at hw'
    cases z with
    | none => cases hw'
    | some C =>
      obtain ⟨r, -, rfl⟩ := List.mem_map.1 hw'
      exact h w C r.1 _ hw hC

variable [DecidableEq K] [Zero K]

theorem Ctl.cutPrims {P : World K → Prop} (hP : Ctl P) : CutPrims P := ⟨fun _ => hP.modCirc _ _, fun _ => hP.modCirc _ _, fun _ => hP.modCirc _ _⟩

theorem Ctl.cut {P : World K → Prop} (hP : Ctl P) (hx : ∀ a (w : World K), P w → P { w with onExit := w.onExit ++ [a] }) (e : Call K) :
    CutSafe P (execSteps e) := by
  have hcp := cut_callParam hP.prims hP.setVar hx
  cases e with
  | addQubit => exact cut_onQ fun w C b l h _ => hP.ctl w _ rfl rfl rfl h
  | addQReg => exact cut_onQ fun w C b l h _ => hP.ctl w _ rfl rfl rfl h
  | addBit => exact cut_onC fun w C b l h _ => hP.ctl w _ rfl rfl rfl h
  | addCReg => exact cut_onC fun w C b l h _ => hP.ctl w _ rfl rfl rfl h
  | reset c k =>
    cases k with
    | true => exact cut_reset hP.prims hP.cutPrims _
    | false => exact cut_resetDrop hP.cutPrims _ (hP.modCirc _ _) (hP.modCirc _ _)
  | _ => exact cut_exec hP.prims hP.cutPrims hP.resetVar hcp _ (fun h => h) trivial

theorem Refs.cutPrims : CutPrims (Refs (K := K)) :=
  ⟨fun _ => Refs.modCirc fun _ => ⟨.inr rfl, rfl⟩, fun _ => Refs.modCirc fun _ => ⟨.inl rfl, rfl⟩,
    fun _ => Refs.modCirc fun C => by split <;> exact ⟨.inr rfl, rfl⟩⟩

omit [DecidableEq K] [Zero K] in
theorem cut_read {P : World K → Prop} {β : Type} {f : World K → Option α} {g : α → Steps (World K) β}
    (h : ∀ w a, P w → f w = some a → ∀ w' ∈ (g a).cut w, P w') : CutSafe P (Steps.atom (M.deref f) >>= g) := by
  intro w hw w' hw'
  rw [Steps.cut_bind_eq, List.mem_append] at hw'
  rcases hw' with hw' | hw'
  · exact cut_atom (P := P) _ w hw w' hw'
  · simp only [Steps.atom, M.deref] at hw'
    cases hf : f w with
    | none => simp [hf] at hw'
    | some a => simp only [hf] at hw'; exact h w a hw hf w' hw'

theorem Refs.cutCallParam (a : Nat) (ps : List K) (qs : List Nat) (bs : Option (List Nat)) : CutSafe Refs (callParamSteps a ps qs bs) := by
  unfold callParamSteps
  refine cut_read fun w A h hA => ?_
  have hlt : a < w.circs.length := (List.getElem?_eq_some_iff.1 hA).1
  -- the number of circuits does not change before the circuit is put on the list
  let P : World K → Prop := fun w => Refs w ∧ a < w.circs.length
  have hv : ∀ v (x : K), Pres P (DG.setVar v x) := by
    intro v x w hw
    refine ⟨Refs.setVar v x w hw.1, ?_⟩
    unfold DG.setVar M.write
    dsimp only
    split <;> exact hw.2
  have hvs : ∀ (vs : List Nat) (xs : List K), Pres P (DG.setVars vs xs) := by
    intro vs
    induction vs with
    | nil => exact fun _ => pres_pure _
    | cons v vs ih =>
      intro xs
      cases xs with
      | nil => exact pres_raise _
      | cons x xs => exact pres_bind (hv _ _) fun _ => ih xs
  have key : ∀ w' ∈ ((Steps.whenever w.active.isSome (setVarsSteps A.vars ps)) >>= fun _ =>
      Steps.atom (M.write fun w => { w with onExit := w.onExit ++ [a] }) >>= fun _ => callSteps a qs bs).cut w, Refs w' := by
    intro w' hw'
    rw [Steps.cut_bind_eq, List.mem_append] at hw'
    rcases hw' with hw' | hw'
    · exact (cut_whenever (cut_setVars hv _ _) w ⟨h, hlt⟩ w' hw').1
    · have g := pres_whenever (c := w.active.isSome) (hvs A.vars ps) w ⟨h, hlt⟩
      rw [run_whenever (run_setVars _ _)] at hw'
      generalize M.whenever w.active.isSome (DG.setVars A.vars ps) w = z at g hw'
      obtain ⟨_ | _, w1⟩ := z
      · cases hw'
      · dsimp only at g hw'
        rw [Steps.cut_bind_eq, List.mem_append] at hw'
        rcases hw' with hw' | hw'
        · exact cut_atom (P := Refs) _ w1 g.1 w' hw'
        · refine cut_call Refs.prims a qs bs _ (g.1.setOnExit (l := w1.onExit ++ [a]) ?_) w' hw'
          intro x hx
          rcases List.mem_append.1 hx with hx | hx
          · exact g.1.onExit x hx
          · simp at hx; subst hx; exact g.2
  intro w' hw'
  rw [Steps.cut_bind_eq, List.mem_append] at hw'
  rcases hw' with hw' | hw'
  · exact cut_atom (P := Refs) _ w h w' hw'
  · simp only [Steps.atom, M.raiseIf] at hw'
    split at hw'
    · next h1 =>
      split at h1
      · cases h1
      · cases h1
        rw [Steps.cut_bind_eq, List.mem_append] at hw'
        rcases hw' with hw' | hw'
        · exact cut_atom (P := Refs) _ w h w' hw'
        · exact key w' hw'
    · cases hw'

theorem Refs.cut (e : Call K) : CutSafe (Refs (K := K)) (execSteps e) := by
  have hq : ∀ c (w : World K) C b l, Refs w → w.circs[c]? = some C → Refs { w.setCirc c { C with q := b } with qubits := w.qubits ++ l } :=
    fun c w C b l h hC => h.setC rfl rfl rfl le_rfl hC rfl (.inr rfl) rfl
  have hb : ∀ c (w : World K) C b l, Refs w → w.circs[c]? = some C → Refs { w.setCirc c { C with c := b } with bits := w.bits ++ l } :=
    fun c w C b l h hC => h.setC rfl rfl rfl le_rfl hC rfl (.inr rfl) rfl
  cases e with
  | addQubit => exact cut_onQ (hq _)
  | addQReg => exact cut_onQ (hq _)
  | addBit => exact cut_onC (hb _)
  | addCReg => exact cut_onC (hb _)
  | reset c k =>
    cases k with
    | true => exact cut_reset Refs.prims Refs.cutPrims _
    | false => exact cut_resetDrop Refs.cutPrims _ (Refs.modCirc fun _ => ⟨.inr rfl, rfl⟩) (Refs.modCirc fun _ => ⟨.inr rfl, rfl⟩)
  | _ => exact cut_exec Refs.prims Refs.cutPrims Refs.resetVar Refs.cutCallParam _ (fun h => h) trivial

/-- Entering a context while another one is active changes nothing, wherever it is interrupted. -/
theorem cut_open_inside {P : World K → Prop} (hP : ∀ w, P w → w.active.isSome = true) (hc : ∀ c, Pres P (contextOf c)) (c : Nat) :
    CutSafe P (openSteps c : Steps (World K) Nat) := by
  unfold openSteps
  refine cut_step (hc _) fun x => cut_step (pres_deref _) fun X => cut_step (pres_deref _) fun C => cut_step (pres_raiseIf _ _) fun _ => ?_
  intro w h w' hw'
  have ha := hP w h
  rw [Steps.cut_bind_eq, List.mem_append] at hw'
  rcases hw' with hw' | hw'
  · exact cut_atom (P := P) _ w h w' hw'
  · simp only [Steps.atom, M.read] at hw'
    change w' ∈ (Steps.bind _ _).cut w at hw'
    unfold Steps.bind at hw'
    simp only [M.raiseIf, ha, if_true, List.append_nil, List.mem_singleton] at hw'
    subst hw'; exact h

/-- What is kept inside of a context. -/
theorem Prog.Exec.inside {P : World K → Prop} {I : Call K → Prop} {J : Bool} (hP : ∀ w, P w → w.active.isSome = true)
    (hc : ∀ e, Pres P (execCall e)) (hi : ∀ e, CutSafe P (execSteps e)) (ho : ∀ c, Pres P (contextOf c))
    (hfe : Pres P (freezeEnter (K := K))) (hfx : Pres P (freezeExit (K := K))) {p : Prog K} {w w' : World K} {r : Outcome}
    (he : p.Exec I J w r w') : P w → P w' := by
  have via : ∀ {α : Type} {m : M K α} {w w' : World K} {a : Except Err α}, Pres P m → m w = (a, w') → P w → P w' := by
    intro α m w w' a hm e hw
    have := hm w hw
    rwa [e] at this
  have no : ∀ {c x : Nat} {w w1 : World K} {Q : Prop}, P w → openCtx c w = (.ok x, w1) → Q := by
    intro c x w w1 Q h e
    obtain ⟨_, g⟩ := openCtx_refused c (hP w h)
    rw [g] at e; cases e
  induction he with
  | now => exact fun h => h
  | late p w w' _ ih => exact ih
  | skip => exact fun h => h
  | call e w => exact fun h => hc e w h
  | callCut e w w' h1 h2 => exact fun h => hi e w h w' h2
  | seq p q w w1 w' r _ _ ih1 ih2 => exact fun h => ih2 (ih1 h)
  | seqStop p q w w' r _ _ ih => exact ih
  | enterFails c p w w' e h1 =>
    intro h
    obtain ⟨_, g⟩ := openCtx_refused c (hP w h)
    rw [g] at h1
    cases h1
    exact ho c w h
  | block c x p w w1 w2 w' r h1 _ h3 ih => exact fun h => no h h1
  | exitFails c x p w w1 w2 w' r e h1 _ h3 ih => exact fun h => no h h1
  | enterCut c p w w' _ h1 => exact fun h => cut_open_inside hP ho c w h w' h1
  | exitCut c x p w w1 w2 w' r _ h1 _ h3 ih => exact fun h => no h h1
  | freezeFails p w w' e h1 => exact fun h => via hfe h1 h
  | freeze p w w1 w2 w' r h1 _ h3 ih => exact fun h => via hfx h3 (ih (via hfe h1 h))
  | unfreezeFails p w w1 w2 w' r e h1 _ h3 ih => exact fun h => via hfx h3 (ih (via hfe h1 h))
  | freezeCut p w w1 _ h1 => exact fun h => via hfe h1 h
  | unfreezeCut p w w1 w2 r _ h1 _ ih => exact fun h => ih (via hfe h1 h)
  | attempt p w w' r _ ih => exact ih
  | attemptStop p w w' _ ih => exact ih

/-- A context that is active stays active. -/
theorem ActiveIn.exec {x c : Nat} {I : Call K → Prop} {J : Bool} {p : Prog K} {w w' : World K} {r : Outcome} (he : p.Exec I J w r w')
    (h : ActiveIn x c w) : ActiveIn x c w' := by
  refine Prog.Exec.inside (P := ActiveIn x c) (fun w h => by rw [h.1]; rfl) (fun e => (ActiveIn.ctl x c).exec (fun a w h => h) (fun _ _ => ActiveIn.addCtx) e)
    (fun e => (ActiveIn.ctl x c).cut (fun a w h => h) e) ?_ ActiveIn.freezeEnter ActiveIn.freezeExit he h
  intro d w h
  obtain ⟨h1, X, h2, h3⟩ := h
  have hs := contextOf_same d w
  refine ⟨hs.active.trans h1, X, ?_, h3⟩
  obtain ⟨l, hl⟩ := hs.ctxs
  rw [← hl, List.getElem?_append_left (List.getElem?_eq_some_iff.1 h2).1]
  exact h2

theorem Refs.cutOpen (c : Nat) : CutSafe (Refs (K := K)) (openSteps c : Steps (World K) Nat) := by
  unfold openSteps
  refine cut_step (Refs.contextOf c) fun x => cut_read fun w X h hX => ?_
  have key : CutSafe (fun v : World K => Refs v ∧ x < v.ctxs.length) (Steps.atom (circ X.circuit) >>= fun C =>
      Steps.atom (M.raiseIf C.locked .circuitError) >>= fun _ => Steps.atom (M.read (·.active)) >>= fun active =>
      Steps.atom (M.raiseIf active.isSome .runtimeError) >>= fun _ => Steps.atom (M.write fun w => { w with active := some x }) >>= fun _ =>
      Steps.atom (DG.qubitsOf X.circuit) >>= fun _ => Steps.atom (DG.bitsOf X.circuit) >>= fun _ => (pure x : Steps (World K) Nat)) := by
    refine cut_step (pres_deref _) fun C => cut_step (pres_raiseIf _ _) fun _ => cut_step (pres_read _) fun a => cut_step (pres_raiseIf _ _) fun _ =>
      cut_step ?_ fun _ => cut_step ?_ fun _ => cut_bind (cut_atom _) ?_ fun _ => cut_pure _
    · exact fun w hw => ⟨hw.1.setActive (a := some x) fun y hy => by cases hy; exact hw.2, hw.2⟩
    · intro w hw
      refine ⟨Refs.qubitsOf _ w hw.1, ?_⟩
      unfold DG.qubitsOf; split <;> exact hw.2
    · intro w hw
      refine ⟨Refs.bitsOf _ w hw.1, ?_⟩
      show x < (DG.bitsOf _ w).2.ctxs.length
      unfold DG.bitsOf; split <;> exact hw.2
  exact fun w' hw' => (key w ⟨h, (List.getElem?_eq_some_iff.1 hX).1⟩ w' hw').1

theorem Refs.cutExit (x : Nat) : CutSafe (Refs (K := K)) (exitSteps x : Steps (World K) Unit) := by
  unfold exitSteps
  exact cut_step (pres_deref _) fun X => cut_step (Refs.modCirc fun C => by split <;> exact ⟨.inr rfl, rfl⟩) fun _ =>
    cut_step (fun w hw => hw.setActive (by simp)) fun _ =>
    cut_step (pres_read _) fun a => cut_bind (cut_each (fun _ => cut_resetVariables Refs.resetVar _) fun _ => by rw [run_resetVariables]; exact Refs.resetVariables _)
      (by rw [run_each (f' := DG.resetVariables) run_resetVariables]; exact pres_each fun _ => Refs.resetVariables _) fun _ =>
    cut_step (fun w hw => hw.setOnExit (by simp)) fun _ => cut_atom _

theorem Refs.interrupted {I : Call K → Prop} {J : Bool} {p : Prog K} {w w' : World K} {r : Outcome} (he : p.Exec I J w r w') (h : Refs w) : Refs w' :=
  Prog.Exec.keeps (A := fun _ => True) (fun e _ => Refs.exec e) (fun e _ _ => Refs.cut e) Refs.openCtx Refs.cutOpen Refs.exitCtx Refs.cutExit
    Refs.setFrozen he (.of p) h

theorem QInv.cutPrims {s u : Bool} : CutPrims (QInv (K := K) s u) where
  dropOps := by
    intro c w h
    unfold DG.modCirc M.write
    dsimp only
    split
    · next C hC => exact h.shrink hC (by simp) rfl
    · exact h
  dropCtx := fun _ => QInv.modCirc fun _ => ⟨rfl, rfl⟩
  thaw := fun _ => QInv.modCirc fun C => by split <;> exact ⟨rfl, rfl⟩

/-- The quantum registers stay consistent if the calls that add to them are not interrupted in the middle. -/
theorem QInv.cut {s u : Bool} (hu : u = true → s = true) (e : Call K) (he : e.Keeps s u) (ha : ¬ e.Adds) : CutSafe (QInv s u) (execSteps e) := by
  have hcp := cut_callParam (QInv.prims hu) QInv.ctxPrims.setVar (P := QInv (K := K) s u) fun a w h => QInv.ctxPrims.setOnExit _ w h
  by_cases hk : KeepsRegisters e
  · exact cut_exec (QInv.prims hu) QInv.cutPrims QInv.ctxPrims.resetVar hcp e ha hk
  · cases e with
    | reset c k =>
      cases k with
      | true => exact absurd rfl hk
      | false =>
        rcases he with he | ⟨rfl, rfl⟩
        · cases he
        · refine cut_resetDrop QInv.cutPrims c ?_ (QInv.modCirc fun _ => ⟨rfl, rfl⟩)
          intro w h
          unfold DG.modCirc M.write
          dsimp only
          split
          · next C hC =>
            refine ⟨forall_set (R := fun D : Circ => Bank.Inv false w.qubits.length [] D.q) h.bank ?_ c, by simp⟩
            exact (h.bank C (mem_of_get? hC)).clear
          · exact h
    | _ => exact absurd trivial hk

theorem QInv.interrupted {s u : Bool} (hu : u = true → s = true) {I : Call K → Prop} (hI : ∀ e, I e → ¬ e.Adds) {J : Bool} {p : Prog K} {w w' : World K}
    {r : Outcome} (he : p.Exec I J w r w') (hp : p.All (Call.Keeps s u)) (h : QInv s u w) : QInv s u w' := by
  refine Prog.Exec.keeps (A := Call.Keeps s u) (fun e hA => ?_) (fun e hA hi => QInv.cut hu e hA (hI e hi))
    (QInv.ctxPrims.openCtx (QInv.prims hu).toA) (cut_open (QInv.prims hu) QInv.ctxPrims) (QInv.ctxPrims.exitCtx (QInv.prims hu).toA)
    (cut_exit QInv.ctxPrims) QInv.ctxPrims.setFrozen he hp h
  by_cases hb : e.Basic
  · exact (QInv.prims hu).exec e hb
  · exact QInv.calls hu e hA hb

theorem CInv.cutPrims {s : Bool} : CutPrims (CInv (K := K) s) :=
  ⟨fun _ => CInv.modCirc fun _ => rfl, fun _ => CInv.modCirc fun _ => rfl, fun _ => CInv.modCirc fun C => by split <;> rfl⟩

theorem CInv.cut {s : Bool} (e : Call K) (he : e.NoBits s) (ha : ¬ e.Adds) : CutSafe (CInv s) (execSteps e) := by
  have hcp := cut_callParam CInv.prims CInv.ctxPrims.setVar (P := CInv (K := K) s) fun a w h => CInv.ctxPrims.setOnExit _ w h
  by_cases hk : KeepsRegisters e
  · exact cut_exec CInv.prims CInv.cutPrims CInv.ctxPrims.resetVar hcp e ha hk
  · cases e with
    | reset c k =>
      cases k with
      | true => exact absurd rfl hk
      | false =>
        rcases he with he | rfl
        · cases he
        · refine cut_resetDrop CInv.cutPrims c (CInv.modCirc fun _ => rfl) ?_
          intro w h
          unfold DG.modCirc M.write
          dsimp only
          split
          · next C hC =>
            exact ⟨h.unset, forall_set (R := fun D : Circ => Bank.Inv false w.bits.length [] D.c) h.bank (h.bank C (mem_of_get? hC)).clear c⟩
          · exact h
    | _ => exact absurd trivial hk

theorem CInv.interrupted {s : Bool} {I : Call K → Prop} (hI : ∀ e, I e → ¬ e.Adds) {J : Bool} {p : Prog K} {w w' : World K}
    {r : Outcome} (he : p.Exec I J w r w') (hp : p.All (Call.NoBits s)) (h : CInv s w) : CInv s w' := by
  refine Prog.Exec.keeps (A := Call.NoBits s) (fun e hA => ?_) (fun e hA hi => CInv.cut e hA (hI e hi))
    (CInv.ctxPrims.openCtx CInv.prims.toA) (cut_open CInv.prims CInv.ctxPrims) (CInv.ctxPrims.exitCtx CInv.prims.toA)
    (cut_exit CInv.ctxPrims) CInv.ctxPrims.setFrozen he hp h
  by_cases hb : e.Basic
  · exact CInv.prims.exec e hb
  · exact CInv.calls e hA hb

/-- Leaving a block whose body was interrupted anywhere. -/
theorem block_left {I : Call K → Prop} {J : Bool} {p : Prog K} {c x : Nat} {w w1 w2 w' : World K} {r : Outcome} {a : Except Err Unit} (hr : Refs w)
    (h1 : openCtx c w = (.ok x, w1)) (h2 : p.Exec I J w1 r w2) (h3 : exitCtx x w2 = (a, w')) :
    a = .ok () ∧ w'.active = none ∧ w'.onExit = [] ∧ lockedIn w' c = true := by
  have h4 := openCtx_inv hr h1
  have h5 : ActiveIn x c w2 := ActiveIn.exec h2 h4
  have h6 : Refs w1 := by have := Refs.openCtx c w hr; rwa [h1] at this
  obtain ⟨X, hX, rfl⟩ := h5.2
  obtain ⟨vars, C, hC, -, e⟩ := exitCtx_ok (h6.interrupted h2) hX
  rw [e] at h3
  cases h3
  refine ⟨rfl, rfl, rfl, ?_⟩
  unfold lockedIn
  dsimp only
  rw [List.getElem?_set_self (List.getElem?_eq_some_iff.1 hC).1]

/-- A failed entry leaves no context active, as long as the registers can be read. -/
theorem enter_failed {c : Nat} {w w' : World K} {e : Err} (hr : Refs w) (hq : QInv false false w) (hc : CInv false w) (ha : w.active = none)
    (h : openCtx c w = (.error e, w')) : w'.active = none := by
  cases hC : w.circs[c]? with
  | none =>
    simp [openCtx, bind_def, contextOf, hC] at h
    rw [← h.2]; exact ha
  | some C =>
    cases hl : C.locked with
    | true =>
      rw [openCtx_locked hr hC hl] at h
      cases h
      exact (contextOf_same c w).active.trans ha
    | false =>
      obtain ⟨L, h1, -⟩ := hq.bank C (mem_of_get? hC)
      obtain ⟨L', h2, -⟩ := hc.bank C (mem_of_get? hC)
      obtain ⟨r, b, g1, -⟩ := Bank.flat_ok inert_qubitEnv h1
      obtain ⟨r', b', g2, -⟩ := Bank.flat_ok (inert_bitEnv hc.unset) h2
      obtain ⟨x, w1, g⟩ := openCtx_ok hr hC hl ha ⟨r, by rw [g1]⟩ ⟨r', by rw [g2]⟩
      rw [g] at h
      cases h

/-- If entering and leaving blocks is not interrupted, then no context is left active. -/
theorem Prog.Exec.outside {I : Call K → Prop} (hI : ∀ e, I e → ¬ e.Adds) {p : Prog K} {w w' : World K} {r : Outcome} (he : p.Exec I false w r w') :
    p.All SetsNoBit → Refs w → QInv false false w → CInv false w → w.active = none → w'.active = none := by
  have hctl : Ctl (K := K) fun w => w.active = none := ⟨fun w w' h1 _ _ h => h1.trans h⟩
  have nofreeze : ∀ {w : World K}, w.active = none → freezeEnter w = (.error .circuitError, w) := by
    intro w h; unfold freezeEnter; rw [h]
  induction he with
  | now => exact fun _ _ _ _ h => h
  | late p w w' _ ih => exact ih
  | skip => exact fun _ _ _ _ h => h
  | call e w => exact fun _ _ _ _ h => hctl.exec (fun a w h => h) (fun X w h => h) e w h
  | callCut e w w' h1 h2 => exact fun _ _ _ _ h => hctl.cut (fun a w h => h) e w h w' h2
  | seq p q w w1 w' r h1 _ ih1 ih2 =>
    intro hp hr hq hc h
    exact ih2 hp.2 (hr.interrupted h1) (hq.interrupted (by simp) hI h1 (hp.1.imp fun e _ => by cases e <;> simp [Call.Keeps]))
      (hc.interrupted hI h1 (hp.1.imp noBits_false)) (ih1 hp.1 hr hq hc h)
  | seqStop p q w w' r _ _ ih => exact fun hp => ih hp.1
  | enterFails c p w w' e h1 => exact fun _ hr hq hc h => enter_failed hr hq hc h h1
  | block c x p w w1 w2 w' r h1 h2 h3 ih => exact fun _ hr _ _ _ => (block_left hr h1 h2 h3).2.1
  | exitFails c x p w w1 w2 w' r e h1 h2 h3 ih => exact fun _ hr _ _ _ => (block_left hr h1 h2 h3).2.1
  | enterCut c p w w' h0 h1 => cases h0
  | exitCut c x p w w1 w2 w' r h0 h1 _ h3 ih => cases h0
  | freezeFails p w w' e h1 =>
    intro _ _ _ _ h
    rw [nofreeze h] at h1; cases h1; exact h
  | freeze p w w1 w2 w' r h1 _ h3 ih =>
    intro _ _ _ _ h
    rw [nofreeze h] at h1; cases h1
  | unfreezeFails p w w1 w2 w' r e h1 _ h3 ih =>
    intro _ _ _ _ h
    rw [nofreeze h] at h1; cases h1
  | freezeCut p w w1 h0 h1 => cases h0
  | unfreezeCut p w w1 w2 r h0 h1 _ ih => cases h0
  | attempt p w w' r _ ih => exact ih
  | attemptStop p w w' _ ih => exact ih

end DG
