import Verif.Proofs.Refs

/-! Entering and leaving contexts. -/

namespace DG
open Spec
variable {K : Type}

/-- A predicate on the context state is kept by everything that is not about contexts. -/
structure Ctl (P : World K → Prop) : Prop where
  ctl : ∀ w w' : World K, w'.active = w.active → w'.ctxs = w.ctxs → w'.onExit = w.onExit → P w → P w'

section
variable {P : World K → Prop} (hP : Ctl P)
include hP

theorem Ctl.modCirc (c : Nat) (f : Circ → Circ) : Pres P (modCirc c f) := by
  intro w h
  unfold DG.modCirc M.write
  dsimp only
  split
  · exact hP.ctl w _ rfl rfl rfl h
  · exact h

theorem Ctl.modOp (o : Nat) (f : OpObj K → OpObj K) : Pres P (modOp o f) := by
  intro w h
  unfold DG.modOp M.write
  dsimp only
  split
  · exact hP.ctl w _ rfl rfl rfl h
  · exact h

theorem Ctl.qubitsOf (c : Nat) : Pres P (qubitsOf c) := by
  intro w h
  unfold DG.qubitsOf
  split
  · exact h
  · exact hP.ctl w _ rfl rfl rfl h

theorem Ctl.bitsOf (c : Nat) : Pres P (bitsOf c) := by
  intro w h
  unfold DG.bitsOf
  split
  · exact h
  · exact hP.ctl w _ rfl rfl rfl h

theorem Ctl.resetItem (x : Lbl) : Pres P (resetItem x) := by
  intro w h
  unfold DG.resetItem
  split
  · unfold M.write
    dsimp only
    split
    · exact hP.ctl w _ rfl rfl rfl h
    · exact h
  · exact h

theorem Ctl.setVar (v : Nat) (x : K) : Pres P (setVar v x) := by
  intro w h
  unfold DG.setVar M.write
  dsimp only
  split
  · exact hP.ctl w _ rfl rfl rfl h
  · exact h

theorem Ctl.resetVar (v : Nat) : Pres P (resetVar v) := by
  intro w h
  unfold DG.resetVar M.write
  dsimp only
  split
  · exact hP.ctl w _ rfl rfl rfl h
  · exact h

theorem Ctl.setVars : ∀ (vs : List Nat) (xs : List K), Pres P (setVars vs xs)
  | [], _ => pres_pure _
  | _ :: _, [] => pres_raise _
  | _ :: vs, _ :: xs => pres_bind (hP.setVar _ _) fun _ => Ctl.setVars vs xs

theorem Ctl.resetVariables (c : Nat) : Pres P (resetVariables c) :=
  pres_bind (pres_deref _) fun _ => pres_each fun _ => hP.resetVar _

variable [DecidableEq K] [Zero K]

theorem Ctl.evalInPlace (o : Nat) (g : Option (List K)) : Pres P (evalInPlace o g) := by
  intro w h
  unfold DG.evalInPlace
  split
  · exact h
  · split
    · exact h
    · split
      · exact hP.ctl w _ rfl rfl rfl h
      · exact h

theorem Ctl.prims : Prims P where
  qubitsOf := hP.qubitsOf
  bitsOf := hP.bitsOf
  addQReg := by
    intro c n l w h
    unfold DG.addQReg
    split
    · exact h
    · split <;> exact hP.ctl w _ rfl rfl rfl h
  addCReg := by
    intro c n l w h
    unfold DG.addCReg
    split
    · exact h
    · split <;> exact hP.ctl w _ rfl rfl rfl h
  addQubit := by
    intro c q l w h
    unfold DG.addQubit
    split
    · exact h
    · next C hC =>
      dsimp only
      split
      · exact h
      · split <;> exact hP.ctl w _ rfl rfl rfl h
      · split
        · exact h
        · split <;> exact hP.ctl w _ rfl rfl rfl h
  addBit := by
    intro c q l w h
    unfold DG.addBit
    split
    · exact h
    · next C hC =>
      dsimp only
      split
      · exact h
      · split <;> exact hP.ctl w _ rfl rfl rfl h
      · split
        · exact h
        · split <;> exact hP.ctl w _ rfl rfl rfl h
  appendOp := by
    intro c o
    unfold DG.appendOp
    exact pres_bind (pres_deref _) fun C => pres_bind (pres_raiseIf _ _) fun _ => pres_bind (pres_whenever (hP.evalInPlace _ _)) fun _ =>
      pres_bind (pres_deref _) fun _ => pres_bind (pres_each fun _ => pres_bind (hP.qubitsOf c) fun _ => pres_raiseIf _ _) fun _ =>
      hP.modCirc _ _
  evalInPlace := hP.evalInPlace
  checkArity := by
    intro k m w h
    unfold DG.checkArity
    split
    · exact h
    · exact hP.ctl w _ rfl rfl rfl h
  newOp := fun op w h => hP.ctl w _ rfl rfl rfl h
  setParams := fun _ _ => hP.modOp _ _
  setBits := fun _ _ => hP.modOp _ _
  setCond := fun _ _ => hP.modOp _ _
  getParam := by
    intro c i w h
    unfold DG.getParam
    split
    · exact h
    · next C hC =>
      split
      · exact h
      · dsimp only
        split
        · exact hP.ctl w _ rfl rfl rfl h
        · have : ∀ j : Int, P (if 0 ≤ j then match C.vars[j.toNat]? with
              | some v => ((.ok v : Except Err Nat), w)
              | none => (.error .indexError, w) else (.error .indexError, w)).2 := by
            intro j
            split
            · split <;> exact h
            · exact h
          exact this _
  lock := fun _ => hP.modCirc _ _
  unlock := fun _ => hP.modCirc _ _
  clearOps := fun _ => hP.modCirc _ _
  resetItem := hP.resetItem
  removeOp := by
    intro c o w h
    unfold DG.removeOp
    split
    · split
      · exact h
      · exact hP.ctl w _ rfl rfl rfl h
    · exact h
  allocCirc := fun p w h => hP.ctl w _ rfl rfl rfl h
  newQubit := fun l w h => hP.ctl w _ rfl rfl rfl h
  newBit := fun l w h => hP.ctl w _ rfl rfl rfl h
  newVar := fun l w h => hP.ctl w _ rfl rfl rfl h
  newClass := fun l w h => hP.ctl w _ rfl rfl rfl h
  setLabel := fun q l w h => hP.ctl w _ rfl rfl rfl h

theorem Ctl.evalPrims (hc : ∀ X (w : World K), P w → P { w with ctxs := w.ctxs ++ [X] }) : EvalPrims P where
  evalInPlace := hP.prims.evalInPlace
  deepCopy := by
    intro c w h
    unfold DG.deepCopy
    split
    · exact h
    · next C hC =>
      dsimp only
      cases C.ctx.bind fun x => w.ctxs[x]? with
      | none => exact hP.ctl w _ rfl (by simp) rfl h
      | some X => exact hP.ctl { w with ctxs := w.ctxs ++ [{ X with circuit := w.circs.length }] } _ rfl rfl rfl (hc { X with circuit := w.circs.length } w h)
  replace := fun d i o w D op ps h _ _ _ _ => hP.ctl w _ rfl rfl rfl h

/-- If `P` also allows functions to be added to the exit functions and contexts to be added, it is kept by all calls. -/
theorem Ctl.exec (hx : ∀ a (w : World K), P w → P { w with onExit := w.onExit ++ [a] })
    (hc : ∀ X (w : World K), P w → P { w with ctxs := w.ctxs ++ [X] }) (e : Call K) : Pres P (execCall e) := by
  by_cases hb : e.Basic
  · exact hP.prims.exec e hb
  · cases e with
    | setBit b v f =>
      intro w h
      show P (DG.setBit b v f w).2
      unfold DG.setBit
      split
      · exact h
      · exact hP.ctl w _ rfl rfl rfl h
    | setVar v x => exact hP.setVar v x
    | resetVar v => exact hP.resetVar v
    | setQubits o qs => exact pres_bind (pres_deref _) fun _ => pres_bind (hP.prims.checkArity _ _) fun _ => hP.modOp _ _
    | callParam a ps qs bs =>
      exact pres_bind (pres_deref _) fun A => pres_bind (pres_raiseIf _ _) fun _ => pres_bind (pres_read _) fun _ =>
        pres_bind (pres_whenever (hP.setVars _ _)) fun _ => pres_bind (fun w hw => hx _ w hw) fun _ => hP.prims.to0.callCirc _ _ _
    | resetVariables a => exact hP.resetVariables a
    | evalCirc c g i => exact pres_void ((hP.evalPrims hc).evalCirc c g i)
    | reset c k =>
      cases k with
      | true => exact hP.prims.resetKeep c
      | false =>
        exact pres_bind (pres_deref _) fun _ => pres_bind (hP.prims.clearOps c) fun _ =>
          pres_bind (hP.modCirc _ _) fun _ => hP.prims.unlock c
    | _ => exact absurd trivial hb

end

/-- The context object of a circuit. -/
theorem contextOf_ok {w : World K} (h : Refs w) {c : Nat} {C : Circ} (hC : w.circs[c]? = some C) :
    ∃ x X, contextOf c w = (.ok x, (contextOf c w).2) ∧ (contextOf c w).2.ctxs[x]? = some X ∧ X.circuit = c ∧
      (contextOf c w).2.circs[c]? = some { C with ctx := some x } ∧ (contextOf c w).2.active = w.active := by
  unfold contextOf
  rw [hC]
  dsimp only
  cases hx : C.ctx with
  | some x =>
    obtain ⟨X, h1, h2⟩ := h.ctx c C x hC hx
    have e : { C with ctx := some x } = C := by cases C; simp_all
    exact ⟨x, X, rfl, h1, h2, by rw [e]; exact hC, rfl⟩
  | none =>
    exact ⟨w.ctxs.length, ⟨c, false⟩, rfl, by simp, rfl, setCirc_get hC, rfl⟩

/-- Entering a context that is refused. -/
theorem openCtx_locked {w : World K} (h : Refs w) {c : Nat} {C : Circ} (hC : w.circs[c]? = some C) (hl : C.locked = true) :
    openCtx c w = (.error .circuitError, (contextOf c w).2) := by
  obtain ⟨x, X, h1, h2, h3, h4, -⟩ := contextOf_ok h hC
  unfold openCtx enterCtx
  simp only [bind_def]
  rw [h1]
  subst h3
  simp [ctxObj, M.deref, h2, circ, h4, M.raiseIf, hl]

theorem openCtx_active {w : World K} (h : Refs w) {c : Nat} {C : Circ} (hC : w.circs[c]? = some C) (hl : C.locked = false) (ha : w.active.isSome = true) :
    openCtx c w = (.error .runtimeError, (contextOf c w).2) := by
  obtain ⟨x, X, h1, h2, h3, h4, h5⟩ := contextOf_ok h hC
  unfold openCtx enterCtx
  simp only [bind_def]
  rw [h1]
  subst h3
  simp [ctxObj, M.deref, h2, circ, h4, M.raiseIf, hl, M.read, h5, ha]

/-- While a context is active no other can be entered. -/
theorem openCtx_refused (c : Nat) {w : World K} (ha : w.active.isSome = true) : ∃ e, openCtx c w = (.error e, (contextOf c w).2) := by
  have hact : (contextOf c w).2.active = w.active := by
    unfold contextOf
    split
    · rfl
    · split <;> rfl
  unfold openCtx enterCtx
  simp only [bind_def, ctxObj, circ, M.deref, M.raiseIf, M.read]
  generalize contextOf c w = y at hact ⊢
  obtain ⟨r, w'⟩ := y
  cases r with
  | error e => exact ⟨e, rfl⟩
  | ok x =>
    dsimp only at hact ⊢
    cases hX : w'.ctxs[x]? with
    | none => exact ⟨_, rfl⟩
    | some X =>
      dsimp only
      cases hC : w'.circs[X.circuit]? with
      | none => exact ⟨_, rfl⟩
      | some C =>
        dsimp only
        cases C.locked with
        | true => exact ⟨_, rfl⟩
        | false =>
          rw [← hact] at ha
          simp only [Bool.false_eq_true, if_false, ha, if_true]
          exact ⟨_, rfl⟩

/-- Predicates that hold inside of a context are kept by programs. -/
theorem inside [DecidableEq K] [Zero K] {P : World K → Prop} {A : Call K → Prop} (hP : ∀ w, P w → w.active.isSome = true)
    (hc : ∀ e, A e → Pres P (execCall e)) (ho : ∀ c, Pres P (contextOf c)) (h1 : Pres P freezeEnter) (h2 : Pres P freezeExit) :
    ∀ (p : Prog K), p.All A → Pres P p.run ∧ ∀ w w', P w → p.Visits w w' → P w' := by
  intro p
  induction p with
  | skip => exact fun _ => ⟨pres_pure _, fun w w' h hv => by cases hv; exact h⟩
  | call e =>
    intro he
    refine ⟨hc e he, fun w w' h hv => ?_⟩
    rcases hv with rfl | rfl
    · exact h
    · exact hc e he w h
  | seq p q ihp ihq =>
    intro hpq
    obtain ⟨p1, p2⟩ := ihp hpq.1
    obtain ⟨q1, q2⟩ := ihq hpq.2
    refine ⟨pres_bind p1 fun _ => q1, fun w w' h hv => ?_⟩
    rcases hv with hv | ⟨w1, e1, hv⟩
    · exact p2 w w' h hv
    · have := p1 w h
      rw [e1] at this
      exact q2 w1 w' this hv
  | withCtx c p ih =>
    intro hp
    have hrun : Pres P (Prog.withCtx c p).run := by
      intro w h
      obtain ⟨e, he⟩ := openCtx_refused c (hP w h)
      rw [run_withCtx]
      unfold withStmt
      rw [he]
      exact ho c w h
    refine ⟨hrun, fun w w' h hv => ?_⟩
    obtain ⟨e, he⟩ := openCtx_refused c (hP w h)
    rcases hv with rfl | rfl | ⟨x, w1, h1, -⟩
    · exact h
    · rw [he]; exact ho c w h
    · rw [he] at h1; cases h1
  | withFreeze p ih =>
    intro hp
    obtain ⟨p1, p2⟩ := ih hp
    refine ⟨pres_withStmt h1 p1 fun _ => h2, fun w w' h hv => ?_⟩
    rcases hv with rfl | rfl | ⟨w1, e1, hv⟩
    · exact h
    · exact h1 w h
    · have hw1 := h1 w h
      rw [e1] at hw1
      rcases hv with hv | rfl
      · exact p2 w1 w' hw1 hv
      · exact h2 _ (p1 w1 hw1)
  | attempt p ih =>
    intro hp
    obtain ⟨p1, p2⟩ := ih hp
    exact ⟨pres_tryPass p1, p2⟩

/-- Resetting some variables. -/
def Unset (vs : List Nat) (old new : List (VarObj K)) : Prop :=
  new.length = old.length ∧ ∀ v : Nat, new[v]? = (old[v]?).map fun o => if v ∈ vs then { o with value := none } else o

theorem Unset.nil (l : List (VarObj K)) : Unset [] l l := ⟨rfl, fun v => by simp⟩

theorem Unset.trans {vs us : List Nat} {a b c : List (VarObj K)} (h : Unset vs a b) (h' : Unset us b c) : Unset (vs ++ us) a c := by
  refine ⟨h'.1.trans h.1, fun v => ?_⟩
  rw [h'.2, h.2, Option.map_map]
  congr 1
  funext o
  by_cases h1 : v ∈ vs <;> by_cases h2 : v ∈ us <;> simp [h1, h2]

theorem resetVar_eq (v : Nat) (w : World K) : ∃ vars, resetVar v w = (.ok (), { w with vars := vars }) ∧ Unset [v] w.vars vars := by
  unfold resetVar M.write
  dsimp only
  cases hv : w.vars[v]? with
  | none =>
    refine ⟨w.vars, rfl, rfl, fun u => ?_⟩
    by_cases hu : u = v
    · subst hu; simp [hv]
    · simp [hu]
  | some o =>
    have hlt := (List.getElem?_eq_some_iff.1 hv).1
    refine ⟨w.vars.set v { o with value := none }, rfl, by simp, fun u => ?_⟩
    by_cases hu : u = v
    · subst hu
      rw [List.getElem?_set_self hlt, hv]
      simp
    · rw [List.getElem?_set_ne (fun e => hu e.symm)]
      simp [hu]

theorem each_resetVar (vs : List Nat) (w : World K) : ∃ vars, M.each vs resetVar w = (.ok (), { w with vars := vars }) ∧ Unset vs w.vars vars := by
  induction vs generalizing w with
  | nil => exact ⟨w.vars, rfl, Unset.nil _⟩
  | cons v vs ih =>
    obtain ⟨l1, h1, h2⟩ := resetVar_eq v w
    obtain ⟨l2, h3, h4⟩ := ih { w with vars := l1 }
    refine ⟨l2, ?_, h2.trans h4⟩
    unfold M.each
    simp only [bind_def, h1, h3]

theorem each_resetVariables (fs : List Nat) (w : World K) (hfs : ∀ a ∈ fs, a < w.circs.length) :
    ∃ vars, M.each fs resetVariables w = (.ok (), { w with vars := vars }) ∧ Unset (fs.flatMap (varsOf w)) w.vars vars := by
  induction fs generalizing w with
  | nil => exact ⟨w.vars, rfl, Unset.nil _⟩
  | cons a fs ih =>
    have hlt := hfs a (by simp)
    have hC := List.getElem?_eq_getElem hlt
    obtain ⟨l1, h1, h2⟩ := each_resetVar (w.circs[a]).vars w
    obtain ⟨l2, h3, h4⟩ := ih { w with vars := l1 } (fun b hb => hfs b (by simp [hb]))
    refine ⟨l2, ?_, ?_⟩
    · unfold M.each
      simp only [bind_def, resetVariables, circ, M.deref, hC, h1, h3]
    · have e : varsOf w a = (w.circs[a]).vars := by unfold varsOf; rw [hC]
      simp only [List.flatMap_cons, e]
      exact h2.trans h4

/-- Leaving a context. -/
theorem exitCtx_ok {w : World K} (h : Refs w) {x : Nat} {X : Ctx} (hX : w.ctxs[x]? = some X) :
    ∃ vars C, w.circs[X.circuit]? = some C ∧ Unset (w.onExit.flatMap (varsOf w)) w.vars vars ∧
      exitCtx x w = (.ok (), { w with
        vars := vars, active := none, onExit := [],
        circs := w.circs.set X.circuit { C with locked := true, varsFrozen := C.param || C.varsFrozen } }) := by
  have hlt := h.circuit x X hX
  obtain ⟨C, hC⟩ : ∃ C, w.circs[X.circuit]? = some C := ⟨_, List.getElem?_eq_getElem hlt⟩
  let D : Circ := if C.param then { C with varsFrozen := true } else C
  have hD : D = { C with varsFrozen := C.param || C.varsFrozen } := by
    show (if C.param then { C with varsFrozen := true } else C) = _
    rcases C with ⟨_ | _, _, _, _, _, _, _, _⟩ <;> rfl
  let w1 : World K := { w with circs := w.circs.set X.circuit D, active := none }
  have hv : ∀ a, varsOf w1 a = varsOf w a := by
    intro a
    unfold varsOf
    dsimp only [w1]
    by_cases ha : X.circuit = a
    · subst ha
      rw [List.getElem?_set_self hlt, hC, hD]
    · rw [List.getElem?_set_ne ha]
  obtain ⟨vars, h1, h2⟩ := each_resetVariables w.onExit w1 (by simpa [w1] using h.onExit)
  refine ⟨vars, C, hC, ?_, ?_⟩
  · have : w.onExit.flatMap (varsOf w1) = w.onExit.flatMap (varsOf w) := by rw [funext hv]
    rw [← this]; exact h2
  · unfold exitCtx
    have e1 : (DG.modCirc X.circuit (fun C => if C.param then { C with varsFrozen := true } else C) : M K Unit) w =
        (.ok (), { w with circs := w.circs.set X.circuit D }) := by
      unfold DG.modCirc M.write
      simp only [hC]
      rfl
    simp only [bind_def, ctxObj, M.deref, hX, e1, M.write, M.read]
    have e2 : ({ w with circs := w.circs.set X.circuit D, active := none } : World K) = w1 := rfl
    simp only [e2]
    rw [h1]
    simp only [DG.modCirc, M.write]
    have e3 : ∀ E, (w.circs.set X.circuit E)[X.circuit]? = some E := fun E => List.getElem?_set_self hlt
    simp only [w1, World.setCirc, List.set_set, hD, e3]

end DG
