import Verif.Proofs.CircuitRegs

/-! References between circuits, contexts and variables. -/

namespace DG
open Spec
variable {K : Type}

/-- Contexts belong to their circuits, and the variables of a parametric circuit are distinct. -/
structure Refs (w : World K) : Prop where
  ctx : ∀ (c : Nat) (C : Circ) (x : Nat), w.circs[c]? = some C → C.ctx = some x → ∃ X, w.ctxs[x]? = some X ∧ X.circuit = c
  circuit : ∀ (x : Nat) (X : Ctx), w.ctxs[x]? = some X → X.circuit < w.circs.length
  active : ∀ x, w.active = some x → x < w.ctxs.length
  onExit : ∀ a ∈ w.onExit, a < w.circs.length
  vars : ∀ (c : Nat) (C : Circ), w.circs[c]? = some C → C.vars.Nodup ∧ ∀ v ∈ C.vars, v < w.vars.length

theorem Refs.step {w w' : World K} (h : Refs w) (h1 : w'.ctxs = w.ctxs) (h2 : w'.active = w.active) (h3 : w'.onExit = w.onExit)
    (h4 : w.vars.length ≤ w'.vars.length) (h5 : w.circs.length ≤ w'.circs.length)
    (h6 : ∀ (c : Nat) (C' : Circ), w'.circs[c]? = some C' → (C'.ctx = none ∨ ∃ C, w.circs[c]? = some C ∧ C'.ctx = C.ctx) ∧
      (C'.vars = [] ∨ ∃ C, w.circs[c]? = some C ∧ C'.vars = C.vars)) : Refs w' where
  ctx := by
    intro c C' x hC' hx
    rcases (h6 c C' hC').1 with e | ⟨C, hC, e⟩
    · rw [e] at hx; cases hx
    · rw [h1]; exact h.ctx c C x hC (by rw [← e]; exact hx)
  circuit := by
    intro x X hX
    rw [h1] at hX
    exact lt_of_lt_of_le (h.circuit x X hX) h5
  active := by rw [h1, h2]; exact h.active
  onExit := by rw [h3]; exact fun a ha => lt_of_lt_of_le (h.onExit a ha) h5
  vars := by
    intro c C' hC'
    rcases (h6 c C' hC').2 with e | ⟨C, hC, e⟩
    · rw [e]; simp
    · rw [e]
      exact ⟨(h.vars c C hC).1, fun v hv => lt_of_lt_of_le ((h.vars c C hC).2 v hv) h4⟩

theorem Refs.same {w w' : World K} (h : Refs w) (h1 : w'.ctxs = w.ctxs) (h2 : w'.active = w.active) (h3 : w'.onExit = w.onExit)
    (h4 : w.vars.length ≤ w'.vars.length) (h5 : w'.circs = w.circs) : Refs w' :=
  h.step h1 h2 h3 h4 (by rw [h5]) fun c C' hC' => by rw [h5] at hC'; exact ⟨.inr ⟨C', hC', rfl⟩, .inr ⟨C', hC', rfl⟩⟩

theorem Refs.setC {w w' : World K} (h : Refs w) (h1 : w'.ctxs = w.ctxs) (h2 : w'.active = w.active) (h3 : w'.onExit = w.onExit)
    (h4 : w.vars.length ≤ w'.vars.length) {c : Nat} {C C' : Circ} (hC : w.circs[c]? = some C) (h5 : w'.circs = w.circs.set c C')
    (h6 : C'.ctx = none ∨ C'.ctx = C.ctx) (h7 : C'.vars = C.vars) : Refs w' := by
  refine h.step h1 h2 h3 h4 (by rw [h5]; simp) fun d D hD => ?_
  rw [h5] at hD
  by_cases hd : c = d
  · subst hd
    rw [List.getElem?_set_self (List.getElem?_eq_some_iff.1 hC).1] at hD
    cases hD
    exact ⟨h6.imp_right fun e => ⟨C, hC, e⟩, .inr ⟨C, hC, h7⟩⟩
  · rw [List.getElem?_set_ne hd] at hD
    exact ⟨.inr ⟨D, hD, rfl⟩, .inr ⟨D, hD, rfl⟩⟩

theorem Refs.modCirc {c : Nat} {f : Circ → Circ} (hf : ∀ C, ((f C).ctx = none ∨ (f C).ctx = C.ctx) ∧ (f C).vars = C.vars) :
    Pres (Refs (K := K)) (modCirc c f) := by
  intro w h
  unfold DG.modCirc M.write
  dsimp only
  split
  · next C hC => exact h.setC rfl rfl rfl le_rfl hC rfl (hf C).1 (hf C).2
  · exact h

theorem Refs.modOp {o : Nat} {f : OpObj K → OpObj K} : Pres (Refs (K := K)) (modOp o f) := by
  intro w h
  unfold DG.modOp M.write
  dsimp only
  split
  · exact h.same rfl rfl rfl le_rfl rfl
  · exact h

theorem Refs.qubitsOf (c : Nat) : Pres (Refs (K := K)) (qubitsOf c) := by
  intro w h
  unfold DG.qubitsOf
  split
  · exact h
  · next C hC => exact h.setC rfl rfl rfl le_rfl hC rfl (.inr rfl) rfl

theorem Refs.bitsOf (c : Nat) : Pres (Refs (K := K)) (bitsOf c) := by
  intro w h
  unfold DG.bitsOf
  split
  · exact h
  · next C hC => exact h.setC rfl rfl rfl le_rfl hC rfl (.inr rfl) rfl

theorem Refs.resetItem (x : Lbl) : Pres (Refs (K := K)) (resetItem x) := by
  intro w h
  unfold DG.resetItem
  split
  · unfold M.write
    dsimp only
    split
    · exact h.same rfl rfl rfl le_rfl rfl
    · exact h
  · exact h

variable [DecidableEq K] [Zero K]

theorem Refs.evalInPlace (o : Nat) (g : Option (List K)) : Pres (Refs (K := K)) (evalInPlace o g) := by
  intro w h
  unfold DG.evalInPlace
  split
  · exact h
  · split
    · exact h
    · split
      · exact h.same rfl rfl rfl le_rfl rfl
      · exact h

omit [DecidableEq K] [Zero K] in
theorem Refs.getParam (c : Nat) (i : Int) : Pres (Refs (K := K)) (getParam c i) := by
  intro w h
  unfold DG.getParam
  split
  · exact h
  · next C hC =>
    split
    · exact h
    · dsimp only
      split
      · next hi =>
        refine ⟨?_, ?_, h.active, ?_, ?_⟩
        · intro d D x hD hx
          simp only at hD
          by_cases hd : c = d
          · subst hd
            rw [List.getElem?_set_self (List.getElem?_eq_some_iff.1 hC).1] at hD
            cases hD
            exact h.ctx c C x hC hx
          · rw [List.getElem?_set_ne hd] at hD
            exact h.ctx d D x hD hx
        · intro x X hX
          simp only [List.length_set]
          exact h.circuit x X hX
        · simp only [List.length_set]
          exact h.onExit
        · intro d D hD
          simp only at hD
          by_cases hd : c = d
          · subst hd
            rw [List.getElem?_set_self (List.getElem?_eq_some_iff.1 hC).1] at hD
            cases hD
            obtain ⟨a1, a2⟩ := h.vars c C hC
            constructor
            · refine List.nodup_append.2 ⟨a1, ?_, ?_⟩
              · exact List.Nodup.map (fun a b hab => by simpa using hab) List.nodup_range
              · intro a ha b hb he
                simp only [List.mem_map, List.mem_range] at hb
                obtain ⟨j, hj, rfl⟩ := hb
                have := a2 a ha
                omega
            · intro v hv
              simp only [List.mem_append, List.mem_map, List.mem_range, List.length_append, List.length_map, List.length_range] at hv ⊢
              rcases hv with hv | ⟨j, hj, rfl⟩
              · have := a2 v hv; omega
              · omega
          · rw [List.getElem?_set_ne hd] at hD
            obtain ⟨a1, a2⟩ := h.vars d D hD
            refine ⟨a1, fun v hv => ?_⟩
            have := a2 v hv
            simp only [List.length_append]
            omega
      · have : ∀ j : Int, Refs (if 0 ≤ j then match C.vars[j.toNat]? with
            | some v => ((.ok v : Except Err Nat), w)
            | none => (.error .indexError, w) else (.error .indexError, w)).2 := by
          intro j
          split
          · split <;> exact h
          · exact h
        exact this _

theorem Refs.prims : Prims (Refs (K := K)) where
  qubitsOf := Refs.qubitsOf
  bitsOf := Refs.bitsOf
  addQReg := by
    intro c n l w h
    unfold DG.addQReg
    split
    · exact h
    · next C hC => split <;> exact h.setC rfl rfl rfl le_rfl hC rfl (.inr rfl) rfl
  addCReg := by
    intro c n l w h
    unfold DG.addCReg
    split
    · exact h
    · next C hC => split <;> exact h.setC rfl rfl rfl le_rfl hC rfl (.inr rfl) rfl
  addQubit := by
    intro c q l w h
    unfold DG.addQubit
    split
    · exact h
    · next C hC =>
      dsimp only
      split
      · exact h
      · split <;> exact h.setC rfl rfl rfl le_rfl hC rfl (.inr rfl) rfl
      · split
        · exact h
        · split <;> exact h.setC rfl rfl rfl le_rfl hC rfl (.inr rfl) rfl
  addBit := by
    intro c q l w h
    unfold DG.addBit
    split
    · exact h
    · next C hC =>
      dsimp only
      split
      · exact h
      · split <;> exact h.setC rfl rfl rfl le_rfl hC rfl (.inr rfl) rfl
      · split
        · exact h
        · split <;> exact h.setC rfl rfl rfl le_rfl hC rfl (.inr rfl) rfl
  appendOp := by
    intro c o
    unfold DG.appendOp
    exact pres_bind (pres_deref _) fun C => pres_bind (pres_raiseIf _ _) fun _ => pres_bind (pres_whenever (Refs.evalInPlace _ _)) fun _ =>
      pres_bind (pres_deref _) fun _ => pres_bind (pres_each fun _ => pres_bind (Refs.qubitsOf c) fun _ => pres_raiseIf _ _) fun _ =>
      Refs.modCirc fun _ => ⟨.inr rfl, rfl⟩
  evalInPlace := Refs.evalInPlace
  checkArity := by
    intro k m w h
    unfold DG.checkArity
    split
    · exact h
    · exact h.same rfl rfl rfl le_rfl rfl
  newOp := fun op w h => h.same rfl rfl rfl le_rfl rfl
  setParams := fun _ _ => Refs.modOp
  setBits := fun _ _ => Refs.modOp
  setCond := fun _ _ => Refs.modOp
  getParam := Refs.getParam
  lock := fun _ => Refs.modCirc fun _ => ⟨.inr rfl, rfl⟩
  unlock := fun _ => Refs.modCirc fun C => by split <;> exact ⟨.inr rfl, rfl⟩
  clearOps := fun _ => Refs.modCirc fun C => ⟨.inl rfl, rfl⟩
  resetItem := Refs.resetItem
  removeOp := by
    intro c o w h
    unfold DG.removeOp
    split
    · next C op hC hop =>
      split
      · exact h
      · next i hi => exact h.setC rfl rfl rfl le_rfl hC rfl (.inr rfl) rfl
    · exact h
  allocCirc := by
    intro p w h
    refine h.step rfl rfl rfl le_rfl (by simp [DG.allocCirc]) fun c C' hC' => ?_
    simp only [DG.allocCirc, List.getElem?_append] at hC'
    split at hC'
    · exact ⟨.inr ⟨C', hC', rfl⟩, .inr ⟨C', hC', rfl⟩⟩
    · rw [List.getElem?_singleton] at hC'
      split at hC'
      · cases hC'; exact ⟨.inl rfl, .inl rfl⟩
      · cases hC'
  newQubit := fun l w h => h.same rfl rfl rfl le_rfl rfl
  newBit := fun l w h => h.same rfl rfl rfl le_rfl rfl
  newVar := fun l w h => h.same rfl rfl rfl (by simp) rfl
  newClass := fun l w h => h.same rfl rfl rfl le_rfl rfl
  setLabel := fun q l w h => h.same rfl rfl rfl le_rfl rfl

omit [DecidableEq K] [Zero K] in
theorem Refs.contextOf (c : Nat) : Pres (Refs (K := K)) (contextOf c) := by
  intro w h
  unfold DG.contextOf
  split
  · exact h
  · next C hC =>
    split
    · exact h
    · have hlt := (List.getElem?_eq_some_iff.1 hC).1
      refine ⟨?_, ?_, ?_, ?_, ?_⟩
      · intro d D x hD hx
        simp only [World.setCirc] at hD ⊢
        by_cases hd : c = d
        · subst hd
          rw [List.getElem?_set_self hlt] at hD
          cases hD
          cases hx
          exact ⟨⟨c, false⟩, by simp, rfl⟩
        · rw [List.getElem?_set_ne hd] at hD
          obtain ⟨X, h1, h2⟩ := h.ctx d D x hD hx
          exact ⟨X, by rw [List.getElem?_append_left (List.getElem?_eq_some_iff.1 h1).1]; exact h1, h2⟩
      · intro x X hX
        simp only [World.setCirc, List.length_set] at hX ⊢
        rw [List.getElem?_append] at hX
        split at hX
        · exact h.circuit x X hX
        · rw [List.getElem?_singleton] at hX
          split at hX
          · cases hX; exact hlt
          · cases hX
      · intro x hx
        have := h.active x hx
        simp only [List.length_append]
        omega
      · simp only [World.setCirc, List.length_set]
        exact h.onExit
      · intro d D hD
        simp only [World.setCirc] at hD
        by_cases hd : c = d
        · subst hd
          rw [List.getElem?_set_self hlt] at hD
          cases hD
          exact h.vars c C hC
        · rw [List.getElem?_set_ne hd] at hD
          exact h.vars d D hD

omit [DecidableEq K] [Zero K] in
theorem Refs.setActive {w : World K} (h : Refs w) {a : Option Nat} (ha : ∀ x, a = some x → x < w.ctxs.length) : Refs { w with active := a } :=
  ⟨h.ctx, h.circuit, ha, h.onExit, h.vars⟩

omit [DecidableEq K] [Zero K] in
theorem Refs.setOnExit {w : World K} (h : Refs w) {l : List Nat} (ha : ∀ x ∈ l, x < w.circs.length) : Refs { w with onExit := l } :=
  ⟨h.ctx, h.circuit, h.active, ha, h.vars⟩

omit [DecidableEq K] [Zero K] in
theorem Refs.setVar (v : Nat) (x : K) : Pres (Refs (K := K)) (setVar v x) := by
  intro w h
  unfold DG.setVar M.write
  dsimp only
  split
  · exact h.same rfl rfl rfl (by simp) rfl
  · exact h

omit [DecidableEq K] [Zero K] in
theorem Refs.resetVar (v : Nat) : Pres (Refs (K := K)) (resetVar v) := by
  intro w h
  unfold DG.resetVar M.write
  dsimp only
  split
  · exact h.same rfl rfl rfl (by simp) rfl
  · exact h

omit [DecidableEq K] [Zero K] in
theorem Refs.setFrozen (x : Nat) (b : Bool) : Pres (Refs (K := K)) (setFrozen x b) := by
  intro w h
  unfold DG.setFrozen M.write
  dsimp only
  split
  · next X hX =>
    have hlt := (List.getElem?_eq_some_iff.1 hX).1
    have key : ∀ (y : Nat) (Y : Ctx), (w.ctxs.set x { X with frozen := b })[y]? = some Y → ∃ Z, w.ctxs[y]? = some Z ∧ Z.circuit = Y.circuit := by
      intro y Y hY
      by_cases hd : x = y
      · subst hd
        rw [List.getElem?_set_self hlt] at hY
        cases hY
        exact ⟨X, hX, rfl⟩
      · rw [List.getElem?_set_ne hd] at hY
        exact ⟨Y, hY, rfl⟩
    refine ⟨?_, ?_, ?_, h.onExit, h.vars⟩
    · intro c C y hC hy
      obtain ⟨Y, h1, h2⟩ := h.ctx c C y hC hy
      by_cases hd : x = y
      · subst hd
        rw [hX] at h1; cases h1
        exact ⟨_, List.getElem?_set_self hlt, h2⟩
      · exact ⟨Y, by rw [List.getElem?_set_ne hd]; exact h1, h2⟩
    · intro y Y hY
      obtain ⟨Z, h1, h2⟩ := key y Y hY
      rw [← h2]; exact h.circuit y Z h1
    · intro y hy
      simp only [List.length_set]
      exact h.active y hy
  · exact h

omit [DecidableEq K] [Zero K] in
theorem Refs.setVars : ∀ (vs : List Nat) (xs : List K), Pres (Refs (K := K)) (setVars vs xs)
  | [], _ => pres_pure _
  | _ :: _, [] => pres_raise _
  | _ :: vs, _ :: xs => pres_bind (Refs.setVar _ _) fun _ => Refs.setVars vs xs

omit [DecidableEq K] [Zero K] in
theorem Refs.resetVariables (c : Nat) : Pres (Refs (K := K)) (resetVariables c) :=
  pres_bind (pres_deref _) fun _ => pres_each fun _ => Refs.resetVar _

theorem Refs.callParam (a : Nat) (ps : List K) (qs : List Nat) (bs : Option (List Nat)) : Pres (Refs (K := K)) (callParam a ps qs bs) := by
  intro w h
  unfold DG.callParam
  cases hA : w.circs[a]? with
  | none => simp only [bind_def, circ, M.deref, hA]; exact h
  | some A =>
    have hlt := (List.getElem?_eq_some_iff.1 hA).1
    -- keep the number of circuits in the invariant
    let P : World K → Prop := fun w => Refs w ∧ a < w.circs.length
    have hsv : ∀ (vs : List Nat) (xs : List K), Pres P (DG.setVars vs xs) := by
      intro vs
      induction vs with
      | nil => intro xs; exact pres_pure _
      | cons v vs ih =>
        intro xs
        cases xs with
        | nil => exact pres_raise _
        | cons x xs =>
          refine pres_bind ?_ fun _ => ih xs
          intro w hw
          refine ⟨Refs.setVar v x w hw.1, ?_⟩
          unfold DG.setVar M.write
          dsimp only
          split
          · exact hw.2
          · exact hw.2
    simp only [bind_def, circ, M.deref, hA, M.raiseIf, M.read]
    split
    · next heq =>
      have e := congrArg Prod.snd heq
      split at e <;> cases e
      all_goals
        have h2 : P (M.whenever w.active.isSome (DG.setVars A.vars ps) w).2 := pres_whenever (hsv _ _) w ⟨h, hlt⟩
        generalize M.whenever w.active.isSome (DG.setVars A.vars ps) w = y at h2 ⊢
        obtain ⟨r, w'⟩ := y
        cases r with
        | error e => exact h2.1
        | ok _ =>
          dsimp only [M.write]
          refine Refs.prims.to0.callCirc a qs bs _ (h2.1.setOnExit ?_)
          intro x hx
          rcases List.mem_append.1 hx with hx | hx
          · exact h2.1.onExit x hx
          · rw [List.mem_singleton.1 hx]; exact h2.2
    · next heq =>
      have e := congrArg Prod.snd heq
      split at e <;> cases e <;> exact h

omit [DecidableEq K] [Zero K] in
theorem Refs.openCtx (c : Nat) : Pres (Refs (K := K)) (openCtx c) := by
  unfold DG.openCtx
  refine pres_bind (Refs.contextOf c) fun x => pres_bind ?_ fun _ => pres_pure _
  intro w h
  unfold enterCtx
  simp only [bind_def, ctxObj, circ, M.deref]
  cases hX : w.ctxs[x]? with
  | none => exact h
  | some X =>
    dsimp only
    cases hC : w.circs[X.circuit]? with
    | none => exact h
    | some C =>
      dsimp only [M.raiseIf, M.read]
      cases C.locked with
      | true => exact h
      | false =>
        simp only [Bool.false_eq_true, if_false]
        cases w.active with
        | some y => exact h
        | none =>
          simp only [Option.isSome_none, Bool.false_eq_true, if_false, M.write]
          have h1 : Refs { w with active := some x } := h.setActive fun y hy => by cases hy; exact (List.getElem?_eq_some_iff.1 hX).1
          have := pres_bind (Refs.qubitsOf (K := K) X.circuit) (fun _ => pres_bind (Refs.bitsOf X.circuit) fun _ => pres_pure (P := Refs) ()) _ h1
          exact this

omit [DecidableEq K] [Zero K] in
theorem Refs.exitCtx (x : Nat) : Pres (Refs (K := K)) (exitCtx x) := by
  unfold DG.exitCtx
  exact pres_bind (pres_deref _) fun X => pres_bind (Refs.modCirc fun C => by split <;> exact ⟨.inr rfl, rfl⟩) fun _ =>
    pres_bind (fun w hw => hw.setActive (by simp)) fun _ =>
    pres_bind (pres_read _) fun a => pres_bind (pres_each fun _ => Refs.resetVariables _) fun _ =>
    pres_bind (fun w hw => hw.setOnExit (by simp)) fun _ => Refs.modCirc fun _ => ⟨.inr rfl, rfl⟩

theorem Refs.evalPrims : EvalPrims (K := K) Refs where
  evalInPlace := Refs.prims.evalInPlace
  deepCopy := by
    intro c w h
    unfold DG.deepCopy
    split
    · exact h
    · next C hC =>
      have hget : ∀ {C' D : Circ} {d : Nat}, (w.circs ++ [C'])[d]? = some D → w.circs[d]? = some D ∨ (d = w.circs.length ∧ D = C') := by
        intro C' D d hd
        by_cases hlt : d < w.circs.length
        · rw [List.getElem?_append_left hlt] at hd; exact .inl hd
        · rw [List.getElem?_append_right (by omega)] at hd
          have := (List.getElem?_eq_some_iff.1 hd).1
          simp only [List.length_singleton] at this
          have e : d - w.circs.length = 0 := by omega
          rw [e] at hd
          exact .inr ⟨by omega, by simpa using hd.symm⟩
      refine ⟨?_, ?_, ?_, ?_, ?_⟩
      · intro d D x hD hx
        rcases hget hD with hD | ⟨rfl, rfl⟩
        · obtain ⟨X, h1, h2⟩ := h.ctx d D x hD hx
          exact ⟨X, by rw [List.getElem?_append_left (List.getElem?_eq_some_iff.1 h1).1]; exact h1, h2⟩
        · simp only [Option.map_eq_some_iff] at hx
          obtain ⟨X, hX, rfl⟩ := hx
          rw [hX]
          exact ⟨{ X with circuit := w.circs.length }, by simp, rfl⟩
      · intro x X hX
        simp only [List.length_append, List.length_singleton]
        by_cases hlt : x < w.ctxs.length
        · rw [List.getElem?_append_left hlt] at hX
          have := h.circuit x X hX; omega
        · rw [List.getElem?_append_right (by omega)] at hX
          have := mem_of_get? hX
          simp only [Option.mem_toList, Option.mem_def, Option.map_eq_some_iff] at this
          obtain ⟨Y, -, rfl⟩ := this
          simp
      · intro x hx
        have := h.active x hx
        simp only [List.length_append]; omega
      · intro a ha
        have := h.onExit a ha
        simp only [List.length_append]; omega
      · intro d D hD
        simp only [List.length_append]
        rcases hget hD with hD | ⟨rfl, rfl⟩
        · exact ⟨(h.vars d D hD).1, fun v hv => by have := (h.vars d D hD).2 v hv; omega⟩
        · obtain ⟨h1, h2⟩ := h.vars c C hC
          refine ⟨h1.map (fun a b hab => by simpa using hab), fun v hv => ?_⟩
          simp only [List.mem_map] at hv
          obtain ⟨a, ha, rfl⟩ := hv
          have := h2 a ha; omega
  replace := fun d i o w D op ps h hD _ _ _ => h.setC rfl rfl rfl le_rfl hD rfl (.inr rfl) rfl

theorem Refs.exec (e : Call K) : Pres (Refs (K := K)) (execCall e) := by
  by_cases hb : e.Basic
  · exact Refs.prims.exec e hb
  · cases e with
    | setBit b v f =>
      intro w h
      show Refs (DG.setBit b v f w).2
      unfold DG.setBit
      split
      · exact h
      · exact h.same rfl rfl rfl le_rfl rfl
    | setVar v x => exact Refs.setVar v x
    | resetVar v => exact Refs.resetVar v
    | setQubits o qs => exact pres_bind (pres_deref _) fun _ => pres_bind (Refs.prims.checkArity _ _) fun _ => Refs.modOp
    | callParam a ps qs bs => exact Refs.callParam a ps qs bs
    | resetVariables a => exact Refs.resetVariables a
    | evalCirc c g i => exact pres_void (Refs.evalPrims.evalCirc c g i)
    | reset c k =>
      cases k with
      | true => exact Refs.prims.resetKeep c
      | false =>
        exact pres_bind (pres_deref _) fun _ => pres_bind (Refs.prims.clearOps c) fun _ =>
          pres_bind (Refs.modCirc fun _ => ⟨.inr rfl, rfl⟩) fun _ => Refs.prims.unlock c
    | _ => exact absurd trivial hb

theorem Refs.run (p : Prog K) : Pres (Refs (K := K)) p.run :=
  pres_run (A := fun _ => True) (fun e _ => Refs.exec e) Refs.openCtx Refs.exitCtx Refs.setFrozen p (Prog.All.of p)

theorem Refs.visits (p : Prog K) {w w' : World K} (h : Refs w) (hv : p.Visits w w') : Refs w' :=
  pres_visits (A := fun _ => True) (fun e _ => Refs.exec e) Refs.openCtx Refs.exitCtx Refs.setFrozen p (Prog.All.of p) _ _ h hv

theorem Refs.empty : Refs ({} : World K) :=
  ⟨by simp, by simp, by simp, by simp, by simp⟩

theorem Refs.reach {A : Call K → Prop} {w : World K} (h : Reach A w) : Refs w := by
  obtain ⟨p, -, hv⟩ := h
  exact Refs.visits p Refs.empty hv

end DG
