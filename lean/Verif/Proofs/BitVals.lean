import Verif.Proofs.OpsInv

/-! The value of a bit is `None`, 0 or 1. -/

namespace DG
open Spec
variable {K : Type}

/-- The values of bits. -/
structure BitVals (w : World K) : Prop where
  vals : ∀ b ∈ w.bits, b.value = none ∨ b.value = some 0 ∨ b.value = some 1

theorem BitVals.same {w w' : World K} (h : BitVals w) (h1 : w'.bits = w.bits) : BitVals w' := ⟨by rw [h1]; exact h.vals⟩

theorem BitVals.more {w w' : World K} (h : BitVals w) {new : List RLabel} (h1 : w'.bits = w.bits ++ new.map fun l => ⟨l, none⟩) : BitVals w' := by
  refine ⟨fun b hb => ?_⟩
  rw [h1, List.mem_append] at hb
  rcases hb with hb | hb
  · exact h.vals b hb
  · simp at hb; obtain ⟨l, -, rfl⟩ := hb; exact .inl rfl

theorem BitVals.modCirc {c : Nat} {f : Circ → Circ} : Pres (BitVals (K := K)) (modCirc c f) := by
  intro w h
  unfold DG.modCirc M.write
  dsimp only
  split
  · exact h.same rfl
  · exact h

theorem BitVals.modOp {o : Nat} {f : OpObj K → OpObj K} : Pres (BitVals (K := K)) (modOp o f) := by
  intro w h
  unfold DG.modOp M.write
  dsimp only
  split
  · exact h.same rfl
  · exact h

theorem BitVals.resetItem (x : Lbl) : Pres (BitVals (K := K)) (resetItem x) := by
  intro w h
  cases x with
  | int _ => exact h
  | obj k =>
    unfold DG.resetItem M.write
    dsimp only
    split
    · exact ⟨forall_set h.vals (.inl rfl) k⟩
    · exact h

theorem BitVals.setVar (v : Nat) (x : K) : Pres BitVals (setVar v x) := by
  intro w h
  unfold DG.setVar M.write
  dsimp only
  split
  · exact h.same rfl
  · exact h

theorem BitVals.resetVar (v : Nat) : Pres (BitVals (K := K)) (resetVar v) := by
  intro w h
  unfold DG.resetVar M.write
  dsimp only
  split
  · exact h.same rfl
  · exact h

variable [DecidableEq K] [Zero K]

theorem BitVals.evalInPlace (o : Nat) (g : Option (List K)) : Pres (BitVals (K := K)) (evalInPlace o g) := by
  intro w h
  unfold DG.evalInPlace
  split
  · exact h
  · split
    · exact h
    · split
      · exact h.same rfl
      · exact h

theorem BitVals.appendOp (c o : Nat) : Pres (BitVals (K := K)) (appendOp c o) := by
  intro w h
  rcases appendOp_cases c o w with ⟨e, ops, w', h1, h2, h3⟩ | ⟨C, op, b', g1, g2, g3, g4, g5, g6⟩
  · rw [h1]
    rcases h2 with h2 | ⟨C, b', h2, h4, h5⟩
    · rw [h2]; exact h.same rfl
    · rw [h5]; exact h.same rfl
  · rw [g6]; exact h.same rfl

theorem BitVals.prims : Prims (K := K) BitVals where
  qubitsOf := by
    intro c w h
    unfold DG.qubitsOf
    split <;> first | exact h | exact h.same rfl
  bitsOf := by
    intro c w h
    unfold DG.bitsOf
    split <;> first | exact h | exact h.same rfl
  addQReg := by
    intro c n lb w h
    unfold DG.addQReg
    split
    · exact h
    · next C hC => split <;> exact h.same rfl
  addCReg := by
    intro c n lb w h
    unfold DG.addCReg
    split
    · exact h
    · next C hC => split <;> first | exact h.same rfl | exact h.more rfl
  addQubit := by
    intro c q lb w h
    unfold DG.addQubit
    split
    · exact h
    · next C hC =>
      dsimp only
      split
      · exact h
      · split <;> exact h.same rfl
      · split
        · exact h
        · split <;> exact h.same rfl
  addBit := by
    intro c q lb w h
    unfold DG.addBit
    split
    · exact h
    · next C hC =>
      dsimp only
      split
      · exact h
      · split <;> first | exact h.same rfl | exact h.more rfl
      · split
        · exact h
        · split <;> first | exact h.same rfl | exact h.more rfl
  appendOp := BitVals.appendOp
  evalInPlace := BitVals.evalInPlace
  checkArity := by
    intro k m w h
    unfold DG.checkArity
    split
    · exact h
    · exact h.same rfl
  newOp := fun op w h => h.same rfl
  setParams := fun _ _ => BitVals.modOp
  setBits := fun _ _ => BitVals.modOp
  setCond := fun _ _ => BitVals.modOp
  getParam := by
    intro c i w h
    unfold DG.getParam
    split
    · exact h
    · next C hC =>
      split
      · exact h
      · dsimp only
        split
        · exact h.same rfl
        · have : ∀ j : Int, BitVals (if 0 ≤ j then match C.vars[j.toNat]? with
              | some v => ((.ok v : Except Err Nat), w)
              | none => (.error .indexError, w) else (.error .indexError, w)).2 := by
            intro j
            split
            · split <;> exact h
            · exact h
          exact this _
  lock := fun _ => BitVals.modCirc
  unlock := fun _ => BitVals.modCirc
  clearOps := fun _ => BitVals.modCirc
  resetItem := BitVals.resetItem
  removeOp := by
    intro c o w h
    unfold DG.removeOp
    split
    · next C op hC hop =>
      split
      · exact h
      · exact h.same rfl
    · exact h
  allocCirc := fun p w h => h.same rfl
  newQubit := fun lb w h => h.same rfl
  newBit := fun lb w h => h.more (new := [lb]) rfl
  newVar := fun lb w h => h.same rfl
  newClass := fun lb w h => h.same rfl
  setLabel := fun q lb w h => h.same rfl

theorem BitVals.ctxPrims : CtxPrims (K := K) BitVals where
  contextOf := by
    intro c w h
    unfold DG.contextOf
    split
    · exact h
    · next C hC =>
      split
      · exact h
      · exact h.same rfl
  setActive := fun a w h => h.same rfl
  setOnExit := fun a w h => h.same rfl
  freezeVars := fun c => BitVals.modCirc
  setVar := BitVals.setVar
  resetVar := BitVals.resetVar
  setFrozen := by
    intro x b w h
    unfold DG.setFrozen M.write
    dsimp only
    split
    · exact h.same rfl
    · exact h

theorem BitVals.evalPrims : EvalPrims (K := K) BitVals where
  evalInPlace := BitVals.evalInPlace
  deepCopy := by
    intro c w h
    unfold DG.deepCopy
    split
    · exact h
    · exact ⟨fun b hb => h.vals b (by simpa using hb)⟩
  replace := fun d i o w D op ps h _ _ _ _ => ⟨fun b hb => h.vals b (by simpa [World.replaced] using hb)⟩

theorem BitVals.reach {A : Call K → Prop} {w : World K} (h : Reach A w) : BitVals w := by
  refine BitVals.ctxPrims.reach BitVals.prims.toA (fun e _ hb => ?_) ⟨by simp⟩ h
  cases e with
  | setBit b v f =>
    intro w h
    show BitVals (DG.setBit b v f w).2
    unfold DG.setBit
    split
    · exact h
    · next B hB =>
      refine ⟨forall_set h.vals ?_ b⟩
      have hv := h.vals B (mem_of_get? hB)
      show (BitState.set ⟨B.value⟩ (.ok v) f).2.value = none ∨ _ ∨ _
      unfold BitState.set
      simp only
      split <;> cases v <;> simp_all
  | setVar v y => exact BitVals.setVar v y
  | resetVar v => exact BitVals.resetVar v
  | setQubits o qs => exact pres_bind (pres_deref _) fun _ => pres_bind (BitVals.prims.checkArity _ _) fun _ => BitVals.modOp
  | callParam a ps qs bs => exact BitVals.ctxPrims.callParam BitVals.prims.toA a ps qs bs
  | resetVariables a => exact BitVals.ctxPrims.resetVariables a
  | evalCirc c g i => exact pres_void (BitVals.evalPrims.evalCirc c g i)
  | reset c k =>
    cases k with
    | true => exact absurd rfl hb
    | false =>
      exact pres_bind (pres_deref _) fun _ => pres_bind (BitVals.prims.clearOps c) fun _ =>
        pres_bind (BitVals.modCirc) fun _ => BitVals.prims.unlock c
  | _ => exact absurd trivial hb

end DG
