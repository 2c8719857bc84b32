import Verif.Proofs.Refs

/-! All references to operations are valid. -/

namespace DG
open Spec
variable {K : Type}

/-- The operations in circuits exist. -/
structure OpsInv (w : World K) : Prop where
  ops : ∀ C ∈ w.circs, ∀ o ∈ C.ops, o < w.ops.length

theorem OpsInv.same {w w' : World K} (h : OpsInv w) (h1 : w'.circs = w.circs) (h2 : w.ops.length ≤ w'.ops.length) : OpsInv w' :=
  ⟨by rw [h1]; exact fun C hC o ho => lt_of_lt_of_le (h.ops C hC o ho) h2⟩

theorem OpsInv.setC {w w' : World K} (h : OpsInv w) {c : Nat} {C C' : Circ} (hC : w.circs[c]? = some C) (h1 : w'.circs = w.circs.set c C')
    (h2 : w.ops.length ≤ w'.ops.length) (ho : ∀ o ∈ C'.ops, o ∈ C.ops) : OpsInv w' := by
  refine ⟨?_⟩
  rw [h1]
  intro D hD o hm
  exact lt_of_lt_of_le (forall_set h.ops (fun o hm => h.ops C (mem_of_get? hC) o (ho o hm)) c D hD o hm) h2

theorem OpsInv.modCirc {c : Nat} {f : Circ → Circ} (hf : ∀ C, ∀ o ∈ (f C).ops, o ∈ C.ops) : Pres (OpsInv (K := K)) (modCirc c f) := by
  intro w h
  unfold DG.modCirc M.write
  dsimp only
  split
  · next C hC => exact h.setC hC rfl le_rfl (hf C)
  · exact h

theorem OpsInv.modOp {o : Nat} {f : OpObj K → OpObj K} : Pres (OpsInv (K := K)) (modOp o f) := by
  intro w h
  unfold DG.modOp M.write
  dsimp only
  split
  · next op hop => exact h.same rfl (by simp [World.setOp])
  · exact h

theorem OpsInv.qubitsOf (c : Nat) : Pres (OpsInv (K := K)) (qubitsOf c) := by
  intro w h
  unfold DG.qubitsOf
  split
  · exact h
  · next C hC => exact h.setC hC rfl le_rfl (by exact fun _ => id)

theorem OpsInv.bitsOf (c : Nat) : Pres (OpsInv (K := K)) (bitsOf c) := by
  intro w h
  unfold DG.bitsOf
  split
  · exact h
  · next C hC => exact h.setC hC rfl le_rfl (by exact fun _ => id)

theorem OpsInv.resetItem (x : Lbl) : Pres (OpsInv (K := K)) (resetItem x) := by
  intro w h
  unfold DG.resetItem
  split
  · unfold M.write
    dsimp only
    split
    · exact h.same rfl le_rfl
    · exact h
  · exact h

theorem OpsInv.setVar (v : Nat) (x : K) : Pres OpsInv (setVar v x) := by
  intro w h
  unfold DG.setVar M.write
  dsimp only
  split
  · exact h.same rfl le_rfl
  · exact h

theorem OpsInv.resetVar (v : Nat) : Pres (OpsInv (K := K)) (resetVar v) := by
  intro w h
  unfold DG.resetVar M.write
  dsimp only
  split
  · exact h.same rfl le_rfl
  · exact h

variable [DecidableEq K] [Zero K]

theorem OpsInv.evalInPlace (o : Nat) (g : Option (List K)) : Pres (OpsInv (K := K)) (evalInPlace o g) := by
  intro w h
  unfold DG.evalInPlace
  split
  · exact h
  · next op hop =>
    split
    · exact h
    · split
      · exact h.same rfl (by simp [World.setOp])
      · exact h

theorem OpsInv.appendOp (c o : Nat) : Pres (OpsInv (K := K)) (appendOp c o) := by
  intro w h
  rcases appendOp_cases c o w with ⟨e, ops, w', h1, h2, h3⟩ | ⟨C, op, b', g1, g2, g3, g4, g5, g6⟩
  · rw [h1]
    have h0 : OpsInv { w with ops := ops } := by
      rcases h3 with rfl | ⟨op, ps, h3, rfl⟩
      · exact h
      · exact h.same rfl (by simp)
    rcases h2 with h2 | ⟨C, b', h2, h4, h5⟩
    · rw [h2]; exact h0
    · rw [h5]; exact h0.setC h2 rfl le_rfl (by exact fun _ => id)
  · rw [g6]
    have hlt := (List.getElem?_eq_some_iff.1 g3).1
    refine ⟨?_⟩
    dsimp only
    rw [List.length_set]
    refine forall_set h.ops ?_ c
    intro o' ho'
    rcases List.mem_append.1 ho' with ho' | ho'
    · exact h.ops C (mem_of_get? g1) o' ho'
    · simp at ho'; omega

theorem OpsInv.prims : Prims (K := K) OpsInv where
  qubitsOf := OpsInv.qubitsOf
  bitsOf := OpsInv.bitsOf
  addQReg := by
    intro c n lb w h
    unfold DG.addQReg
    split
    · exact h
    · next C hC => split <;> exact h.setC hC rfl le_rfl (by exact fun _ => id)
  addCReg := by
    intro c n lb w h
    unfold DG.addCReg
    split
    · exact h
    · next C hC => split <;> exact h.setC hC rfl le_rfl (by exact fun _ => id)
  addQubit := by
    intro c q lb w h
    unfold DG.addQubit
    split
    · exact h
    · next C hC =>
      dsimp only
      split
      · exact h
      · split <;> exact h.setC hC rfl le_rfl (by exact fun _ => id)
      · split
        · exact h
        · split <;> exact h.setC hC rfl le_rfl (by exact fun _ => id)
  addBit := by
    intro c q lb w h
    unfold DG.addBit
    split
    · exact h
    · next C hC =>
      dsimp only
      split
      · exact h
      · split <;> exact h.setC hC rfl le_rfl (by exact fun _ => id)
      · split
        · exact h
        · split <;> exact h.setC hC rfl le_rfl (by exact fun _ => id)
  appendOp := OpsInv.appendOp
  evalInPlace := OpsInv.evalInPlace
  checkArity := by
    intro k m w h
    unfold DG.checkArity
    split
    · exact h
    · exact h.same rfl le_rfl
  newOp := fun op w h => h.same rfl (by simp [newOp])
  setParams := fun _ _ => OpsInv.modOp
  setBits := fun _ _ => OpsInv.modOp
  setCond := fun _ _ => OpsInv.modOp
  getParam := by
    intro c i w h
    unfold DG.getParam
    split
    · exact h
    · next C hC =>
      split
      · exact h
      · dsimp only
        split
        · exact h.setC hC rfl le_rfl (by exact fun _ => id)
        · have : ∀ j : Int, OpsInv (if 0 ≤ j then match C.vars[j.toNat]? with
              | some v => ((.ok v : Except Err Nat), w)
              | none => (.error .indexError, w) else (.error .indexError, w)).2 := by
            intro j
            split
            · split <;> exact h
            · exact h
          exact this _
  lock := fun _ => OpsInv.modCirc fun _ _ => id
  unlock := fun _ => OpsInv.modCirc fun C o => by split <;> exact id
  clearOps := fun _ => OpsInv.modCirc fun C o h => by cases h
  resetItem := OpsInv.resetItem
  removeOp := by
    intro c o w h
    unfold DG.removeOp
    split
    · next C op hC hop =>
      split
      · exact h
      · exact h.setC hC rfl le_rfl (by intro o ho; exact List.mem_of_mem_eraseIdx ho)
    · exact h
  allocCirc := fun p w h => by
    refine ⟨fun C hC => ?_⟩
    rcases List.mem_append.1 hC with hC | hC
    · exact h.ops C hC
    · simp at hC; subst hC; simp
  newQubit := fun lb w h => h.same rfl le_rfl
  newBit := fun lb w h => h.same rfl le_rfl
  newVar := fun lb w h => h.same rfl le_rfl
  newClass := fun lb w h => h.same rfl le_rfl
  setLabel := fun q lb w h => h.same rfl le_rfl

theorem OpsInv.ctxPrims : CtxPrims (K := K) OpsInv where
  contextOf := by
    intro c w h
    unfold DG.contextOf
    split
    · exact h
    · next C hC =>
      split
      · exact h
      · exact h.setC hC rfl le_rfl (by exact fun _ => id)
  setActive := fun a w h => h.same rfl le_rfl
  setOnExit := fun a w h => h.same rfl le_rfl
  freezeVars := fun c => OpsInv.modCirc fun C o => by split <;> exact id
  setVar := OpsInv.setVar
  resetVar := OpsInv.resetVar
  setFrozen := by
    intro x b w h
    unfold DG.setFrozen M.write
    dsimp only
    split
    · exact h.same rfl le_rfl
    · exact h

theorem OpsInv.evalPrims : EvalPrims (K := K) OpsInv where
  evalInPlace := OpsInv.prims.evalInPlace
  deepCopy := by
    intro c w h
    unfold DG.deepCopy
    split
    · exact h
    · next C hC =>
      refine ⟨fun D hD o ho => ?_⟩
      simp only [List.mem_append, List.mem_singleton] at hD
      simp only [List.length_append, List.length_map]
      rcases hD with hD | rfl
      · have := h.ops D hD o ho; omega
      · simp only [List.mem_map] at ho
        obtain ⟨a, ha, rfl⟩ := ho
        have := h.ops C (mem_of_get? hC) a ha; omega
  replace := by
    intro d i o w D op ps h hD hi ho _
    refine ⟨fun E hE a ha => ?_⟩
    simp only [World.replaced, List.length_append, List.length_singleton] at hE ⊢
    rcases List.mem_or_eq_of_mem_set hE with hE | rfl
    · have := h.ops E hE a ha; omega
    · rcases List.mem_or_eq_of_mem_set ha with ha | rfl
      · have := h.ops D (mem_of_get? hD) a ha; omega
      · omega

theorem OpsInv.reach {A : Call K → Prop} {w : World K} (h : Reach A w) : OpsInv w := by
  refine OpsInv.ctxPrims.reach OpsInv.prims.toA (fun e _ hb => ?_) ⟨by simp⟩ h
  cases e with
  | setBit b v f =>
    intro w h
    show OpsInv (DG.setBit b v f w).2
    unfold DG.setBit
    split
    · exact h
    · exact h.same rfl le_rfl
  | setVar v y => exact OpsInv.setVar v y
  | resetVar v => exact OpsInv.resetVar v
  | setQubits o qs => exact pres_bind (pres_deref _) fun _ => pres_bind (OpsInv.prims.checkArity _ _) fun _ => OpsInv.modOp
  | callParam a ps qs bs => exact OpsInv.ctxPrims.callParam OpsInv.prims.toA a ps qs bs
  | resetVariables a => exact OpsInv.ctxPrims.resetVariables a
  | evalCirc c g i => exact pres_void (OpsInv.evalPrims.evalCirc c g i)
  | reset c k =>
    cases k with
    | true => exact absurd rfl hb
    | false =>
      exact pres_bind (pres_deref _) fun _ => pres_bind (OpsInv.prims.clearOps c) fun _ =>
        pres_bind (OpsInv.modCirc fun C o => id) fun _ => OpsInv.prims.unlock c
  | _ => exact absurd trivial hb

end DG
