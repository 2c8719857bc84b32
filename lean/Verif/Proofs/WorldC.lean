import Verif.Proofs.Shift

/-! The classical registers of all circuits of a program that sets no bits. -/

namespace DG
open Spec
variable {K : Type} {s : Bool}

/-- No bit has a value; the classical registers are in order. -/
structure CInv (s : Bool) (w : World K) : Prop where
  unset : ∀ b ∈ w.bits, b.value = none
  bank : ∀ C ∈ w.circs, Bank.Inv s w.bits.length [] C.c

theorem inert_bitEnv {w : World K} (h : ∀ b ∈ w.bits, b.value = none) : Inert w.bitEnv := by
  intro k
  unfold World.bitEnv
  split
  · next b hb => exact h b (mem_of_get? hb)
  · rfl

theorem CInv.same {w w' : World K} (h : CInv s w) (h1 : w'.bits = w.bits) (h3 : ∀ C' ∈ w'.circs, ∃ C ∈ w.circs, C'.c = C.c) : CInv s w' := by
  refine ⟨by rw [h1]; exact h.unset, fun C' hC' => ?_⟩
  obtain ⟨C, hC, e⟩ := h3 C' hC'
  rw [e, h1]; exact h.bank C hC

theorem CInv.eq {w w' : World K} (h : CInv s w) (h1 : w'.bits = w.bits) (h3 : w'.circs = w.circs) : CInv s w' :=
  h.same h1 fun C hC => ⟨C, by rwa [h3] at hC, rfl⟩

theorem CInv.setC {w w' : World K} (h : CInv s w) (h1 : w'.bits = w.bits) {c : Nat} {C C' : Circ} (hC : w.circs[c]? = some C)
    (h3 : w'.circs = w.circs.set c C') (h4 : C'.c = C.c) : CInv s w' := by
  refine h.same h1 fun D hD => ?_
  rw [h3] at hD
  rcases List.mem_or_eq_of_mem_set hD with hD | rfl
  · exact ⟨D, hD, rfl⟩
  · exact ⟨C, mem_of_get? hC, h4⟩

/-- Replacing a circuit and adding unset bits. -/
theorem CInv.setBank {w w' : World K} (h : CInv s w) {c : Nat} {C' : Circ} {new : List RLabel}
    (h1 : w'.bits = w.bits ++ new.map fun l => ⟨l, none⟩) (h3 : w'.circs = w.circs.set c C') (hb : Bank.Inv s (w.bits.length + new.length) [] C'.c) :
    CInv s w' := by
  refine ⟨?_, ?_⟩
  · intro b hb
    rw [h1, List.mem_append] at hb
    rcases hb with hb | hb
    · exact h.unset b hb
    · simp at hb; obtain ⟨l, -, rfl⟩ := hb; rfl
  · rw [h3, h1]
    refine forall_set (fun C hC => (h.bank C hC).mono (by simp) (by simp)) ?_ c
    simpa using hb

theorem CInv.modCirc {c : Nat} {f : Circ → Circ} (hf : ∀ C, (f C).c = C.c) : Pres (CInv (K := K) s) (modCirc c f) := by
  intro w h
  unfold DG.modCirc M.write
  dsimp only
  split
  · next C hC => exact h.setC rfl hC rfl (hf C)
  · exact h

theorem CInv.modOp {o : Nat} {f : OpObj K → OpObj K} : Pres (CInv (K := K) s) (modOp o f) := by
  intro w h
  unfold DG.modOp M.write
  dsimp only
  split
  · exact h.eq rfl rfl
  · exact h

theorem CInv.qubitsOf (c : Nat) : Pres (CInv (K := K) s) (qubitsOf c) := by
  intro w h
  unfold DG.qubitsOf
  split
  · exact h
  · next C hC => exact h.setC rfl hC rfl rfl

theorem CInv.bitsOf (c : Nat) : Pres (CInv (K := K) s) (bitsOf c) := by
  intro w h
  unfold DG.bitsOf
  split
  · exact h
  · next C hC =>
    exact h.setBank (new := []) (by simp [World.setCirc]) rfl ((h.bank C (mem_of_get? hC)).flat (inert_bitEnv h.unset))

theorem CInv.resetItem (x : Lbl) : Pres (CInv (K := K) s) (resetItem x) := by
  intro w h
  cases x with
  | int _ => exact h
  | obj k =>
    unfold DG.resetItem M.write
    dsimp only
    split
    · next b hb =>
      refine ⟨forall_set h.unset rfl k, ?_⟩
      intro C hC
      simpa using h.bank C hC
    · exact h

variable [DecidableEq K] [Zero K]

theorem CInv.evalInPlace (o : Nat) (g : Option (List K)) : Pres (CInv (K := K) s) (evalInPlace o g) := by
  intro w h
  unfold DG.evalInPlace
  split
  · exact h
  · next op hop =>
    split
    · exact h
    · split
      · exact h.eq rfl rfl
      · exact h

theorem CInv.prims : Prims (CInv (K := K) s) where
  qubitsOf := CInv.qubitsOf
  bitsOf := CInv.bitsOf
  addQReg := by
    intro c n l w h
    unfold DG.addQReg
    split
    · exact h
    · next C hC => split <;> exact h.setC rfl hC rfl rfl
  addCReg := by
    intro c n l w h
    unfold DG.addCReg
    split
    · exact h
    · next C hC =>
      rcases (h.bank C (mem_of_get? hC)).addRegister (inert_bitEnv h.unset) "creg" n l with ⟨created, b', g1, g2⟩ | g1
      · rw [g1]; exact h.setBank rfl rfl g2
      · rw [g1]; exact h.setC rfl hC rfl rfl
  addQubit := by
    intro c q l w h
    unfold DG.addQubit
    split
    · exact h
    · next C hC =>
      dsimp only
      split
      · exact h
      · split <;> exact h.setC rfl hC rfl rfl
      · split
        · exact h
        · split <;> exact h.setC rfl hC rfl rfl
  addBit := by
    intro c q l w h
    have key : ∀ C, w.circs[c]? = some C → ∀ given : Option (Nat × Bool), (∀ k t, given = some (k, t) → k < w.bits.length) →
        CInv s (match C.c.addItem w.bitEnv "creg" given l w.bits.length with
        | (.error e, b) => ((.error e : Except Err Unit), w.setCirc c { C with c := b })
        | (.ok new, b) => (.ok (), { w.setCirc c { C with c := b } with bits := w.bits ++ new.map fun l => (⟨l, none⟩ : BitObj) })).2 := by
      intro C hC given hg
      rcases (h.bank C (mem_of_get? hC)).addItem (inert_bitEnv h.unset) "creg" given hg l with ⟨created, b', g1, g2⟩ | ⟨b', g1, g2⟩
      · rw [g1]; exact h.setBank rfl rfl g2
      · rw [g1]; exact h.setBank (new := []) (by simp [World.setCirc]) rfl (by simpa using g2)
    unfold DG.addBit
    split
    · exact h
    · next C hC =>
      dsimp only
      cases q with
      | other => exact h
      | none => exact key C hC none (by simp)
      | item k =>
        dsimp only
        split
        · exact h
        · next b hb =>
          refine key C hC (some (k, _)) ?_
          intro k' t he; cases he
          exact (List.getElem?_eq_some_iff.1 hb).1
  appendOp := by
    intro c o
    unfold DG.appendOp
    exact pres_bind (pres_deref _) fun C => pres_bind (pres_raiseIf _ _) fun _ => pres_bind (pres_whenever (CInv.evalInPlace _ _)) fun _ =>
      pres_bind (pres_deref _) fun _ => pres_bind (pres_each fun _ => pres_bind (CInv.qubitsOf c) fun _ => pres_raiseIf _ _) fun _ =>
      CInv.modCirc fun _ => rfl
  evalInPlace := CInv.evalInPlace
  checkArity := by
    intro k m w h
    unfold DG.checkArity
    split
    · exact h
    · exact h.eq rfl rfl
  newOp := fun op w h => h.eq rfl rfl
  setParams := fun _ _ => CInv.modOp
  setBits := fun _ _ => CInv.modOp
  setCond := fun _ _ => CInv.modOp
  getParam := by
    intro c i w h
    unfold DG.getParam
    split
    · exact h
    · next C hC =>
      split
      · exact h
      · dsimp only
        split
        · exact h.setC rfl hC rfl rfl
        · have : ∀ j : Int, CInv s (if 0 ≤ j then match C.vars[j.toNat]? with
              | some v => ((.ok v : Except Err Nat), w)
              | none => (.error .indexError, w) else (.error .indexError, w)).2 := by
            intro j
            split
            · split <;> exact h
            · exact h
          exact this _
  lock := fun _ => CInv.modCirc fun _ => rfl
  unlock := fun _ => CInv.modCirc fun C => by split <;> rfl
  clearOps := fun _ => CInv.modCirc fun C => rfl
  resetItem := CInv.resetItem
  removeOp := by
    intro c o w h
    unfold DG.removeOp
    split
    · next C op hC hop =>
      split
      · exact h
      · next i hi => exact h.setC rfl hC rfl rfl
    · exact h
  allocCirc := by
    intro p w h
    refine ⟨h.unset, fun C hC => ?_⟩
    simp only [DG.allocCirc, List.mem_append, List.mem_singleton] at hC
    rcases hC with hC | rfl
    · exact h.bank C hC
    · exact Bank.Inv.empty _ _
  newQubit := fun l w h => h.eq rfl rfl
  newBit := by
    intro l w h
    refine ⟨?_, fun C hC => (h.bank C hC).mono (by simp) (by simp)⟩
    intro b hb
    simp only [List.mem_append, List.mem_singleton] at hb
    rcases hb with hb | rfl
    · exact h.unset b hb
    · rfl
  newVar := fun l w h => h.eq rfl rfl
  newClass := fun l w h => h.eq rfl rfl
  setLabel := fun q l w h => h.eq rfl rfl

omit [DecidableEq K] [Zero K] in
theorem CInv.ctxPrims : CtxPrims (CInv (K := K) s) where
  contextOf := by
    intro c w h
    unfold DG.contextOf
    split
    · exact h
    · next C hC =>
      split
      · exact h
      · exact h.setC rfl hC rfl rfl
  setActive := fun l w h => h.eq rfl rfl
  setOnExit := fun l w h => h.eq rfl rfl
  freezeVars := fun _ => CInv.modCirc fun C => by split <;> rfl
  setVar := by
    intro v x w h
    unfold DG.setVar M.write
    dsimp only
    split <;> first | exact h | exact h.eq rfl rfl
  resetVar := by
    intro v w h
    unfold DG.resetVar M.write
    dsimp only
    split <;> first | exact h | exact h.eq rfl rfl
  setFrozen := by
    intro x b w h
    unfold DG.setFrozen M.write
    dsimp only
    split <;> first | exact h | exact h.eq rfl rfl

omit [DecidableEq K] [Zero K] in
theorem CInv.setQubits (o : Nat) (qs : List Nat) : Pres (CInv (K := K) s) (setQubits o qs) := by
  unfold DG.setQubits
  refine pres_bind (pres_deref _) fun op => pres_bind ?_ fun _ => CInv.modOp
  intro w h
  unfold DG.checkArity
  split
  · exact h
  · exact h.eq rfl rfl

omit [DecidableEq K] [Zero K] in
theorem CInv.resetDrop (c : Nat) : Pres (CInv (K := K) false) (resetCirc c false) := by
  unfold DG.resetCirc
  refine pres_bind (pres_deref _) fun _ => pres_bind (CInv.modCirc fun _ => rfl) fun _ => pres_bind ?_ fun _ => CInv.modCirc fun C => by split <;> rfl
  intro w h
  unfold resetRegisters DG.modCirc M.write
  dsimp only
  split
  · next C hC =>
    exact ⟨h.unset, forall_set (R := fun D : Circ => Bank.Inv false w.bits.length [] D.c) h.bank (h.bank C (mem_of_get? hC)).clear c⟩
  · exact h

theorem CInv.evalPrims : EvalPrims (CInv (K := K) s) where
  evalInPlace := CInv.prims.evalInPlace
  deepCopy := by
    intro c w h
    unfold DG.deepCopy
    split
    · exact h
    · next C hC =>
      refine ⟨fun b hb => h.unset b (by simpa using hb), fun D hD => ?_⟩
      simp only [List.mem_append, List.mem_singleton] at hD
      simp only [List.length_append]
      rcases hD with hD | rfl
      · exact (h.bank D hD).mono (by omega) (by simp)
      · exact (h.bank C (mem_of_get? hC)).shift _
  replace := by
    intro d i o w D op ps h hD hi ho _
    refine ⟨fun b hb => h.unset b (by simpa [World.replaced] using hb), fun E hE => ?_⟩
    simp only [World.replaced, List.length_append] at hE ⊢
    rcases List.mem_or_eq_of_mem_set hE with hE | rfl
    · exact (h.bank E hE).mono (by omega) (by simp)
    · exact (h.bank D (mem_of_get? hD)).mono (by omega) (by simp)

/-- No bit is set; (`s`) no circuit is reset with `keep_registers=False`. -/
def Call.NoBits (s : Bool) : Call K → Prop
  | .setBit .. => False
  | .reset _ keep => keep = true ∨ s = false
  | _ => True

theorem CInv.calls (e : Call K) (he : e.NoBits s) (hb : ¬ e.Basic) : Pres (CInv s) (execCall e) := by
  cases e with
  | setBit b v f => exact he.elim
  | setVar v x => exact CInv.ctxPrims.setVar _ _
  | resetVar v => exact CInv.ctxPrims.resetVar _
  | setQubits o qs => exact CInv.setQubits _ _
  | callParam a ps qs bs => exact CInv.ctxPrims.callParam CInv.prims.toA _ _ _ _
  | resetVariables a => exact CInv.ctxPrims.resetVariables _
  | evalCirc c g i => exact pres_void (CInv.evalPrims.evalCirc c g i)
  | reset c k =>
    cases k with
    | true => exact absurd rfl hb
    | false =>
      rcases he with he | rfl
      · cases he
      · exact CInv.resetDrop _
  | _ => exact absurd trivial hb

theorem CInv.reach {w : World K} (h : Reach (Call.NoBits s) w) : CInv s w :=
  CInv.ctxPrims.reach CInv.prims.toA CInv.calls ⟨by simp, by simp⟩ h

end DG
