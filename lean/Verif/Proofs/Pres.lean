import Verif.Spec.Program

/-! Invariants: what is preserved by all primitive steps is preserved by all calls and programs. -/

namespace DG
variable {K : Type}

/-- `P` is kept by `m`, whether it returns or raises. -/
def Pres {α : Type} (P : World K → Prop) (m : M K α) : Prop := ∀ w, P w → P (m w).2

section
variable {α β : Type} {P : World K → Prop}

theorem bind_def (m : M K α) (f : α → M K β) (w : World K) :
    (m >>= f) w = match m w with
      | (.ok a, w') => f a w'
      | (.error e, w') => (.error e, w') := rfl

@[simp] theorem pure_def (a : α) (w : World K) : (pure a : M K α) w = (.ok a, w) := rfl

theorem pres_pure (a : α) : Pres P (pure a : M K α) := fun _ h => h
theorem pres_raise (e : Err) : Pres P (M.raise e : M K α) := fun _ h => h
theorem pres_read (f : World K → α) : Pres P (M.read f) := fun _ h => h
theorem pres_deref (f : World K → Option α) : Pres P (M.deref f) := by
  intro w h; unfold M.deref; split <;> exact h
theorem pres_raiseIf (c : Bool) (e : Err) : Pres P (M.raiseIf c e : M K Unit) := by
  intro w h; unfold M.raiseIf; split <;> exact h
theorem pres_whenever {c : Bool} {m : M K Unit} (hm : Pres P m) : Pres P (M.whenever c m) := by
  intro w h; unfold M.whenever; split
  · exact hm w h
  · exact h
theorem pres_bind {m : M K α} {f : α → M K β} (hm : Pres P m) (hf : ∀ a, Pres P (f a)) : Pres P (m >>= f) := by
  intro w h
  rw [bind_def]
  have := hm w h
  generalize m w = x at this ⊢
  obtain ⟨r, w'⟩ := x
  cases r with
  | ok a => exact hf a w' this
  | error e => exact this
theorem pres_each {l : List α} {f : α → M K Unit} (hf : ∀ a, Pres P (f a)) : Pres P (M.each l f) := by
  induction l with
  | nil => exact pres_pure ()
  | cons a l ih => exact pres_bind (hf a) fun _ => ih
theorem pres_void {m : M K α} (hm : Pres P m) : Pres P m.void := by
  intro w h
  have := hm w h
  unfold M.void
  generalize m w = x at this ⊢
  obtain ⟨r, w'⟩ := x
  cases r <;> exact this
theorem pres_tryPass {m : M K Unit} (hm : Pres P m) : Pres P (tryPass m) := hm
theorem pres_withStmt {enter : M K α} {body : M K Unit} {exit : α → M K Unit} (h1 : Pres P enter) (h2 : Pres P body)
    (h3 : ∀ a, Pres P (exit a)) : Pres P (withStmt enter body exit) := by
  intro w h
  unfold withStmt
  have := h1 w h
  generalize enter w = x at this ⊢
  obtain ⟨r, w1⟩ := x
  cases r with
  | error e => exact this
  | ok a =>
    have h4 := h3 a _ (h2 w1 this)
    dsimp only at this ⊢
    generalize exit a (body w1).2 = y at h4 ⊢
    obtain ⟨r', w3⟩ := y
    cases r' <;> exact h4
theorem pres_lookup (d : PyDict Lbl Nat) (k : Nat) : Pres P (lookup d k : M K Nat) := by
  intro w h; unfold lookup; split <;> exact h
theorem pres_lookupAll (d : PyDict Lbl Nat) (l : List Nat) : Pres P (lookupAll d l : M K (List Nat)) := by
  induction l with
  | nil => exact pres_pure _
  | cons k l ih => exact pres_bind (pres_lookup d k) fun _ => pres_bind ih fun _ => pres_pure _
theorem pres_zipMap (r : Reg) (l : List Nat) : Pres P (zipMap r l : M K _) := by
  intro w h; unfold zipMap; split <;> exact h
theorem pres_ite {c : Prop} [Decidable c] {m m' : M K α} (h : Pres P m) (h' : Pres P m') : Pres P (if c then m else m') := by
  split <;> assumption

end

variable [DecidableEq K] [Zero K]

/-- `P` is kept by the primitive steps of the calls that do not change lists of operations directly. -/
structure Prims0 (P : World K → Prop) : Prop where
  register : ∀ a o w, w.active = a → P w → P (register a o w).2
  qubitsOf : ∀ c, Pres P (qubitsOf c)
  bitsOf : ∀ c, Pres P (bitsOf c)
  addQReg : ∀ c n l, Pres P (addQReg c n l)
  addCReg : ∀ c n l, Pres P (addCReg c n l)
  addQubit : ∀ c q l, Pres P (addQubit c q l)
  addBit : ∀ c q l, Pres P (addBit c q l)
  evalInPlace : ∀ o g, Pres P (evalInPlace o g)
  checkArity : ∀ k m, Pres P (checkArity k m)
  newOp : ∀ op, Pres P (newOp op)
  setParams : ∀ o ps, Pres P (modOp o fun op => { op with params := ps })
  setBits : ∀ o bs, Pres P (modOp o fun op => { op with bits := bs })
  setCond : ∀ o bs, Pres P (modOp o fun op => { op with cond := bs })
  getParam : ∀ c i, Pres P (getParam c i)
  lock : ∀ c, Pres P (lockCirc c)
  unlock : ∀ c, Pres P (unlockCirc c)
  resetItem : ∀ x, Pres P (resetItem x)
  allocCirc : ∀ p, Pres P (allocCirc p)
  newQubit : ∀ l w, P w → P { w with qubits := w.qubits ++ [l] }
  newBit : ∀ l w, P w → P { w with bits := w.bits ++ [⟨l, none⟩] }
  newVar : ∀ l w, P w → P { w with vars := w.vars ++ [⟨l, none⟩] }
  newClass : ∀ l w, P w → P { w with classes := w.classes ++ [l] }
  setLabel : ∀ q l w, P w → P { w with qubits := w.qubits.set q l }

/-- `P` is kept by the primitive steps that calls consist of. -/
structure Prims (P : World K → Prop) : Prop where
  qubitsOf : ∀ c, Pres P (qubitsOf c)
  bitsOf : ∀ c, Pres P (bitsOf c)
  addQReg : ∀ c n l, Pres P (addQReg c n l)
  addCReg : ∀ c n l, Pres P (addCReg c n l)
  addQubit : ∀ c q l, Pres P (addQubit c q l)
  addBit : ∀ c q l, Pres P (addBit c q l)
  appendOp : ∀ c o, Pres P (appendOp c o)
  evalInPlace : ∀ o g, Pres P (evalInPlace o g)
  checkArity : ∀ k m, Pres P (checkArity k m)
  newOp : ∀ op, Pres P (newOp op)
  setParams : ∀ o ps, Pres P (modOp o fun op => { op with params := ps })
  setBits : ∀ o bs, Pres P (modOp o fun op => { op with bits := bs })
  setCond : ∀ o bs, Pres P (modOp o fun op => { op with cond := bs })
  getParam : ∀ c i, Pres P (getParam c i)
  lock : ∀ c, Pres P (lockCirc c)
  unlock : ∀ c, Pres P (unlockCirc c)
  clearOps : ∀ c, Pres P (modCirc c fun C => { C with ops := [], ctx := none })
  resetItem : ∀ x, Pres P (resetItem x)
  removeOp : ∀ c o, Pres P (removeOp c o)
  allocCirc : ∀ p, Pres P (allocCirc p)
  newQubit : ∀ l w, P w → P { w with qubits := w.qubits ++ [l] }
  newBit : ∀ l w, P w → P { w with bits := w.bits ++ [⟨l, none⟩] }
  newVar : ∀ l w, P w → P { w with vars := w.vars ++ [⟨l, none⟩] }
  newClass : ∀ l w, P w → P { w with classes := w.classes ++ [l] }
  setLabel : ∀ q l w, P w → P { w with qubits := w.qubits.set q l }

/-- `P` is kept by the steps that calls consist of, where constructing an operation and assigning bits to a measurement are one step. -/
structure Steps0 (P : World K → Prop) : Prop where
  construct : ∀ k ps a, Pres P (construct k ps a)
  measureInto : ∀ o bs, Pres P (measureInto o bs : M K Unit)
  qubitsOf : ∀ c, Pres P (qubitsOf c)
  bitsOf : ∀ c, Pres P (bitsOf c)
  addQReg : ∀ c n l, Pres P (addQReg c n l)
  addCReg : ∀ c n l, Pres P (addCReg c n l)
  addQubit : ∀ c q l, Pres P (addQubit c q l)
  addBit : ∀ c q l, Pres P (addBit c q l)
  evalInPlace : ∀ o g, Pres P (evalInPlace o g)
  setCond : ∀ o bs, Pres P (modOp o fun op => { op with cond := bs })
  getParam : ∀ c i, Pres P (getParam c i)
  lock : ∀ c, Pres P (lockCirc c)
  unlock : ∀ c, Pres P (unlockCirc c)
  resetItem : ∀ x, Pres P (resetItem x)
  allocCirc : ∀ p, Pres P (allocCirc p)
  newQubit : ∀ l w, P w → P { w with qubits := w.qubits ++ [l] }
  newBit : ∀ l w, P w → P { w with bits := w.bits ++ [⟨l, none⟩] }
  newVar : ∀ l w, P w → P { w with vars := w.vars ++ [⟨l, none⟩] }
  newClass : ∀ l w, P w → P { w with classes := w.classes ++ [l] }
  setLabel : ∀ q l w, P w → P { w with qubits := w.qubits.set q l }

/-- The same, with the steps that change the operations of circuits. -/
structure StepsA (P : World K → Prop) : Prop extends Steps0 P where
  appendOp : ∀ c o, Pres P (appendOp c o)
  clearOps : ∀ c, Pres P (modCirc c fun C => { C with ops := [], ctx := none })
  removeOp : ∀ c o, Pres P (removeOp c o)

theorem pres_register {P : World K → Prop} (h : ∀ c o, Pres P (appendOp c o)) (a : Option Nat) (o : Nat) : Pres P (register a o) := by
  unfold DG.register
  cases a with
  | none => exact pres_pure _
  | some x => exact pres_bind (pres_deref _) fun C => pres_whenever (h _ _)

theorem Prims.to0 {P : World K → Prop} (h : Prims P) : Prims0 P :=
  { h with register := fun a o w _ hw => pres_register h.appendOp a o w hw }

namespace Prims0
variable {P : World K → Prop} (h : Prims0 P)
include h

theorem checkArg (k : Nat) (a : Option Nat) (q : Option (List Nat)) : Pres P (checkArg k a q) := by
  cases q with
  | none => exact pres_raiseIf _ _
  | some l => exact h.checkArity _ _

theorem initOperation (op : OpObj K) (q : Option (List Nat)) : Pres P (initOperation op q) := by
  intro w hw
  have h1 := h.checkArg op.cls w.active q w hw
  have h2 : (DG.checkArg op.cls w.active q w).2.active = w.active := by
    unfold DG.checkArg DG.checkArity M.raiseIf
    split
    · split <;> rfl
    · split <;> rfl
  unfold DG.initOperation
  simp only [bind_def, M.read]
  generalize DG.checkArg op.cls w.active q w = z at h1 h2
  obtain ⟨_ | _, w1⟩ := z
  · exact h1
  · dsimp only at h1 h2 ⊢
    have h3 : P { w1 with ops := w1.ops ++ [{ op with qubits := q, numQubits := q.map List.length, cond := none }] } :=
      h.newOp { op with qubits := q, numQubits := q.map List.length, cond := none } w1 h1
    unfold DG.newOp
    dsimp only
    have h4 := h.register w.active w1.ops.length _ (by exact h2) h3
    generalize DG.register w.active w1.ops.length { w1 with ops := w1.ops ++ [{ op with qubits := q, numQubits := q.map List.length, cond := none }] } = z at h4
    obtain ⟨_ | _, w2⟩ := z <;> exact h4

theorem construct (k : Nat) (ps : Option (List (OpParam K))) (a : QArgs) : Pres P (construct k ps a) := by
  unfold DG.construct
  refine pres_bind (pres_deref _) fun C => ?_
  split
  · exact h.initOperation _ _
  · exact h.initOperation _ _
  · exact pres_bind (pres_raiseIf _ _) fun _ => h.initOperation _ _
  · exact h.initOperation _ _
  · exact pres_bind (pres_raiseIf _ _) fun _ => pres_bind (h.initOperation _ _) fun o => pres_bind (pres_raiseIf _ _) fun _ =>
      pres_bind (h.setParams _ _) fun _ => pres_pure _
  · exact pres_raise _

theorem measureInto (o : Nat) (bs : List Nat) : Pres P (measureInto o bs : M K Unit) := by
  unfold DG.measureInto
  refine pres_bind (pres_deref _) fun op => pres_bind (pres_deref _) fun C => ?_
  split
  · exact pres_bind (pres_raiseIf _ _) fun _ => h.setBits _ _
  · exact pres_raise _

end Prims0

theorem Prims0.toSteps {P : World K → Prop} (h : Prims0 P) : Steps0 P :=
  { h with construct := h.construct, measureInto := h.measureInto }

theorem Prims.toA {P : World K → Prop} (h : Prims P) : StepsA P :=
  { h with toSteps0 := h.to0.toSteps }

namespace Steps0
variable {P : World K → Prop} (h : Steps0 P)
include h

theorem reapply (o : Nat) (a : QArgs) : Pres P (reapply o a) := by
  unfold DG.reapply
  refine pres_bind (pres_deref _) fun op => pres_bind (pres_deref _) fun C => ?_
  split <;> first | exact h.construct _ _ _ | exact pres_raise _

theorem callOne (qm : PyDict Lbl Nat) (bm : Option (PyDict Lbl Nat)) (o : Nat) : Pres P (callOne qm bm o) := by
  unfold DG.callOne
  refine pres_bind (pres_deref _) fun op => pres_bind (pres_deref _) fun C => pres_bind (pres_lookupAll _ _) fun mapped => ?_
  split
  · exact pres_bind (pres_lookupAll _ _) fun _ => pres_bind (h.construct _ _ _) fun _ => h.measureInto _ _
  · exact pres_bind (h.construct _ _ _) fun _ => pres_pure _
  · exact pres_bind (h.construct _ _ _) fun _ => pres_pure _
  · exact pres_bind (h.construct _ _ _) fun _ => pres_pure _
  · split
    · exact pres_bind (h.construct _ _ _) fun _ => pres_pure _
    · exact pres_raise _
  · exact pres_bind (h.construct _ _ _) fun _ => pres_pure _

theorem bitMap (a : Nat) (bs : Option (List Nat)) : Pres P (bitMap a bs : M K _) := by
  unfold DG.bitMap
  split
  · exact pres_pure _
  · exact pres_bind (h.bitsOf _) fun _ => pres_bind (pres_raiseIf _ _) fun _ => pres_bind (pres_zipMap _ _) fun _ => pres_pure _

theorem callCirc (a : Nat) (qs : List Nat) (bs : Option (List Nat)) : Pres P (callCirc a qs bs) := by
  unfold DG.callCirc
  refine pres_bind (pres_read _) fun act => ?_
  split
  · exact pres_raise _
  · exact pres_bind (pres_deref _) fun _ => pres_bind (pres_raiseIf _ _) fun _ => pres_bind (h.qubitsOf _) fun _ =>
      pres_bind (pres_raiseIf _ _) fun _ => pres_bind (h.bitMap _ _) fun _ => pres_bind (h.qubitsOf _) fun _ =>
      pres_bind (pres_zipMap _ _) fun _ => pres_bind (pres_deref _) fun _ => pres_each fun _ => h.callOne _ _ _

theorem newCirc (p : Bool) (n m : Option Int) : Pres P (newCirc p n m : M K Nat) := by
  unfold DG.newCirc
  refine pres_bind (h.allocCirc _) fun c => pres_bind ?_ fun _ => pres_bind ?_ fun _ => pres_pure _
  · unfold ifGiven; split
    · exact h.addQReg _ _ _
    · exact pres_pure _
  · unfold ifGiven; split
    · exact h.addCReg _ _ _
    · exact pres_pure _

end Steps0

theorem StepsA.resetKeep {P : World K → Prop} (h : StepsA P) (c : Nat) : Pres P (resetCirc c true : M K Unit) := by
  unfold resetCirc resetRegisters resetBits
  refine pres_bind (pres_deref _) fun C => pres_bind (h.clearOps _) fun _ => pres_bind ?_ fun _ => h.unlock _
  refine pres_bind (h.bitsOf _) fun r => ?_
  split
  · exact pres_raise _
  · exact pres_each fun _ => h.resetItem _

theorem Prims0.reapply {P : World K → Prop} (h : Prims0 P) (o : Nat) (a : QArgs) : Pres P (DG.reapply o a) := h.toSteps.reapply o a

theorem Prims0.callOne {P : World K → Prop} (h : Prims0 P) (qm : PyDict Lbl Nat) (bm : Option (PyDict Lbl Nat)) (o : Nat) : Pres P (DG.callOne qm bm o) :=
  h.toSteps.callOne qm bm o

theorem Prims0.bitMap {P : World K → Prop} (h : Prims0 P) (a : Nat) (bs : Option (List Nat)) : Pres P (DG.bitMap a bs : M K _) := h.toSteps.bitMap a bs

theorem Prims0.callCirc {P : World K → Prop} (h : Prims0 P) (a : Nat) (qs : List Nat) (bs : Option (List Nat)) : Pres P (DG.callCirc a qs bs) :=
  h.toSteps.callCirc a qs bs

theorem Prims0.newCirc {P : World K → Prop} (h : Prims0 P) (p : Bool) (n m : Option Int) : Pres P (DG.newCirc p n m : M K Nat) := h.toSteps.newCirc p n m

theorem Prims.resetKeep {P : World K → Prop} (h : Prims P) (c : Nat) : Pres P (resetCirc c true : M K Unit) := h.toA.resetKeep c

/-- The calls that do not change lists of operations directly. -/
def Call.Basic0 : Call K → Prop
  | .setBit .. | .setVar .. | .resetVar .. | .setQubits .. | .callParam .. | .resetVariables .. | .evalCirc .. => False
  | .append .. | .extend .. | .remove .. | .reset .. => False
  | _ => True

theorem Steps0.exec {P : World K → Prop} (h : Steps0 P) (e : Call K) (he : e.Basic0) : Pres P (execCall e) := by
  cases e with
  | newQubit l => exact h.newQubit l
  | newBit l => exact h.newBit l
  | newVar l => exact h.newVar l
  | newClass k => exact h.newClass k
  | newCirc p n m => exact pres_void (h.newCirc _ _ _)
  | setQubitLabel q l => exact h.setLabel q l
  | resetBit b => exact h.resetItem _
  | addQubit c q l => exact h.addQubit _ _ _
  | addBit c q l => exact h.addBit _ _ _
  | addQReg c q l => exact h.addQReg _ _ _
  | addCReg c q l => exact h.addCReg _ _ _
  | readQubits c => exact pres_void (h.qubitsOf _)
  | readBits c => exact pres_void (h.bitsOf _)
  | getParam c i => exact pres_void (h.getParam _ _)
  | construct k p a => exact pres_void (h.construct _ _ _)
  | reapply o a => exact pres_void (h.reapply _ _)
  | conditional o bs => exact pres_bind (pres_deref _) fun _ => h.setCond _ _
  | measureInto o bs => exact h.measureInto _ _
  | evalInPlace o g => exact h.evalInPlace _ _
  | lock c => exact h.lock _
  | unlock c => exact h.unlock _
  | call a q b => exact h.callCirc _ _ _
  | _ => exact he.elim

/-- The calls that consist of the primitive steps above. The others need an argument of their own. -/
def Call.Basic : Call K → Prop
  | .setBit .. | .setVar .. | .resetVar .. | .setQubits .. | .callParam .. | .resetVariables .. | .evalCirc .. => False
  | .reset _ keep => keep = true
  | _ => True

theorem StepsA.exec {P : World K → Prop} (h : StepsA P) (e : Call K) (he : e.Basic) : Pres P (execCall e) := by
  cases e with
  | append c o => exact h.appendOp _ _
  | extend c os => exact pres_each fun _ => h.appendOp _ _
  | remove c o => exact h.removeOp _ _
  | reset c k => cases he; exact h.resetKeep _
  | _ => first | exact he.elim | exact h.toSteps0.exec _ trivial

theorem Prims0.exec {P : World K → Prop} (h : Prims0 P) (e : Call K) (he : e.Basic0) : Pres P (execCall e) := h.toSteps.exec e he

theorem Prims.exec {P : World K → Prop} (h : Prims P) (e : Call K) (he : e.Basic) : Pres P (execCall e) := h.toA.exec e he

/-- The state after operation `o` at position `i` of circuit `d`, which is `D`, was replaced by a copy of `op` with parameters `ps`. -/
def World.replaced (w : World K) (d i : Nat) (D : Circ) (op : OpObj K) (ps : List (OpParam K)) : World K :=
  { w with
    bits := w.bits ++ w.bits
    ops := w.ops ++ [{ op.shift w.bits.length 0 with params := ps }]
    circs := w.circs.set d { D with ops := D.ops.set i w.ops.length } }

/-- The deep copy of circuit `C`. -/
def World.copyOf (w : World K) (C : Circ) : Circ :=
  { C with
    ops := C.ops.map (· + w.ops.length)
    ctx := (C.ctx.bind fun x => w.ctxs[x]?).map fun _ => w.ctxs.length
    c := C.c.shift w.bits.length
    vars := C.vars.map (· + w.vars.length) }

/-- The state after the deep copy of circuit `C`. -/
def World.copied (w : World K) (C : Circ) : World K :=
  { w with
    bits := w.bits ++ w.bits
    vars := w.vars ++ w.vars
    ops := w.ops ++ w.ops.map (OpObj.shift w.bits.length w.vars.length)
    circs := w.circs ++ [w.copyOf C]
    ctxs := w.ctxs ++ ((C.ctx.bind fun x => w.ctxs[x]?).map fun X => { X with circuit := w.circs.length }).toList }

omit [DecidableEq K] [Zero K] in
theorem deepCopy_eq {w : World K} {c : Nat} {C : Circ} (hC : w.circs[c]? = some C) : deepCopy c w = (.ok w.circs.length, w.copied C) := by
  unfold deepCopy
  rw [hC]
  rfl

omit [DecidableEq K] [Zero K] in
theorem copied_get (w : World K) (C : Circ) : (w.copied C).circs[w.circs.length]? = some (w.copyOf C) := by
  simp [World.copied]

/-- `eval` on a copy: the loop on the copy. -/
theorem evalCirc_copy_eq {w : World K} {c : Nat} {C : Circ} (hC : w.circs[c]? = some C) (hp : C.param = true) (given : Option (List (List K))) :
    evalCirc c given false w = match evalOps w.circs.length given false 0 (w.copyOf C).ops (w.copied C) with
      | (.ok _, w') => (.ok w.circs.length, w')
      | (.error e, w') => (.error e, w') := by
  unfold evalCirc
  simp only [bind_def, circ, M.deref, hC, M.raiseIf, hp, Bool.not_true, Bool.false_eq_true, if_false, evalTarget, deepCopy_eq hC, copied_get]
  rcases evalOps w.circs.length given false 0 (w.copyOf C).ops (w.copied C) with ⟨_ | _, _⟩ <;> rfl

/-- `eval` in place: the loop on the circuit. -/
theorem evalCirc_inplace_eq {w : World K} {c : Nat} {C : Circ} (hC : w.circs[c]? = some C) (hp : C.param = true) (given : Option (List (List K))) :
    evalCirc c given true w = match evalOps c given true 0 C.ops w with
      | (.ok _, w') => (.ok c, w')
      | (.error e, w') => (.error e, w') := by
  unfold evalCirc
  simp only [bind_def, circ, M.deref, hC, M.raiseIf, hp, Bool.not_true, Bool.false_eq_true, if_false, evalTarget, pure_def]
  rcases evalOps c given true 0 C.ops w with ⟨_ | _, _⟩ <;> rfl

/-- Circuits that are not parametric have no `eval`. -/
theorem evalCirc_none {w : World K} {c : Nat} (h : ∀ C, w.circs[c]? = some C → C.param = false) (given : Option (List (List K))) (inplace : Bool) :
    ∃ e, evalCirc c given inplace w = (.error e, w) ∧ (e = .attributeError ∨ w.circs[c]? = none) := by
  unfold evalCirc
  simp only [bind_def, circ, M.deref]
  cases hC : w.circs[c]? with
  | none => exact ⟨_, rfl, .inr rfl⟩
  | some C => exact ⟨.attributeError, by simp [M.raiseIf, h C hC], .inl rfl⟩

/-- Evaluating keeps the number of parameters. -/
theorem evalLoop_length (val : Nat → Option K) (given : Option (List K)) : ∀ (ps : List (OpParam K)) (i : Nat), (evalLoop val given i ps).2.length = ps.length
  | [], _ => rfl
  | .num x :: ps, i => by simp [evalLoop, evalLoop_length val given ps (i + 1)]
  | .var v :: ps, i => by
    have := evalLoop_length val given ps (i + 1)
    unfold evalLoop
    split
    · split
      · simpa using this
      · simp
    · split
      · split
        · simpa using this
        · simp
      · simp

/-- `P` is kept by the primitive steps of `ParametricCircuit.eval`. -/
structure EvalPrims (P : World K → Prop) : Prop where
  evalInPlace : ∀ o g, Pres P (evalInPlace o g)
  deepCopy : ∀ c, Pres P (deepCopy c)
  replace : ∀ (d i o : Nat) (w : World K) (D : Circ) (op : OpObj K) (ps : List (OpParam K)), P w → w.circs[d]? = some D → D.ops[i]? = some o →
    w.ops[o]? = some op → ps.length = op.params.length → P (w.replaced d i D op ps)

/-- One step of the loop of `eval` on a copy, in all cases. -/
theorem evalAt_copy (d : Nat) (given : Option (List (List K))) (i o : Nat) (w : World K) :
    (∃ e, evalAt d given false i o w = (.error e, w)) ∨
    (evalAt d given false i o w = (.ok (), w) ∧ ∃ op k, w.ops[o]? = some op ∧ w.classes[op.cls]? = some k ∧ k.kind.isParametric = false ∧
      ∃ g, nthParams given i = .ok g) ∨
    ∃ op k g ps, w.ops[o]? = some op ∧ w.classes[op.cls]? = some k ∧ k.kind.isParametric = true ∧ nthParams given i = .ok g ∧
      evalLoop w.varVal g 0 op.params = (.ok (), ps) ∧
      ((∃ D, w.circs[d]? = some D ∧ evalAt d given false i o w = (.ok (), w.replaced d i D op ps)) ∨
        (w.circs[d]? = none ∧ (evalAt d given false i o w).1 = .ok ())) := by
  unfold evalAt opObj clsObj
  simp only [bind_def, M.deref]
  cases ho : w.ops[o]? with
  | none => exact .inl ⟨_, rfl⟩
  | some op =>
    dsimp only
    cases hk : w.classes[op.cls]? with
    | none => exact .inl ⟨_, rfl⟩
    | some k =>
      dsimp only
      cases hg : nthParams given i with
      | error e => exact .inl ⟨e, rfl⟩
      | ok g =>
        cases hp : k.kind.isParametric with
        | false => exact .inr (.inl ⟨rfl, op, k, rfl, hk, hp, g, rfl⟩)
        | true =>
          cases hl : evalLoop w.varVal g 0 op.params with
          | mk r ps =>
            cases r with
            | error e =>
              refine .inl ⟨e, ?_⟩
              simp [bind_def, evalOpCopy, ho, hl]
            | ok u =>
              refine .inr (.inr ⟨op, k, g, ps, rfl, hk, hp, rfl, by rw [hl], ?_⟩)
              cases hD : w.circs[d]? with
              | none => exact .inr ⟨rfl, by simp [bind_def, evalOpCopy, ho, hl, modCirc, M.write]⟩
              | some D => exact .inl ⟨D, rfl, by simp [bind_def, evalOpCopy, ho, hl, modCirc, M.write, hD, World.setCirc, World.replaced]⟩

namespace EvalPrims
variable {P : World K → Prop} (h : EvalPrims P)
include h

theorem evalOps_inplace (d : Nat) (given : Option (List (List K))) : ∀ (l : List Nat) (i : Nat), Pres P (evalOps d given true i l)
  | [], _ => pres_pure _
  | o :: l, i => by
    refine pres_bind (pres_bind (pres_deref _) fun op => pres_bind (pres_deref _) fun k => ?_) fun _ => evalOps_inplace d given l (i + 1)
    split
    · exact pres_raise _
    · split
      · simp only [if_true]; exact h.evalInPlace _ _
      · exact pres_pure _

omit h in
theorem evalOps_copy (d : Nat) (hr : ∀ (i o : Nat) (w : World K) (D : Circ) (op : OpObj K) (ps : List (OpParam K)), P w → w.circs[d]? = some D →
    D.ops[i]? = some o → w.ops[o]? = some op → ps.length = op.params.length → P (w.replaced d i D op ps)) (given : Option (List (List K))) : ∀ (l : List Nat) (i : Nat) (w : World K), P w →
    (∃ D, w.circs[d]? = some D ∧ D.ops.drop i = l) → P (evalOps d given false i l w).2
  | [], _, _, hw, _ => hw
  | o :: l, i, w, hw, ⟨D, hD, hl⟩ => by
    have hi : D.ops[i]? = some o := by have := List.getElem?_drop (xs := D.ops) (i := i) (j := 0); rw [hl] at this; exact this.symm
    have hl' : D.ops.drop (i + 1) = l := by rw [← List.tail_drop, hl]; rfl
    rw [evalOps, bind_def]
    rcases evalAt_copy d given i o w with ⟨e, h1⟩ | ⟨h1, -⟩ | ⟨op, k, g, ps, h2, -, -, -, h5, ⟨D', h3, h4⟩ | ⟨h3, -⟩⟩
    · rw [h1]; exact hw
    · rw [h1]; exact evalOps_copy d hr given l (i + 1) w hw ⟨D, hD, hl'⟩
    · cases hD.symm.trans h3
      rw [h4]
      refine evalOps_copy d hr given l (i + 1) _ (hr i o w D op ps hw hD hi h2 (by rw [← evalLoop_length w.varVal g op.params 0, h5])) ⟨_, List.getElem?_set_self (List.getElem?_eq_some_iff.1 hD).1, ?_⟩
      rw [List.drop_set_of_lt (by omega), hl']
    · rw [hD] at h3; cases h3

theorem evalCirc (c : Nat) (given : Option (List (List K))) (inplace : Bool) : Pres P (evalCirc c given inplace) := by
  refine pres_bind (pres_deref _) fun C => pres_bind (pres_raiseIf _ _) fun _ => ?_
  refine pres_bind (m := evalTarget c inplace) (by cases inplace; exacts [h.deepCopy c, pres_pure _]) fun d => ?_
  intro w hw
  rw [bind_def]
  unfold circ M.deref
  dsimp only
  cases hD : w.circs[d]? with
  | none => exact hw
  | some D =>
    dsimp only
    rw [bind_def]
    have : P (evalOps d given inplace 0 D.ops w).2 := by
      cases inplace with
      | true => exact h.evalOps_inplace d given _ _ w hw
      | false => exact evalOps_copy d (h.replace d) given _ _ w hw ⟨D, hD, rfl⟩
    generalize evalOps d given inplace 0 D.ops w = z at this
    obtain ⟨_ | _, _⟩ := z <;> exact this

end EvalPrims

/-- Invariants of programs. -/
theorem pres_run {P : World K → Prop} {A : Call K → Prop} (hc : ∀ e, A e → Pres P (execCall e)) (ho : ∀ c, Pres P (openCtx c))
    (hx : ∀ x, Pres P (exitCtx x)) (hf : ∀ x b, Pres P (setFrozen x b)) : ∀ p : Prog K, p.All A → Pres P p.run
  | .skip, _ => pres_pure _
  | .call e, h => hc e h
  | .seq p q, h => pres_bind (pres_run hc ho hx hf p h.1) fun _ => pres_run hc ho hx hf q h.2
  | .withCtx c p, h => pres_withStmt (ho c) (pres_run hc ho hx hf p h) hx
  | .withFreeze p, h => by
    refine pres_withStmt ?_ (pres_run hc ho hx hf p h) fun _ => ?_
    · intro w hw; unfold freezeEnter; split
      · exact hw
      · exact hf _ _ _ hw
    · intro w hw; unfold freezeExit; split
      · exact hw
      · exact hf _ _ _ hw
  | .attempt p, h => pres_tryPass (pres_run hc ho hx hf p h)

theorem Prog.visits_start : ∀ (p : Prog K) (w : World K), p.Visits w w
  | .skip, _ => rfl
  | .call _, _ => .inl rfl
  | .seq p _, w => .inl (p.visits_start w)
  | .withCtx _ _, _ => .inl rfl
  | .withFreeze _, _ => .inl rfl
  | .attempt p, w => p.visits_start w

omit [DecidableEq K] [Zero K] in
theorem withStmt_world {α : Type} (enter : M K α) (body : M K Unit) (exit : α → M K Unit) (w : World K) :
    (withStmt enter body exit w).2 = match enter w with
      | (.error _, w1) => w1
      | (.ok a, w1) => (exit a (body w1).2).2 := by
  unfold withStmt
  generalize enter w = x
  obtain ⟨r, w1⟩ := x
  cases r with
  | error e => rfl
  | ok a =>
    dsimp only
    generalize exit a (body w1).2 = y
    obtain ⟨r, w3⟩ := y
    cases r <;> rfl

theorem run_seq (p q : Prog K) (w : World K) : (Prog.seq p q).run w = match p.run w with
    | (.ok _, w') => q.run w'
    | (.error e, w') => (.error e, w') := by
  rw [Prog.run, bind_def]
  rcases p.run w with ⟨_ | _, _⟩ <;> rfl

theorem run_withCtx (c : Nat) (p : Prog K) (w : World K) : (Prog.withCtx c p).run w = withStmt (openCtx c) p.run exitCtx w := rfl

theorem run_withFreeze (p : Prog K) (w : World K) : (Prog.withFreeze p).run w = withStmt freezeEnter p.run (fun _ => freezeExit) w := rfl

/-- The final state is visited. -/
theorem Prog.visits_run : ∀ (p : Prog K) (w : World K), p.Visits w (p.run w).2
  | .skip, _ => rfl
  | .call _, _ => .inr rfl
  | .seq p q, w => by
    have h1 := p.visits_run w
    show _ ∨ _
    rw [run_seq]
    generalize he : p.run w = x at h1
    obtain ⟨r, w1⟩ := x
    cases r with
    | error e => exact .inl h1
    | ok _ => exact .inr ⟨w1, rfl, q.visits_run w1⟩
  | .withCtx c p, w => by
    show _ ∨ _ ∨ _
    rw [run_withCtx, withStmt_world]
    generalize he : openCtx c w = x
    obtain ⟨r, w1⟩ := x
    cases r with
    | error e => exact .inr (.inl rfl)
    | ok x => exact .inr (.inr ⟨x, w1, rfl, .inr rfl⟩)
  | .withFreeze p, w => by
    show _ ∨ _ ∨ _
    rw [run_withFreeze, withStmt_world]
    generalize he : freezeEnter w = x
    obtain ⟨r, w1⟩ := x
    cases r with
    | error e => exact .inr (.inl rfl)
    | ok x => exact .inr (.inr ⟨w1, rfl, .inr rfl⟩)
  | .attempt p, w => p.visits_run w

/-- Invariants hold in all visited states. -/
theorem pres_visits {P : World K → Prop} {A : Call K → Prop} (hc : ∀ e, A e → Pres P (execCall e)) (ho : ∀ c, Pres P (openCtx c))
    (hx : ∀ x, Pres P (exitCtx x)) (hf : ∀ x b, Pres P (setFrozen x b)) :
    ∀ p : Prog K, p.All A → ∀ w w', P w → p.Visits w w' → P w'
  | .skip, _, w, w', hw, hv => by cases hv; exact hw
  | .call e, h, w, w', hw, hv => by
    rcases hv with rfl | rfl
    · exact hw
    · exact hc e h w hw
  | .seq p q, h, w, w', hw, hv => by
    rcases hv with hv | ⟨w1, he, hv⟩
    · exact pres_visits hc ho hx hf p h.1 w w' hw hv
    · have h1 := pres_run hc ho hx hf p h.1 w hw
      rw [he] at h1
      exact pres_visits hc ho hx hf q h.2 w1 w' h1 hv
  | .withCtx c p, h, w, w', hw, hv => by
    rcases hv with rfl | rfl | ⟨x, w1, he, hv⟩
    · exact hw
    · exact ho c w hw
    · have h1 := ho c w hw
      rw [he] at h1
      rcases hv with hv | rfl
      · exact pres_visits hc ho hx hf p h w1 w' h1 hv
      · exact hx x _ (pres_run hc ho hx hf p h w1 h1)
  | .withFreeze p, h, w, w', hw, hv => by
    have he : Pres P (freezeEnter (K := K)) := by
      intro w hw; unfold freezeEnter; split
      · exact hw
      · exact hf _ _ _ hw
    have hx' : Pres P (freezeExit (K := K)) := by
      intro w hw; unfold freezeExit; split
      · exact hw
      · exact hf _ _ _ hw
    rcases hv with rfl | rfl | ⟨w1, heq, hv⟩
    · exact hw
    · exact he w hw
    · have h1 := he w hw
      rw [heq] at h1
      rcases hv with hv | rfl
      · exact pres_visits hc ho hx hf p h w1 w' h1 hv
      · exact hx' _ (pres_run hc ho hx hf p h w1 h1)
  | .attempt p, h, w, w', hw, hv => pres_visits hc ho hx hf p h w w' hw hv

end DG

namespace DG
variable {K : Type} [DecidableEq K] [Zero K]

/-- `P` is kept by the primitive steps of entering and leaving contexts and of parametric calls. -/
structure CtxPrims (P : World K → Prop) : Prop where
  contextOf : ∀ c, Pres P (contextOf c)
  setActive : ∀ a w, P w → P { w with active := a }
  setOnExit : ∀ l w, P w → P { w with onExit := l }
  freezeVars : ∀ c, Pres P (modCirc c fun C => if C.param then { C with varsFrozen := true } else C)
  setVar : ∀ v x, Pres P (setVar v x)
  resetVar : ∀ v, Pres P (resetVar v)
  setFrozen : ∀ x b, Pres P (setFrozen x b)

namespace CtxPrims
variable {P : World K → Prop} (g : CtxPrims P)
include g

theorem openCtx (h : StepsA P) (c : Nat) : Pres P (openCtx c) := by
  unfold DG.openCtx enterCtx
  refine pres_bind (g.contextOf _) fun x => pres_bind ?_ fun _ => pres_pure _
  exact pres_bind (pres_deref _) fun X => pres_bind (pres_deref _) fun C => pres_bind (pres_raiseIf _ _) fun _ =>
    pres_bind (pres_read _) fun a => pres_bind (pres_raiseIf _ _) fun _ => pres_bind (fun w hw => g.setActive _ w hw) fun _ =>
    pres_bind (h.qubitsOf _) fun _ => pres_bind (h.bitsOf _) fun _ => pres_pure _

theorem resetVariables (c : Nat) : Pres P (resetVariables c) :=
  pres_bind (pres_deref _) fun _ => pres_each fun _ => g.resetVar _

theorem exitCtx (h : StepsA P) (x : Nat) : Pres P (exitCtx x) := by
  unfold DG.exitCtx
  exact pres_bind (pres_deref _) fun X => pres_bind (g.freezeVars _) fun _ => pres_bind (fun w hw => g.setActive _ w hw) fun _ =>
    pres_bind (pres_read _) fun a => pres_bind (pres_each fun _ => g.resetVariables _) fun _ =>
    pres_bind (fun w hw => g.setOnExit _ w hw) fun _ => h.lock _

theorem setVars : ∀ (vs : List Nat) (xs : List K), Pres P (setVars vs xs)
  | [], _ => pres_pure _
  | _ :: _, [] => pres_raise _
  | _ :: vs, _ :: xs => pres_bind (g.setVar _ _) fun _ => setVars vs xs

theorem callParam (h : StepsA P) (a : Nat) (ps : List K) (qs : List Nat) (bs : Option (List Nat)) : Pres P (callParam a ps qs bs) := by
  unfold DG.callParam
  exact pres_bind (pres_deref _) fun A => pres_bind (pres_raiseIf _ _) fun _ => pres_bind (pres_read _) fun _ =>
    pres_bind (pres_whenever (g.setVars _ _)) fun _ => pres_bind (fun w hw => g.setOnExit _ w hw) fun _ => h.toSteps0.callCirc _ _ _

/-- Invariants of programs from primitive steps; `B` describes the further calls that keep `P`. -/
theorem run (h : StepsA P) {A : Call K → Prop} (hA : ∀ e, A e → ¬ e.Basic → Pres P (execCall e)) (p : Prog K) (hp : p.All A) : Pres P p.run := by
  refine pres_run (A := A) (fun e he => ?_) (g.openCtx h) (g.exitCtx h) g.setFrozen p hp
  by_cases hb : e.Basic
  · exact h.exec e hb
  · exact hA e he hb

theorem reach (h : StepsA P) {A : Call K → Prop} (hA : ∀ e, A e → ¬ e.Basic → Pres P (execCall e)) (h0 : P {}) {w : World K}
    (hw : Spec.Reach A w) : P w := by
  obtain ⟨p, hp, hv⟩ := hw
  refine pres_visits (A := A) (fun e he => ?_) (g.openCtx h) (g.exitCtx h) g.setFrozen p hp _ _ h0 hv
  by_cases hb : e.Basic
  · exact h.exec e hb
  · exact hA e he hb

end CtxPrims

theorem Spec.Reach.imp {A B : Call K → Prop} (hab : ∀ e, A e → B e) {w : World K} (h : Spec.Reach A w) : Spec.Reach B w := by
  obtain ⟨p, hp, hv⟩ := h
  exact ⟨p, hp.imp hab, hv⟩

end DG
