import Verif.Proofs.Eval
import Verif.Proofs.InterruptCtx

/-! Interrupts: the lists of operations. -/

namespace DG
open Spec
variable {K α β : Type}

/-- Operations are only appended. -/
def Longer (w w' : World K) : Prop := ∀ c, opsOf w c <+: opsOf w' c

theorem Longer.rfl' (w : World K) : Longer w w := fun _ => List.prefix_rfl

theorem Longer.of_eq {w w' : World K} (h : ∀ c, opsOf w' c = opsOf w c) : Longer w w' := fun c => by rw [h c]

theorem Longer.trans' {w w' w'' : World K} (h : Longer w w') (h' : Longer w' w'') : Longer w w'' := fun c => (h c).trans (h' c)

/-- Wherever the computation is interrupted, operations have only been appended, and only those that would have been appended anyway. -/
def Grows (m : Steps (World K) α) : Prop := ∀ w, Longer w (m.run w).2 ∧ ∀ w' ∈ m.cut w, Longer w w' ∧ Longer w' (m.run w).2

theorem grows_atom {m : M K α} (h : ∀ w, Longer w (m w).2) : Grows (.atom m) := by
  intro w
  refine ⟨h w, fun w' hw' => ?_⟩
  simp only [Steps.atom, List.mem_singleton] at hw'
  subst hw'
  exact ⟨.rfl' _, h _⟩

theorem grows_pure (a : α) : Grows (pure a : Steps (World K) α) := fun w => ⟨.rfl' w, fun _ h => by cases h⟩

theorem grows_bind {m : Steps (World K) α} {f : α → Steps (World K) β} (h1 : Grows m) (h2 : ∀ a, Grows (f a)) : Grows (m >>= f) := by
  intro w
  obtain ⟨g1, g2⟩ := h1 w
  rw [Steps.cut_bind_eq]
  rcases hz : m.run w with ⟨e | a, w1⟩
  · rw [Steps.bind_error hz]
    rw [hz] at g1 g2
    refine ⟨g1, fun w' hw' => ?_⟩
    simp only [List.append_nil] at hw'
    exact g2 w' hw'
  · rw [Steps.bind_ok hz]
    rw [hz] at g1 g2
    obtain ⟨k1, k2⟩ := h2 a w1
    refine ⟨g1.trans' k1, fun w' hw' => ?_⟩
    rcases List.mem_append.1 hw' with hw' | hw'
    · exact ⟨(g2 w' hw').1, (g2 w' hw').2.trans' k1⟩
    · exact ⟨g1.trans' (k2 w' hw').1, (k2 w' hw').2⟩

theorem grows_whenever {c : Bool} {m : Steps (World K) Unit} (h : Grows m) : Grows (.whenever c m) := by
  cases c with
  | false => exact grows_pure _
  | true => exact h

theorem grows_each {l : List α} {f : α → Steps (World K) Unit} (h : ∀ a, Grows (f a)) : Grows (.each l f) := by
  induction l with
  | nil => exact grows_pure _
  | cons a l ih => exact grows_bind (h a) fun _ => ih

theorem grows_void {m : Steps (World K) α} (h : Grows m) : Grows m.void := by
  intro w
  have g := h w
  have e : (m.void.run w).2 = (m.run w).2 := by
    unfold Steps.void
    dsimp only
    generalize m.run w = z
    obtain ⟨_ | _, _⟩ := z <;> rfl
  rw [e]
  exact g

/-- A step that does not change the lists of operations. -/
def KeepsOps (m : M K α) : Prop := ∀ w c, opsOf (m w).2 c = opsOf w c

theorem KeepsOps.grows {m : M K α} (h : KeepsOps m) : Grows (.atom m) := grows_atom fun w => .of_eq (h w)

section
theorem ko_deref (f : World K → Option α) : KeepsOps (M.deref f) := by
  intro w c; unfold M.deref; split <;> rfl
theorem ko_read (f : World K → α) : KeepsOps (M.read f) := fun _ _ => rfl
theorem ko_raise (e : Err) : KeepsOps (M.raise e : M K α) := fun _ _ => rfl
theorem ko_raiseIf (b : Bool) (e : Err) : KeepsOps (M.raiseIf b e : M K Unit) := by
  intro w c; unfold M.raiseIf; split <;> rfl
theorem ko_modOp (o : Nat) (f : OpObj K → OpObj K) : KeepsOps (modOp o f) := by
  intro w c; unfold modOp M.write; dsimp only; split <;> rfl
theorem ko_modCirc (d : Nat) (f : Circ → Circ) (hf : ∀ C, (f C).ops = C.ops) : KeepsOps (modCirc d f : M K Unit) := by
  intro w c
  unfold modCirc M.write
  dsimp only
  split
  · next C hC => exact opsOf_same hC (hf C) c
  · rfl
theorem ko_qubitsOf (d : Nat) : KeepsOps (qubitsOf d : M K Reg) := by
  intro w c
  unfold qubitsOf
  split
  · rfl
  · next C hC => exact opsOf_same' hC rfl (by rfl) c
theorem ko_bitsOf (d : Nat) : KeepsOps (bitsOf d : M K Reg) := by
  intro w c
  unfold bitsOf
  split
  · rfl
  · next C hC => exact opsOf_same' hC rfl (by rfl) c
theorem ko_checkArg (k : Nat) (a : Option Nat) (q : Option (List Nat)) : KeepsOps (checkArg k a q : M K Unit) := by
  intro w c
  cases q with
  | none => exact ko_raiseIf _ _ w c
  | some l => unfold checkArg checkArity; dsimp only; split <;> rfl
theorem ko_checkArity (k m : Nat) : KeepsOps (checkArity k m : M K Unit) := by
  intro w c
  unfold checkArity; split <;> rfl
theorem ko_newOp (op : OpObj K) : KeepsOps (newOp op) := fun _ _ => rfl
theorem ko_lookup (d : PyDict Lbl Nat) (k : Nat) : KeepsOps (lookup d k : M K Nat) := by
  intro w c; unfold lookup; split <;> rfl
theorem ko_lookupAll (d : PyDict Lbl Nat) (l : List Nat) : KeepsOps (lookupAll d l : M K (List Nat)) := by
  intro w c
  exact pres_lookupAll (P := fun v => opsOf v c = opsOf w c) d l w rfl
theorem ko_zipMap (r : Reg) (l : List Nat) : KeepsOps (zipMap r l : M K _) := by
  intro w c; unfold zipMap; split <;> rfl
theorem ko_setVar (v : Nat) (x : K) : KeepsOps (setVar v x) := by
  intro w c; unfold setVar M.write; dsimp only; split <;> rfl
theorem ko_resetVar (v : Nat) : KeepsOps (resetVar v : M K Unit) := by
  intro w c; unfold resetVar M.write; dsimp only; split <;> rfl
theorem ko_measureInto (o : Nat) (bs : List Nat) : KeepsOps (measureInto o bs : M K Unit) := by
  intro w c
  have : Pres (fun v : World K => opsOf v c = opsOf w c) (measureInto o bs) := by
    unfold measureInto
    refine pres_bind (pres_deref _) fun op => pres_bind (pres_deref _) fun C => ?_
    split
    · exact pres_bind (pres_raiseIf _ _) fun _ v hv => (ko_modOp _ _ v c).trans hv
    · exact pres_raise _
  exact this w rfl
end

variable [DecidableEq K] [Zero K]

theorem grows_eval (o : Nat) (g : Option (List K)) : Grows (evalSteps o g) := by
  intro w
  have h1 : ∀ c, opsOf (evalInPlace o g w).2 c = opsOf w c := by
    intro c
    unfold evalInPlace
    split
    · rfl
    · split
      · rfl
      · split <;> rfl
  refine ⟨.of_eq h1, fun w' hw' => ?_⟩
  have h2 : ∀ c, opsOf w' c = opsOf w c := by
    simp only [evalSteps, List.mem_cons] at hw'
    rcases hw' with rfl | hw'
    · exact fun _ => rfl
    · generalize w.ops[o]? = z at hw'
      cases z with
      | none => cases hw'
      | some op =>
        dsimp only at hw'
        generalize w.classes[op.cls]? = z at hw'
        cases z with
        | none => cases hw'
        | some k =>
          dsimp only at hw'
          split at hw'
          · obtain ⟨i, -, rfl⟩ := List.mem_map.1 hw'
            exact fun _ => rfl
          · cases hw'
  exact ⟨.of_eq h2, .of_eq fun c => (h1 c).trans (h2 c).symm⟩

theorem grows_append (c o : Nat) : Grows (appendSteps c o : Steps (World K) Unit) := by
  unfold appendSteps checkMemberSteps
  refine grows_bind (ko_deref _).grows fun C => grows_bind (ko_raiseIf _ _).grows fun _ => grows_bind (grows_whenever (grows_eval _ _)) fun _ =>
    grows_bind (ko_deref _).grows fun op => grows_bind (grows_each fun q => grows_bind (ko_qubitsOf _).grows fun _ => (ko_raiseIf _ _).grows) fun _ =>
    grows_atom fun w => ?_
  unfold modCirc M.write
  dsimp only
  split
  · next D hD =>
    intro d
    rw [opsOf_setCirc hD]
    split
    · next e => rw [e, opsOf_of_get hD]; exact List.prefix_append _ _
    · exact List.prefix_rfl
  · exact .rfl' _

theorem grows_register (a : Option Nat) (o : Nat) : Grows (registerSteps a o : Steps (World K) Unit) := by
  unfold registerSteps
  cases a with
  | none => exact grows_pure _
  | some x => exact grows_bind (ko_deref _).grows fun C => grows_whenever (grows_append _ _)

theorem grows_init (op : OpObj K) (q : Option (List Nat)) : Grows (initSteps op q) := by
  unfold initSteps
  exact grows_bind (ko_read _).grows fun a => grows_bind (ko_checkArg _ _ _).grows fun _ => grows_bind (ko_newOp _).grows fun o =>
    grows_bind (grows_register _ _) fun _ => grows_pure _

theorem grows_construct (k : Nat) (ps : Option (List (OpParam K))) (a : QArgs) : Grows (constructSteps k ps a) := by
  unfold constructSteps
  refine grows_bind (ko_deref _).grows fun C => ?_
  split
  · exact grows_init _ _
  · exact grows_init _ _
  · exact grows_bind (ko_raiseIf _ _).grows fun _ => grows_init _ _
  · exact grows_init _ _
  · exact grows_bind (ko_raiseIf _ _).grows fun _ => grows_bind (grows_init _ _) fun o => grows_bind (ko_raiseIf _ _).grows fun _ =>
      grows_bind (ko_modOp _ _).grows fun _ => grows_pure _
  · exact (ko_raise _).grows

theorem grows_reapply (o : Nat) (a : QArgs) : Grows (reapplySteps o a : Steps (World K) Nat) := by
  unfold reapplySteps
  refine grows_bind (ko_deref _).grows fun op => grows_bind (ko_deref _).grows fun C => ?_
  split <;> first | exact grows_construct _ _ _ | exact (ko_raise _).grows

theorem grows_callOne (qm : PyDict Lbl Nat) (bm : Option (PyDict Lbl Nat)) (o : Nat) : Grows (callOneSteps qm bm o : Steps (World K) Unit) := by
  unfold callOneSteps
  refine grows_bind (ko_deref _).grows fun op => grows_bind (ko_deref _).grows fun C => grows_bind (ko_lookupAll _ _).grows fun mapped => ?_
  have hc : ∀ k ps a, Grows (constructSteps k ps a >>= fun _ => pure () : Steps (World K) Unit) := fun k ps a =>
    grows_bind (grows_construct _ _ _) fun _ => grows_pure _
  split
  · exact grows_bind (ko_lookupAll _ _).grows fun _ => grows_bind (grows_construct _ _ _) fun _ => (ko_measureInto _ _).grows
  · exact hc _ _ _
  · exact hc _ _ _
  · exact hc _ _ _
  · split
    · exact hc _ _ _
    · exact (ko_raise _).grows
  · exact hc _ _ _

omit [DecidableEq K] [Zero K] in
theorem grows_bitMap (a : Nat) (bs : Option (List Nat)) : Grows (bitMapSteps a bs : Steps (World K) _) := by
  unfold bitMapSteps
  split
  · exact grows_pure _
  · exact grows_bind (ko_bitsOf _).grows fun _ => grows_bind (ko_raiseIf _ _).grows fun _ => grows_bind (ko_zipMap _ _).grows fun _ => grows_pure _

theorem grows_call (a : Nat) (qs : List Nat) (bs : Option (List Nat)) : Grows (callSteps a qs bs : Steps (World K) Unit) := by
  unfold callSteps
  refine grows_bind (ko_read _).grows fun act => ?_
  split
  · exact (ko_raise _).grows
  · exact grows_bind (ko_deref _).grows fun _ => grows_bind (ko_raiseIf _ _).grows fun _ => grows_bind (ko_qubitsOf _).grows fun _ =>
      grows_bind (ko_raiseIf _ _).grows fun _ => grows_bind (grows_bitMap _ _) fun _ => grows_bind (ko_qubitsOf _).grows fun _ =>
      grows_bind (ko_zipMap _ _).grows fun _ => grows_bind (ko_deref _).grows fun _ => grows_each fun _ => grows_callOne _ _ _

omit [DecidableEq K] [Zero K] in
theorem grows_setVars : ∀ (vs : List Nat) (xs : List K), Grows (setVarsSteps vs xs)
  | [], _ => grows_pure _
  | _ :: _, [] => (ko_raise _).grows
  | _ :: vs, _ :: xs => grows_bind (ko_setVar _ _).grows fun _ => grows_setVars vs xs

theorem grows_callParam (a : Nat) (ps : List K) (qs : List Nat) (bs : Option (List Nat)) : Grows (callParamSteps a ps qs bs) := by
  unfold callParamSteps
  exact grows_bind (ko_deref _).grows fun A => grows_bind (ko_raiseIf _ _).grows fun _ => grows_bind (ko_read _).grows fun _ =>
    grows_bind (grows_whenever (grows_setVars _ _)) fun _ =>
    grows_bind (KeepsOps.grows (m := M.write fun w => { w with onExit := w.onExit ++ [a] }) fun _ _ => rfl) fun _ => grows_call _ _ _

omit [DecidableEq K] [Zero K] in
theorem grows_onQ (c : Nat) (f : World K → Steps Adding Unit) : Grows (onQ c f) := by
  have set : ∀ (w : World K) (C : Circ) b l, w.circs[c]? = some C → ∀ d, opsOf { w.setCirc c { C with q := b } with qubits := w.qubits ++ l } d = opsOf w d :=
    fun w C b l hC d => opsOf_same' hC rfl (by rfl) d
  intro w
  have h1 : ∀ d, opsOf ((onQ c f).run w).2 d = opsOf w d := by
    intro d
    unfold onQ
    dsimp only
    cases hC : w.circs[c]? with
    | none => rfl
    | some C => exact set w C _ _ hC d
  refine ⟨.of_eq h1, fun w' hw' => ?_⟩
  have h2 : ∀ d, opsOf w' d = opsOf w d := by
    simp only [onQ, List.mem_cons] at hw'
    rcases hw' with rfl | hw'
    · exact fun _ => rfl
    · generalize hC : w.circs[c]? = z at hw'
      cases z with
      | none => cases hw'
      | some C =>
        obtain ⟨r, -, rfl⟩ := List.mem_map.1 hw'
        exact set w C _ _ hC
  exact ⟨.of_eq h2, .of_eq fun d => (h1 d).trans (h2 d).symm⟩

omit [DecidableEq K] [Zero K] in
theorem grows_onC (c : Nat) (f : World K → Steps Adding Unit) : Grows (onC c f) := by
  have set : ∀ (w : World K) (C : Circ) b l, w.circs[c]? = some C → ∀ d, opsOf { w.setCirc c { C with c := b } with bits := w.bits ++ l } d = opsOf w d :=
    fun w C b l hC d => opsOf_same' hC rfl (by rfl) d
  intro w
  have h1 : ∀ d, opsOf ((onC c f).run w).2 d = opsOf w d := by
    intro d
    unfold onC
    dsimp only
    cases hC : w.circs[c]? with
    | none => rfl
    | some C => exact set w C _ _ hC d
  refine ⟨.of_eq h1, fun w' hw' => ?_⟩
  have h2 : ∀ d, opsOf w' d = opsOf w d := by
    simp only [onC, List.mem_cons] at hw'
    rcases hw' with rfl | hw'
    · exact fun _ => rfl
    · generalize hC : w.circs[c]? = z at hw'
      cases z with
      | none => cases hw'
      | some C =>
        obtain ⟨r, -, rfl⟩ := List.mem_map.1 hw'
        exact set w C _ _ hC
  exact ⟨.of_eq h2, .of_eq fun d => (h1 d).trans (h2 d).symm⟩

omit [DecidableEq K] [Zero K] in
theorem longer_alloc (p : Bool) (w : World K) : Longer w (allocCirc p w).2 := by
  refine .of_eq fun c' => ?_
  unfold DG.allocCirc opsOf
  dsimp only
  rcases Nat.lt_trichotomy c' w.circs.length with hc | hc | hc
  · rw [List.getElem?_append_left hc]
  · subst hc; simp
  · rw [List.getElem?_eq_none (by simp; omega), List.getElem?_eq_none (by omega)]

omit [DecidableEq K] [Zero K] in
theorem void_snd (m : M K α) (w : World K) : (m.void w).2 = (m w).2 := by
  unfold M.void
  generalize m w = z
  obtain ⟨_ | _, _⟩ := z <;> rfl

theorem grows_evalCirc (c : Nat) (given : Option (List (List K))) (inplace : Bool) : Grows (evalCircSteps c given inplace) := by
  have hat : ∀ i o, Grows (evalAtSteps given i o) := by
    intro i o
    refine grows_bind (ko_deref _).grows fun op => grows_bind (ko_deref _).grows fun k => ?_
    cases nthParams given i with
    | error e => exact grows_atom fun w => .of_eq fun _ => rfl
    | ok ps => exact grows_whenever (grows_eval _ _)
  have hl : ∀ (l : List Nat) (i : Nat), Grows (evalOpsSteps given i l) := by
    intro l
    induction l with
    | nil => exact fun _ => grows_pure _
    | cons o l ih => exact fun i => grows_bind (hat i o) fun _ => ih (i + 1)
  cases inplace with
  | false =>
    refine grows_atom fun w => ?_
    obtain ⟨m, hm⟩ := (evalCirc_untouched c given w).circs
    intro d
    unfold opsOf
    rw [← hm]
    by_cases hd : d < w.circs.length
    · rw [List.getElem?_append_left hd]
    · rw [List.getElem?_eq_none (by omega : w.circs.length ≤ d)]; exact List.nil_prefix
  | true => exact grows_bind (ko_deref _).grows fun C => grows_bind (ko_raiseIf _ _).grows fun _ => grows_bind (ko_deref _).grows fun D => grows_bind (hl _ _) fun _ => grows_pure _

theorem grows_exec (e : Call K) (he : e.Appends) : Grows (execSteps e) := by
  have full : ∀ e : Call K, (execSteps e) = .atom (execCall e) → (∀ w, Longer w (execCall e w).2) → Grows (execSteps e) := by
    intro e h1 h2; rw [h1]; exact grows_atom h2
  cases e with
  | addQubit => exact grows_onQ _ _
  | addQReg => exact grows_onQ _ _
  | addBit => exact grows_onC _ _
  | addCReg => exact grows_onC _ _
  | construct k p a => exact grows_void (grows_construct _ _ _)
  | reapply o a => exact grows_void (grows_reapply _ _)
  | setQubits o qs => exact grows_bind (ko_deref _).grows fun op => grows_bind (ko_checkArity _ _).grows fun _ => (ko_modOp _ _).grows
  | evalInPlace o g => exact grows_eval _ _
  | append c o => exact grows_append _ _
  | extend c os => exact grows_each fun _ => grows_append _ _
  | unlock c => exact grows_bind (ko_modCirc _ _ fun C => by split <;> rfl).grows fun _ => (ko_modCirc c (fun C => { C with locked := false }) fun _ => rfl).grows
  | call a q b => exact grows_call _ _ _
  | callParam a p q b => exact grows_callParam _ _ _ _
  | evalCirc c g i => exact grows_void (grows_evalCirc _ _ _)
  | resetVariables a => exact grows_bind (ko_deref _).grows fun _ => grows_each fun _ => (ko_resetVar _).grows
  | reset => exact he.elim
  | remove => exact he.elim
  | newQubit l => exact full _ rfl fun w => .of_eq fun _ => rfl
  | newBit l => exact full _ rfl fun w => .of_eq fun _ => rfl
  | newVar l => exact full _ rfl fun w => .of_eq fun _ => rfl
  | newClass l => exact full _ rfl fun w => .of_eq fun _ => rfl
  | setQubitLabel q l => exact full _ rfl fun w => .of_eq fun _ => rfl
  | setVar v x => exact full _ rfl fun w => .of_eq (ko_setVar v x w)
  | resetVar v => exact full _ rfl fun w => .of_eq (ko_resetVar v w)
  | setBit b v f => exact full _ rfl fun w => .of_eq fun c => by show opsOf (setBit b v f w).2 c = _; unfold setBit; split <;> rfl
  | measureInto o bs => exact full _ rfl fun w => .of_eq (ko_measureInto o bs w)
  | lock c => exact full _ rfl fun w => .of_eq (ko_modCirc c (fun C => { C with locked := true }) (fun _ => rfl) w)
  | conditional o bs =>
    refine full _ rfl fun w => .of_eq fun c => ?_
    have : Pres (fun v : World K => opsOf v c = opsOf w c) (conditional o bs) :=
      pres_bind (pres_deref _) fun _ v hv => (ko_modOp _ _ v c).trans hv
    exact this w rfl
  | resetBit b =>
    refine full _ rfl fun w => .of_eq fun c => ?_
    show opsOf (resetItem (.obj b) w).2 c = _
    unfold resetItem M.write
    dsimp only
    split <;> rfl
  | readQubits c => exact full _ rfl fun w => .of_eq fun d => by show opsOf ((qubitsOf c).void w).2 d = _; rw [void_snd]; exact ko_qubitsOf c w d
  | readBits c => exact full _ rfl fun w => .of_eq fun d => by show opsOf ((bitsOf c).void w).2 d = _; rw [void_snd]; exact ko_bitsOf c w d
  | getParam c i =>
    refine full _ rfl fun w => .of_eq fun d => ?_
    show opsOf ((getParam c i).void w).2 d = _
    rw [void_snd]
    unfold getParam
    split
    · rfl
    · next C hC =>
      split
      · rfl
      · dsimp only
        split
        · exact opsOf_same' hC rfl (by rfl) d
        · have : ∀ j : Int, opsOf (if 0 ≤ j then match C.vars[j.toNat]? with
              | some v => ((.ok v : Except Err Nat), w)
              | none => (.error .indexError, w) else (.error .indexError, w)).2 d = opsOf w d := by
            intro j
            split
            · split <;> rfl
            · rfl
          exact this _
  | newCirc p n m =>
    refine full _ rfl fun w => ?_
    show Longer w ((newCirc p n m).void w).2
    rw [void_snd]
    have ha : ∀ c n l, Pres (fun v : World K => Longer w v) (addQReg c n l) := fun c n l v hv => hv.trans' (by
      have := (grows_onQ c (fun w : World K => addRegisterSteps qubitEnv "qreg" n l w.qubits.length) v).1
      rwa [show (onQ c (fun w : World K => addRegisterSteps qubitEnv "qreg" n l w.qubits.length)).run = addQReg c n l from run_addQReg c n l] at this)
    have hb : ∀ c n l, Pres (fun v : World K => Longer w v) (addCReg c n l) := fun c n l v hv => hv.trans' (by
      have := (grows_onC c (fun w : World K => addRegisterSteps w.bitEnv "creg" n l w.bits.length) v).1
      rwa [show (onC c (fun w : World K => addRegisterSteps w.bitEnv "creg" n l w.bits.length)).run = addCReg c n l from run_addCReg c n l] at this)
    have : Pres (fun v : World K => Longer w v) (newCirc p n m) := by
      unfold newCirc
      refine pres_bind (fun v hv => hv.trans' (longer_alloc p v)) fun c => pres_bind ?_ fun _ => pres_bind ?_ fun _ => pres_pure _
      · unfold ifGiven; split
        · exact ha _ _ _
        · exact pres_pure _
      · unfold ifGiven; split
        · exact hb _ _ _
        · exact pres_pure _
    exact this w (.rfl' w)

/-! ## Stale registers -/

omit [DecidableEq K] [Zero K] in
theorem mem_cut_bind {σ : Type} {m : Steps σ α} {f : α → Steps σ β} {s s1 s' : σ} {a : α} (h1 : m.run s = (.ok a, s1)) (h2 : s' ∈ (f a).cut s1) :
    s' ∈ (m >>= f).cut s := by
  rw [Steps.cut_bind_eq, h1]
  exact List.mem_append_right _ h2

omit [DecidableEq K] [Zero K] in
theorem addTo_cache {ev : EqEnv} {l : RLabel} {k : Nat} {b b' : Bank} {r : Except Err Unit} (h : addTo ev l k b = (r, b')) : b'.cache = b.cache := by
  unfold addTo at h
  cases hg : b.regs.get? l with
  | none => simp only [hg] at h; cases h; rfl
  | some x => simp only [hg] at h; cases h; rfl

/-- Interrupted at the end, `add_qubit` leaves the registers with the qubit and the cached property without. -/
theorem addItem_stale {ev : EqEnv} (hev : Inert ev) {b : Bank} {L : Layout} (h : Bank.Ok b L) (hf : L ≠ [] → Bank.Fresh b L) (pre : String) (k : Nat)
    (label : Option RLabel) (fresh : Nat) (hlt : ∀ k ∈ L.items, k < fresh) (hk : k ∉ L.items) (new : List RLabel) :
    ∃ b' r, (b', new) ∈ (addItemSteps ev pre (some (k, true)) label fresh).cut (b, new) ∧ b'.cache = some r ∧ CyReg.Rep r.cy (L.items.map Lbl.obj) ∧
      Bank.Ok b' ((L.withRegister pre label).2.addTo (L.withRegister pre label).1 k) := by
  obtain ⟨b1, h1, h2, h3⟩ := Bank.chooseRegister_ok hev h hf pre label fresh hlt
  obtain ⟨r, b2, g1, g2, g3, g4, -⟩ := Bank.flat_ok hev h2
  have hrep := g4 h3
  rw [Bank.withRegister_items] at hrep
  obtain ⟨created, b', item, a1, a2, -, a4⟩ := Bank.addItem_ok hev h hf pre (some (k, true)) label fresh hlt (by rintro k' t ⟨⟩; exact hk)
  have hitem : item = k := by
    rcases a4 with ⟨k', e, rfl, -⟩ | ⟨e | ⟨k', e⟩, -⟩ <;> cases e
    rfl
  subst hitem
  have hno : Bank.holds r ((some (item, true) : Option (Nat × Bool)).map Prod.fst) = false := by
    unfold Bank.addItem at a1
    rw [h1] at a1
    dsimp only at a1
    rw [g1] at a1
    dsimp only at a1
    cases hh : Bank.holds r ((some (item, true) : Option (Nat × Bool)).map Prod.fst) with
    | false => rfl
    | true => rw [hh] at a1; cases a1
  have hst : b2.store ev (L.withRegister pre label).1 item = (.ok (), b') := by
    unfold Bank.addItem at a1
    rw [h1] at a1
    dsimp only at a1
    rw [g1] at a1
    dsimp only at a1
    rw [hno] at a1
    simp only [Bool.false_eq_true, if_false] at a1
    generalize b2.store ev (L.withRegister pre label).1 item = z at a1
    obtain ⟨_ | _, b3⟩ := z <;> cases a1
    rfl
  rw [addTo_store] at hst
  rcases hz : addTo ev (L.withRegister pre label).1 item b2 with ⟨_ | _, b3⟩
  · rw [hz] at hst; cases hst
  · rw [hz] at hst
    cases hst
    refine ⟨b3, r, ?_, by rw [addTo_cache hz, g3], hrep, Bank.ok_of_regs a2 rfl⟩
    unfold addItemSteps
    refine mem_cut_bind (a := (L.withRegister pre label).1) (s1 := (b1, new)) ?_ ?_
    · rw [chooseRegister_steps, h1]
    refine mem_cut_bind (onBank_eq g1 new) ?_
    refine mem_cut_bind (a := ()) (s1 := (b2, new)) (onBank_eq (by rw [hno]; rfl) new) ?_
    refine mem_cut_bind (a := ()) (s1 := (b3, new)) (onBank_eq hz new) ?_
    exact List.mem_singleton.2 rfl

omit [DecidableEq K] [Zero K] in
/-- Where entering a context can be interrupted with the context already active. -/
theorem open_cut {w : World K} (h : Refs w) {c x : Nat} {w1 : World K} (ho : openCtx c w = (.ok x, w1)) :
    ∃ w' ∈ (openSteps c).cut w, ActiveIn x c w' := by
  have h0 : ∃ C, w.circs[c]? = some C := by
    cases hC : w.circs[c]? with
    | some C => exact ⟨C, rfl⟩
    | none => simp [openCtx, bind_def, contextOf, hC] at ho
  obtain ⟨C, hC⟩ := h0
  obtain ⟨y, Y, h1, h2, h3, h4, h5⟩ := contextOf_ok h hC
  have hc1 : contextOf c w = (.ok y, (contextOf c w).2) := by
    generalize contextOf c w = z at h1
    obtain ⟨_, _⟩ := z
    cases h1; rfl
  have hl : C.locked = false ∧ (contextOf c w).2.active.isSome = false ∧ y = x := by
    have hi := openCtx_inv h ho
    unfold openCtx enterCtx at ho
    rw [bind_def, hc1] at ho
    simp only [bind_def, ctxObj, M.deref, h2, circ, h3, h4, M.raiseIf, M.read, M.write] at ho
    cases hl : C.locked with
    | true => simp [hl] at ho
    | false =>
      cases ha : (contextOf c w).2.active.isSome with
      | true => simp [hl, ha] at ho
      | false =>
        refine ⟨rfl, rfl, ?_⟩
        simp only [hl, ha, Bool.false_eq_true, if_false] at ho
        generalize qubitsOf c { (contextOf c w).2 with active := some y } = z at ho
        obtain ⟨_ | r, w3⟩ := z
        · cases ho
        · dsimp only at ho
          generalize bitsOf c w3 = z at ho
          obtain ⟨_ | r, w4⟩ := z
          · cases ho
          · cases ho; rfl
  obtain ⟨l1, l2, rfl⟩ := hl
  refine ⟨{ (contextOf c w).2 with active := some y }, ?_, rfl, Y, h2, h3⟩
  subst h3
  unfold openSteps
  refine mem_cut_bind (s1 := (contextOf Y.circuit w).2) hc1 ?_
  refine mem_cut_bind (a := Y) (s1 := (contextOf Y.circuit w).2) (by simp [Steps.atom, ctxObj, M.deref, h2]) ?_
  refine mem_cut_bind (a := { C with ctx := some y }) (s1 := (contextOf Y.circuit w).2) (by simp [Steps.atom, circ, M.deref, h4]) ?_
  refine mem_cut_bind (a := ()) (s1 := (contextOf Y.circuit w).2) (by simp [Steps.atom, M.raiseIf, l1]) ?_
  refine mem_cut_bind (s1 := (contextOf Y.circuit w).2) rfl ?_
  refine mem_cut_bind (a := ()) (s1 := (contextOf Y.circuit w).2) (by simp only [Steps.atom, M.raiseIf, l2]; rfl) ?_
  refine mem_cut_bind (a := ()) rfl ?_
  rw [Steps.cut_bind_eq]
  exact List.mem_append_left _ (List.mem_singleton.2 rfl)

end DG
