import Verif.Model.Interrupt
import Verif.Proofs.Enter

/-! Interrupts: the methods in steps do the same as the methods. -/

namespace DG
variable {K α β : Type}

theorem run_bind {m : Steps (World K) α} {f : α → Steps (World K) β} {m' : M K α} {f' : α → M K β} (h : m.run = m') (h' : ∀ a, (f a).run = f' a) :
    (m >>= f).run = (m' >>= f') := by
  subst h
  have e : (fun a => (f a).run) = f' := funext h'
  subst e
  funext w
  refine Eq.trans ?_ (bind_def (K := K) m.run (fun a => (f a).run) w).symm
  show (Steps.bind m f).run w = _
  unfold Steps.bind
  dsimp only
  generalize m.run w = z
  obtain ⟨_ | _, _⟩ := z <;> rfl

theorem run_each {l : List α} {f : α → Steps (World K) Unit} {f' : α → M K Unit} (h : ∀ a, (f a).run = f' a) :
    (Steps.each l f).run = M.each l f' := by
  induction l with
  | nil => rfl
  | cons a l ih => exact run_bind (h a) fun _ => ih

theorem run_whenever {c : Bool} {m : Steps (World K) Unit} {m' : M K Unit} (h : m.run = m') : (Steps.whenever c m).run = M.whenever c m' := by
  subst h
  cases c <;> rfl

theorem run_void {m : Steps (World K) α} {m' : M K α} (h : m.run = m') : m.void.run = m'.void := by
  subst h
  funext w
  unfold Steps.void M.void
  dsimp only
  generalize m.run w = z
  obtain ⟨_ | _, _⟩ := z <;> rfl

theorem run_setVars : ∀ (vs : List Nat) (xs : List K), (setVarsSteps vs xs).run = setVars vs xs
  | [], _ => rfl
  | _ :: _, [] => rfl
  | _ :: vs, _ :: xs => run_bind rfl fun _ => run_setVars vs xs

theorem run_resetVariables (c : Nat) : (resetVariablesSteps c : Steps (World K) Unit).run = resetVariables c :=
  run_bind rfl fun _ => run_each fun _ => rfl

theorem modCirc_modCirc (c : Nat) (f g : Circ → Circ) (w : World K) :
    (modCirc c f >>= fun _ => modCirc c g : M K Unit) w = modCirc c (fun C => g (f C)) w := by
  rw [bind_def]
  unfold modCirc M.write
  dsimp only
  cases hC : w.circs[c]? with
  | none => simp [hC]
  | some C =>
    have hlt := (List.getElem?_eq_some_iff.1 hC).1
    simp [World.setCirc, hlt]

theorem run_unlock (c : Nat) : (unlockSteps c : Steps (World K) Unit).run = unlockCirc c := by
  funext w
  refine (modCirc_modCirc c _ _ w).trans ?_
  unfold unlockCirc
  congr 1
  funext C
  split <;> rfl

theorem run_resetBits (c : Nat) : (resetBitsSteps c : Steps (World K) Unit).run = resetBits c := by
  refine run_bind rfl fun r => ?_
  split
  · rename_i h; rw [h]; rfl
  · rename_i h; rw [h]; exact run_each fun _ => rfl

theorem run_resetRegisters (c : Nat) (keep : Bool) : (resetRegistersSteps c keep : Steps (World K) Unit).run = resetRegisters c keep := by
  cases keep with
  | true => exact run_resetBits c
  | false =>
    funext w
    exact modCirc_modCirc c _ _ w

theorem M.bind_assoc {γ : Type} (m : M K α) (f : α → M K β) (g : β → M K γ) : (m >>= f >>= g) = (m >>= fun a => f a >>= g) := by
  funext w
  simp only [bind_def]
  rcases m w with ⟨_ | _, _⟩ <;> rfl

theorem run_reset (c : Nat) (keep : Bool) : (resetSteps c keep : Steps (World K) Unit).run = resetCirc c keep := by
  unfold resetCirc
  refine run_bind rfl fun C => ?_
  have e : ∀ X : M K Unit, (modCirc c (fun C => { C with ops := [], ctx := none }) >>= fun _ => X) =
      (modCirc c (fun C => { C with ops := [] }) >>= fun _ => modCirc c (fun C => { C with ctx := none }) >>= fun _ => X) := by
    intro X
    rw [← M.bind_assoc]
    congr 1
    funext w
    exact (modCirc_modCirc c (fun C => { C with ops := [] }) (fun C => { C with ctx := none }) w).symm
  rw [e]
  exact run_bind rfl fun _ => run_bind rfl fun _ => run_bind (run_resetRegisters _ _) fun _ => run_unlock _

theorem run_open (c : Nat) : (openSteps c : Steps (World K) Nat).run = openCtx c := by
  funext w
  unfold openCtx enterCtx
  refine congrFun (run_bind (m := Steps.atom (contextOf c)) rfl fun x => ?_) w
  rw [M.bind_assoc]
  refine run_bind rfl fun X => ?_
  rw [M.bind_assoc]
  refine run_bind rfl fun C => ?_
  rw [M.bind_assoc]
  refine run_bind rfl fun _ => ?_
  rw [M.bind_assoc]
  refine run_bind rfl fun a => ?_
  rw [M.bind_assoc]
  refine run_bind rfl fun _ => ?_
  rw [M.bind_assoc]
  refine run_bind rfl fun _ => ?_
  rw [M.bind_assoc]
  refine run_bind rfl fun _ => ?_
  rw [M.bind_assoc]
  exact run_bind rfl fun _ => rfl

theorem run_exit (x : Nat) : (exitSteps x : Steps (World K) Unit).run = exitCtx x :=
  run_bind rfl fun _ => run_bind rfl fun _ => run_bind rfl fun _ => run_bind rfl fun _ => run_bind (run_each run_resetVariables) fun _ =>
    run_bind rfl fun _ => rfl

theorem run_bitMap (a : Nat) (bits : Option (List Nat)) : (bitMapSteps a bits : Steps (World K) _).run = bitMap a bits := by
  unfold bitMapSteps bitMap
  cases nonempty bits
  · rfl
  · exact run_bind rfl fun _ => run_bind rfl fun _ => run_bind rfl fun _ => rfl

section
variable [DecidableEq K] [Zero K]

theorem run_append (c o : Nat) : (appendSteps c o : Steps (World K) Unit).run = appendOp c o :=
  run_bind rfl fun _ => run_bind rfl fun _ => run_bind (run_whenever rfl) fun _ => run_bind rfl fun _ =>
    run_bind (run_each fun _ => run_bind rfl fun _ => rfl) fun _ => rfl

theorem run_register (a : Option Nat) (o : Nat) : (registerSteps a o : Steps (World K) Unit).run = register a o := by
  cases a with
  | none => rfl
  | some x => exact run_bind rfl fun _ => run_whenever (run_append _ _)

theorem run_init (op : OpObj K) (q : Option (List Nat)) : (initSteps op q).run = initOperation op q :=
  run_bind rfl fun _ => run_bind rfl fun _ => run_bind rfl fun _ => run_bind (run_register _ _) fun _ => rfl

theorem run_construct (k : Nat) (ps : Option (List (OpParam K))) (a : QArgs) : (constructSteps k ps a).run = construct k ps a := by
  refine run_bind rfl fun C => ?_
  obtain ⟨_, kind, _, _⟩ := C
  cases kind <;> cases ps <;> cases a <;> first
    | exact run_init _ _
    | exact run_bind rfl fun _ => run_init _ _
    | exact run_bind rfl fun _ => run_bind (run_init _ _) fun _ => run_bind rfl fun _ => run_bind rfl fun _ => rfl
    | rfl

theorem run_reapply (o : Nat) (a : QArgs) : (reapplySteps o a : Steps (World K) Nat).run = reapply o a := by
  refine run_bind rfl fun op => run_bind rfl fun C => ?_
  obtain ⟨_, kind, _, _⟩ := C
  cases kind <;> cases a <;> first | exact run_construct _ _ _ | rfl

theorem run_callOne (qm : PyDict Lbl Nat) (bm : Option (PyDict Lbl Nat)) (o : Nat) : (callOneSteps qm bm o : Steps (World K) Unit).run = callOne qm bm o := by
  refine run_bind rfl fun op => run_bind rfl fun C => run_bind rfl fun mapped => ?_
  obtain ⟨_, kind, _, _⟩ := C
  cases kind with
  | measurement => cases bm with
    | some bm => exact run_bind rfl fun _ => run_bind (run_construct _ _ _) fun _ => rfl
    | none => exact run_bind (run_construct _ _ _) fun _ => rfl
  | controlled =>
    dsimp only
    cases starArgs mapped with
    | some a => exact run_bind (run_construct _ _ _) fun _ => rfl
    | none => rfl
  | _ => exact run_bind (run_construct _ _ _) fun _ => rfl

theorem run_call (a : Nat) (qs : List Nat) (bs : Option (List Nat)) : (callSteps a qs bs : Steps (World K) Unit).run = callCirc a qs bs := by
  refine run_bind rfl fun act => ?_
  cases act
  · rfl
  · exact run_bind rfl fun _ => run_bind rfl fun _ => run_bind rfl fun _ => run_bind rfl fun _ => run_bind (run_bitMap _ _) fun _ =>
      run_bind rfl fun _ => run_bind rfl fun _ => run_bind rfl fun _ => run_each fun _ => run_callOne _ _ _

theorem run_callParam (a : Nat) (ps : List K) (qs : List Nat) (bs : Option (List Nat)) :
    (callParamSteps a ps qs bs : Steps (World K) Unit).run = callParam a ps qs bs :=
  run_bind rfl fun _ => run_bind rfl fun _ => run_bind rfl fun _ => run_bind (run_whenever (run_setVars _ _)) fun _ =>
    run_bind rfl fun _ => run_call _ _ _

end

/-! Registers. -/

section
variable {σ : Type}

theorem Steps.bind_ok {m : Steps σ α} {f : α → Steps σ β} {s s' : σ} {a : α} (h : m.run s = (.ok a, s')) : (m >>= f).run s = (f a).run s' := by
  show (Steps.bind m f).run s = _
  unfold Steps.bind
  dsimp only
  rw [h]

theorem Steps.bind_error {m : Steps σ α} {f : α → Steps σ β} {s s' : σ} {e : Err} (h : m.run s = (.error e, s')) : (m >>= f).run s = (.error e, s') := by
  show (Steps.bind m f).run s = _
  unfold Steps.bind
  dsimp only
  rw [h]

theorem onBank_eq {f : Bank → Except Err α × Bank} {b b' : Bank} {r : Except Err α} (h : f b = (r, b')) (new : List RLabel) :
    (onBank f).run (b, new) = (r, b', new) := by
  show ((f b).1, (f b).2, new) = _
  rw [h]

theorem whenever_true {m : Steps σ Unit} : Steps.whenever true m = m := rfl

theorem whenever_false {m : Steps σ Unit} : Steps.whenever false m = pure () := rfl

theorem Steps.run_pure' (a : α) (s : σ) : (pure a : Steps σ α).run s = (.ok a, s) := rfl

/-- What the call leaves, from what the registers' function leaves. -/
def leaves (new : List RLabel) : Except Err (List RLabel) × Bank → Except Err Unit × Adding
  | (.error e, b) => (.error e, b, new)
  | (.ok created, b) => (.ok (), b, new ++ created)

theorem addRegister_def (ev : EqEnv) (b : Bank) (pre : String) (n : Int) (label : Option RLabel) (fresh : Nat) {l : RLabel}
    (hl : l = label.getD (.str (pre ++ toString b.regs.length))) :
    b.addRegister ev pre n label fresh = if b.regs.contains l then (.error .valueError, b) else match b.size ev with
      | (.error e, b') => (.error e, b')
      | (.ok k, b') => (.ok ((List.range n.toNat).map fun (i : Nat) => RLabel.str (toString (k + i))),
          { regs := b'.regs.set l (Reg.new ev ((List.range n.toNat).map fun (i : Nat) => Lbl.obj (fresh + i))) }) := by
  subst hl
  cases label <;> rfl

theorem addRegister_steps (ev : EqEnv) (b : Bank) (pre : String) (n : Int) (label : Option RLabel) (fresh : Nat) (new : List RLabel) :
    (addRegisterSteps ev pre n label fresh).run (b, new) = leaves new (b.addRegister ev pre n label fresh) := by
  unfold addRegisterSteps
  obtain ⟨l, hl⟩ : ∃ l, l = label.getD (.str (pre ++ toString b.regs.length)) := ⟨_, rfl⟩
  refine (Steps.bind_ok (onBank_eq (r := .ok l) (b' := b) (by subst hl; cases label <;> rfl) new)).trans ?_
  rw [addRegister_def ev b pre n label fresh hl]
  dsimp only
  cases hc : b.regs.contains l with
  | true => 
    rw [Steps.bind_error (onBank_eq (by simp only [hc, if_true]; rfl) new)]
    rfl
  | false =>
    rw [Steps.bind_ok (onBank_eq (by simp only [hc, Bool.false_eq_true, if_false]; rfl) new)]
    simp only [Bool.false_eq_true, if_false]
    generalize hz : Bank.size ev b = z
    obtain ⟨_ | k, b'⟩ := z
    · rw [Steps.bind_error (onBank_eq hz new)]; rfl
    · rw [Steps.bind_ok (onBank_eq hz new)]; rfl

theorem addTo_store (ev : EqEnv) (b : Bank) (l : RLabel) (k : Nat) : b.store ev l k = match addTo ev l k b with
      | (.ok _, b') => (.ok (), { b' with cache := none })
      | (.error e, b') => (.error e, b') := by
  unfold addTo Bank.store
  cases b.regs.get? l with
  | none => rfl
  | some r =>
    dsimp only
    generalize r.add ev [.obj k] = z
    obtain ⟨_ | _, r'⟩ := z <;> rfl

theorem addRegister_empty {ev : EqEnv} {b : Bank} {pre : String} {fresh : Nat} {created : List RLabel} {b' : Bank} {label : Option RLabel}
    (h : b.addRegister ev pre 0 label fresh = (.ok created, b')) : created = [] := by
  obtain ⟨l, hl⟩ : ∃ l, l = label.getD (.str (pre ++ toString b.regs.length)) := ⟨_, rfl⟩
  rw [addRegister_def ev b pre 0 label fresh hl] at h
  cases hc : b.regs.contains l with
  | true => simp [hc] at h
  | false =>
    simp only [hc, Bool.false_eq_true, if_false] at h
    generalize Bank.size ev b = z at h
    obtain ⟨_ | k, b1⟩ := z
    · simp at h
    · simp at h; exact h.1

theorem chooseRegister_steps (ev : EqEnv) (b : Bank) (pre : String) (label : Option RLabel) (fresh : Nat) (new : List RLabel) :
    (chooseRegisterSteps ev pre label fresh).run (b, new) =
      ((b.chooseRegister ev pre label fresh).1, (b.chooseRegister ev pre label fresh).2, new) := by
  unfold chooseRegisterSteps Bank.chooseRegister
  cases label with
  | some l =>
    dsimp only
    refine (Steps.bind_ok (onBank_eq rfl new)).trans ?_
    cases hc : b.regs.contains l with
    | true => rfl
    | false =>
      have g := addRegister_steps ev b pre 0 (some l) fresh new
      simp only [Bool.not_false, Bool.false_eq_true, if_false]
      rw [whenever_true]
      cases h : b.addRegister ev pre 0 (some l) fresh with
      | mk r b' => cases r with
        | error e => rw [h] at g; rw [Steps.bind_error g]
        | ok created => rw [h, addRegister_empty h] at g; rw [Steps.bind_ok g]; simp [Steps.run_pure']
  | none =>
    dsimp only
    refine (Steps.bind_ok (onBank_eq rfl new)).trans ?_
    cases hk : b.regs.keys with
    | cons l ls =>
      rw [show Steps.whenever (l :: ls).isEmpty (addRegisterSteps ev pre 0 none fresh) = pure () from rfl, Steps.bind_ok (Steps.run_pure' _ _)]
      rw [onBank_eq (r := .ok l) (b' := b) (by rw [hk])]
    | nil =>
      have g := addRegister_steps ev b pre 0 none fresh new
      rw [show Steps.whenever ([] : List RLabel).isEmpty (addRegisterSteps ev pre 0 none fresh) = addRegisterSteps ev pre 0 none fresh from rfl]
      cases h : b.addRegister ev pre 0 none fresh with
      | mk r b' => cases r with
        | error e => rw [h] at g; rw [Steps.bind_error g]
        | ok created =>
          rw [h, addRegister_empty h] at g
          rw [Steps.bind_ok g]
          simp only [List.append_nil]
          cases hk : b'.regs.keys with
          | nil => rw [onBank_eq (r := .error .indexError) (b' := b') (by rw [hk])]
          | cons l _ => rw [onBank_eq (r := .ok l) (b' := b') (by rw [hk])]

theorem addItem_steps (ev : EqEnv) (b : Bank) (pre : String) (given : Option (Nat × Bool)) (label : Option RLabel) (fresh : Nat) (new : List RLabel) :
    (addItemSteps ev pre given label fresh).run (b, new) = leaves new (b.addItem ev pre given label fresh) := by
  unfold addItemSteps Bank.addItem
  have g := chooseRegister_steps ev b pre label fresh new
  generalize b.chooseRegister ev pre label fresh = z at g
  obtain ⟨_ | l, b1⟩ := z
  · rw [Steps.bind_error g]; rfl
  rw [Steps.bind_ok g]
  dsimp only
  generalize hz : b1.flat ev = z
  obtain ⟨_ | all, b2⟩ := z
  · rw [Steps.bind_error (onBank_eq hz new)]; rfl
  rw [Steps.bind_ok (onBank_eq hz new)]
  dsimp only
  cases hh : Bank.holds all (given.map Prod.fst) with
  | true => exact (Steps.bind_error (onBank_eq (r := .error .valueError) (b' := b2) rfl new)).trans rfl
  | false =>
    refine (Steps.bind_ok (onBank_eq (r := .ok ()) (b' := b2) rfl new)).trans ?_
    simp only [Bool.false_eq_true, if_false]
    have g2 : ((Steps.atom fun s => match addTo ev l fresh s.1 with
          | (.ok _, b) => (.ok (), b, s.2 ++ [.str (toString all.cy.stop)])
          | (.error e, b) => (.error e, b, s.2) : Steps Adding Unit) >>= fun _ => onBank fun b => (.ok (), { b with cache := none })).run (b2, new) =
        leaves new (match b2.store ev l fresh with
          | (.error e, b3) => (.error e, b3)
          | (.ok _, b3) => (.ok [.str (toString all.cy.stop)], b3)) := by
      rw [addTo_store]
      generalize hz : addTo ev l fresh b2 = z
      obtain ⟨_ | _, b3⟩ := z
      · rw [Steps.bind_error (by show _ = _; simp only [Steps.atom, hz]; rfl)]; rfl
      · rw [Steps.bind_ok (by show _ = _; simp only [Steps.atom, hz]; rfl)]; rfl
    cases given with
    | none => exact g2
    | some p =>
      obtain ⟨k, _ | _⟩ := p
      · exact g2
      · show (onBank (addTo ev l k) >>= fun _ => onBank fun b => (.ok (), { b with cache := none })).run (b2, new) = _
        dsimp only
        rw [addTo_store]
        generalize hz : addTo ev l k b2 = z
        obtain ⟨_ | _, b3⟩ := z
        · rw [Steps.bind_error (onBank_eq hz new)]; rfl
        · rw [Steps.bind_ok (onBank_eq hz new)]
          simp [leaves, onBank, Steps.atom]

end

theorem run_addQReg (c : Nat) (n : Int) (l : Option RLabel) : (addQRegSteps c n l : Steps (World K) Unit).run = addQReg c n l := by
  funext w
  unfold addQRegSteps onQ addQReg
  dsimp only
  cases w.circs[c]? with
  | none => rfl
  | some C =>
    dsimp only
    rw [addRegister_steps]
    generalize C.q.addRegister qubitEnv "qreg" n l w.qubits.length = z
    obtain ⟨_ | _, b⟩ := z <;> simp [World.setCirc, leaves]

theorem run_addCReg (c : Nat) (n : Int) (l : Option RLabel) : (addCRegSteps c n l : Steps (World K) Unit).run = addCReg c n l := by
  funext w
  unfold addCRegSteps onC addCReg
  dsimp only
  cases w.circs[c]? with
  | none => rfl
  | some C =>
    dsimp only
    rw [addRegister_steps]
    generalize C.c.addRegister w.bitEnv "creg" n l w.bits.length = z
    obtain ⟨_ | _, b⟩ := z <;> simp [World.setCirc, leaves]

theorem setCirc_self {w : World K} {c : Nat} {C : Circ} (h : w.circs[c]? = some C) : w.setCirc c C = w := by
  unfold World.setCirc
  obtain ⟨h1, h2⟩ := List.getElem?_eq_some_iff.1 h
  subst h2
  simp

theorem run_addQubit (c : Nat) (q : Given) (l : Option RLabel) : (addQubitSteps c q l : Steps (World K) Unit).run = addQubit c q l := by
  funext w
  unfold addQubitSteps onQ addQubit
  dsimp only
  cases hC : w.circs[c]? with
  | none => rfl
  | some C =>
    dsimp only
    cases q with
    | other => simp [Steps.atom, setCirc_self hC]
    | none =>
      dsimp only
      rw [addItem_steps]
      generalize C.q.addItem qubitEnv "qreg" none l w.qubits.length = z
      obtain ⟨_ | _, b⟩ := z <;> simp [World.setCirc, leaves]
    | item k =>
      dsimp only
      cases w.qubits[k]? with
      | none => simp [Steps.atom, setCirc_self hC]
      | some _ =>
        dsimp only
        rw [addItem_steps]
        generalize C.q.addItem qubitEnv "qreg" (some (k, true)) l w.qubits.length = z
        obtain ⟨_ | _, b⟩ := z <;> simp [World.setCirc, leaves]

theorem run_addBit (c : Nat) (q : Given) (l : Option RLabel) : (addBitSteps c q l : Steps (World K) Unit).run = addBit c q l := by
  funext w
  unfold addBitSteps onC addBit
  dsimp only
  cases hC : w.circs[c]? with
  | none => rfl
  | some C =>
    dsimp only
    cases q with
    | other => simp [Steps.atom, setCirc_self hC]
    | none =>
      dsimp only
      rw [addItem_steps]
      generalize C.c.addItem w.bitEnv "creg" none l w.bits.length = z
      obtain ⟨_ | _, b⟩ := z <;> simp [World.setCirc, leaves]
    | item k =>
      dsimp only
      cases w.bits[k]? with
      | none => simp [Steps.atom, setCirc_self hC]
      | some b0 =>
        dsimp only
        rw [addItem_steps]
        generalize C.c.addItem w.bitEnv "creg" (some (k, BitState.bool ⟨b0.value⟩)) l w.bits.length = z
        obtain ⟨_ | _, b⟩ := z <;> simp [World.setCirc, leaves]

/-- The calls in steps are the calls. -/
theorem run_evalAt [DecidableEq K] [Zero K] (d : Nat) (given : Option (List (List K))) (i o : Nat) :
    (evalAtSteps given i o).run = evalAt d given true i o := by
  refine run_bind rfl fun op => run_bind rfl fun k => ?_
  cases nthParams given i with
  | error e => rfl
  | ok ps =>
    dsimp only
    rw [run_whenever (m' := evalInPlace o ps) rfl]
    funext w
    unfold M.whenever
    cases k.kind.isParametric <;> simp

theorem run_evalOps [DecidableEq K] [Zero K] (d : Nat) (given : Option (List (List K))) : ∀ (l : List Nat) (i : Nat),
    (evalOpsSteps given i l).run = evalOps d given true i l
  | [], _ => rfl
  | o :: l, i => run_bind (run_evalAt d given i o) fun _ => run_evalOps d given l (i + 1)

theorem run_evalCirc [DecidableEq K] [Zero K] (c : Nat) (given : Option (List (List K))) (inplace : Bool) :
    (evalCircSteps c given inplace).run = evalCirc c given inplace := by
  cases inplace with
  | false => rfl
  | true => exact run_bind rfl fun C => run_bind rfl fun _ => run_bind rfl fun D => run_bind (run_evalOps c given _ _) fun _ => rfl

theorem execSteps_run [DecidableEq K] [Zero K] (e : Call K) : (execSteps e).run = execCall e := by
  cases e with
  | addQubit c q l => exact run_addQubit _ _ _
  | addBit c q l => exact run_addBit _ _ _
  | addQReg c q l => exact run_addQReg _ _ _
  | addCReg c q l => exact run_addCReg _ _ _
  | construct k p a => exact run_void (run_construct _ _ _)
  | reapply o a => exact run_void (run_reapply _ _)
  | setQubits o qs => exact run_bind rfl fun _ => run_bind rfl fun _ => rfl
  | evalInPlace o g => rfl
  | evalCirc c g i => exact run_void (run_evalCirc _ _ _)
  | append c o => exact run_append _ _
  | extend c os => exact run_each fun _ => run_append _ _
  | unlock c => exact run_unlock _
  | reset c k => exact run_reset _ _
  | call a q b => exact run_call _ _ _
  | callParam a p q b => exact run_callParam _ _ _ _
  | resetVariables a => exact run_resetVariables _
  | _ => rfl

end DG
