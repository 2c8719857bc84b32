import Verif.Props.Frame
import Verif.Proofs.FrameObjects

/-!
# C123 for operations, bits, variables and qubits

Which of these objects a call can change is listed in `Spec/Frame.lean`.  All others are the same afterwards, with all their attributes, whether the call raises or not.
-/

namespace DG.Props
open DG.Spec
variable {K : Type} [DecidableEq K] [Zero K]

/-- All objects that the call is not about. -/
theorem fixed_exec (w : World K) (e : Call K) :
    Fixed w (fun o => ¬ touchesOp w e o) (fun b => ¬ touchesBit w e b) (fun v => ¬ touchesVar w e v) (fun q => ¬ touchesQubit e q) (execCall e w).2 := by
  have h0 : ∀ {O B V Q : Nat → Prop}, Fixed w O B V Q w := ⟨fun _ _ _ h => h, fun _ _ _ h => h, fun _ _ _ h => h, fun _ _ _ h => h⟩
  have free : ∀ {O : Nat → Prop} {o : Nat}, ¬ O o → NotFixed w O o := fun h _ ho => absurd ho h
  cases e with
  | newQubit l => exact h0.grow (List.append_nil _).symm (List.append_nil _).symm (List.append_nil _).symm rfl
  | newBit l => exact h0.grow (List.append_nil _).symm rfl (List.append_nil _).symm (List.append_nil _).symm
  | newVar l => exact h0.grow (List.append_nil _).symm (List.append_nil _).symm rfl (List.append_nil _).symm
  | newClass l => exact h0.same rfl rfl rfl rfl
  | newCirc p n m =>
    refine pres_void (pres_bind (fun w h => h.same rfl rfl rfl rfl) fun c => pres_bind ?_ fun _ => pres_bind ?_ fun _ => pres_pure _) w h0
    · cases n with
      | none => exact pres_pure _
      | some n => exact fixed_addQReg _ _ _
    · cases m with
      | none => exact pres_pure _
      | some n => exact fixed_addCReg _ _ _
  | setQubitLabel q l =>
    refine ⟨fun _ _ _ hx => hx, fun _ _ _ hx => hx, fun _ _ _ hx => hx, fun i x hi hx => ?_⟩
    have hne : q ≠ i := by rintro rfl; exact hi rfl
    simp only [execCall, M.write]
    rw [List.getElem?_set_ne hne]
    exact hx
  | setBit b v f =>
    simp only [execCall, setBit]
    split
    · exact h0
    · refine ⟨fun _ _ _ hx => hx, fun i x hi hx => ?_, fun _ _ _ hx => hx, fun _ _ _ hx => hx⟩
      have hne : b ≠ i := by rintro rfl; exact hi rfl
      dsimp only
      rw [List.getElem?_set_ne hne]
      exact hx
  | resetBit b => exact fixed_resetItem (fun k hk => by cases hk; simp [touchesBit]) w h0
  | setVar v x => exact fixed_setVar (by simp [touchesVar]) x w h0
  | resetVar v => exact fixed_resetVar (by simp [touchesVar]) w h0
  | addQubit c q l => exact fixed_addQubit c q l w h0
  | addBit c q l => exact fixed_addBit c q l w h0
  | addQReg c n l => exact fixed_addQReg c n l w h0
  | addCReg c n l => exact fixed_addCReg c n l w h0
  | readQubits c => exact pres_void (fixed_qubitsOf c) w h0
  | readBits c => exact pres_void (fixed_bitsOf c) w h0
  | getParam c i => exact pres_void (fixed_getParam c i) w h0
  | construct k p a => exact pres_void (fixed_construct k p a).pres w h0
  | reapply o a => exact pres_void (fixed_reapply o a) w h0
  | setQubits o qs =>
    exact pres_bind (pres_deref _) (fun _ => pres_bind (fixed_checkArity _ _) fun _ => fixed_modOp (free (by simp [touchesOp])) _) w h0
  | conditional o bs => exact pres_bind (pres_deref _) (fun _ => fixed_modOp (free (by simp [touchesOp])) _) w h0
  | measureInto o bs => exact fixed_measureInto (free (by simp [touchesOp])) bs w h0
  | evalInPlace o g => exact fixed_evalInPlace (free (by simp [touchesOp])) g w h0
  | append c o => exact fixed_appendOp c (free (by simp [touchesOp])) w h0
  | extend c os => exact fixed_extend c os (fun o ho => free (by simp [touchesOp, ho])) w h0
  | remove c o =>
    simp only [execCall, removeOp]
    split
    · split
      · exact h0
      · exact h0.same rfl rfl rfl rfl
    · exact h0
  | lock c => exact fixed_modCirc _ _ w h0
  | unlock c => exact fixed_modCirc _ _ w h0
  | reset c k =>
    cases k with
    | false => exact pres_bind (pres_deref _) (fun _ => pres_bind (fixed_modCirc _ _) fun _ => pres_bind (fixed_modCirc _ _) fun _ => fixed_modCirc _ _) w h0
    | true =>
      simp only [execCall, resetCirc]
      rw [bind_def]
      simp only [circ, M.deref]
      cases hC : w.circs[c]? with
      | none => exact h0
      | some C =>
        dsimp only
        have hlt := (List.getElem?_eq_some_iff.1 hC).1
        have hm : modCirc c (fun C => { C with ops := [], ctx := none }) w = (.ok (), w.setCirc c { C with ops := [], ctx := none }) := by
          simp only [modCirc, M.write, hC]
        have hg : (w.setCirc c { C with ops := [], ctx := none }).circs[c]? = some { C with ops := [], ctx := none } := List.getElem?_set_self hlt
        rw [bind_def, hm]
        dsimp only
        have hb : (bitsOf c (w.setCirc c { C with ops := [], ctx := none })).1 = (bitsOf c w).1 := by
          simp only [bitsOf, hC, hg]
          rfl
        have h1 : Fixed w (fun o => ¬ touchesOp w (.reset c true) o) (fun b => ¬ touchesBit w (.reset c true) b) (fun v => ¬ touchesVar w (.reset c true) v)
            (fun q => ¬ touchesQubit (.reset c true : Call K) q) (w.setCirc c { C with ops := [], ctx := none }) := h0.same rfl rfl rfl rfl
        generalize w.setCirc c { C with ops := [], ctx := none } = w1 at hb h1
        rw [bind_def]
        have h2 : Fixed w (fun o => ¬ touchesOp w (.reset c true) o) (fun b => ¬ touchesBit w (.reset c true) b) (fun v => ¬ touchesVar w (.reset c true) v)
            (fun q => ¬ touchesQubit (.reset c true : Call K) q) (resetRegisters c true w1).2 := by
          show Fixed _ _ _ _ _ (resetBits c w1).2
          have h3 := fixed_bitsOf c w1 h1
          unfold resetBits
          rw [bind_def]
          rcases hr : bitsOf c w1 with ⟨e | r, w2⟩
          · rw [hr] at h3
            exact h3
          · rw [hr] at h3 hb
            dsimp only
            cases hi : r.cy.iter with
            | error e => exact h3
            | ok items =>
              refine fixed_resetItems items (fun k hk => ?_) w2 h3
              exact fun h => h ⟨r, items, hb.symm, hi, hk⟩
        rcases hr : resetRegisters c true w1 with ⟨e | u, w2⟩
        · rw [hr] at h2
          exact h2
        · rw [hr] at h2
          exact fixed_modCirc _ _ w2 h2
  | call a q b => exact fixed_callCirc a q b w h0
  | callParam a p q b =>
    simp only [execCall, callParam]
    rw [bind_def]
    simp only [circ, M.deref]
    cases hC : w.circs[a]? with
    | none => exact h0
    | some C =>
      refine pres_bind (pres_raiseIf _ _) (fun _ => pres_bind (pres_read _) fun act => pres_bind (pres_whenever (fixed_setVars _ _ ?_)) fun _ =>
        pres_bind (fun w h => h.same rfl rfl rfl rfl) fun _ => fixed_callCirc a q b) w h0
      intro v hv
      simp [touchesVar, varsOf, hC, hv]
  | resetVariables a =>
    simp only [execCall, resetVariables]
    rw [bind_def]
    simp only [circ, M.deref]
    cases hC : w.circs[a]? with
    | none => exact h0
    | some C =>
      refine fixed_resetVars _ ?_ w h0
      intro v hv
      simp [touchesVar, varsOf, hC, hv]
  | evalCirc c g i =>
    show Fixed _ _ _ _ _ ((evalCirc c g i).void w).2
    rw [void_snd]
    cases i with
    | false =>
      exact pres_bind (pres_deref _) (fun _ => pres_bind (pres_raiseIf _ _) fun _ => pres_bind (fixed_deepCopy c) fun d => pres_bind (pres_deref _) fun (D : Circ) =>
        pres_bind (fixed_evalOps d false g D.ops 0 (by simp)) fun _ => pres_pure _) w h0
    | true =>
      simp only [evalCirc, evalTarget]
      rw [bind_def]
      simp only [circ, M.deref]
      cases hC : w.circs[c]? with
      | none => exact h0
      | some C =>
        dsimp only
        cases hp : C.param with
        | false => exact h0
        | true =>
          have key := pres_bind (fixed_evalOps (w0 := w) (O := fun o => ¬ touchesOp w (.evalCirc c g true) o) (B := fun b => ¬ touchesBit w (.evalCirc c g true) b)
            (V := fun v => ¬ touchesVar w (.evalCirc c g true) v) (Q := fun q => ¬ touchesQubit (.evalCirc c g true) q) c true g C.ops 0
            (fun _ o ho => free (by simp [touchesOp, hC, ho]))) (fun _ => pres_pure c) w h0
          simp only [bind_def, M.raiseIf, Bool.not_true, Bool.false_eq_true, if_false]
          have hpc : (pure c : M K Nat) w = (.ok c, w) := rfl
          have hd : M.deref (fun w : World K => w.circs[c]?) w = (.ok C, w) := by simp only [M.deref, hC]
          simp only [bind_def] at key
          rw [hpc]
          dsimp only
          rw [hd]
          exact key

/-- **C123, operations.** -/
theorem C123_operations (w : World K) (e : Call K) {o : Nat} {op : OpObj K} (ho : w.ops[o]? = some op) (h : ¬ touchesOp w e o) :
    (execCall e w).2.ops[o]? = some op := (fixed_exec w e).ops o op h ho

/-- **C123, bits.** -/
theorem C123_bits (w : World K) (e : Call K) {b : Nat} {x : BitObj} (hb : w.bits[b]? = some x) (h : ¬ touchesBit w e b) :
    (execCall e w).2.bits[b]? = some x := (fixed_exec w e).bits b x h hb

/-- **C123, variables.** -/
theorem C123_variables (w : World K) (e : Call K) {v : Nat} {x : VarObj K} (hv : w.vars[v]? = some x) (h : ¬ touchesVar w e v) :
    (execCall e w).2.vars[v]? = some x := (fixed_exec w e).vars v x h hv

/-- **C123, qubits.** -/
theorem C123_qubits (w : World K) (e : Call K) {q : Nat} {l : RLabel} (hq : w.qubits[q]? = some l) (h : ¬ touchesQubit e q) :
    (execCall e w).2.qubits[q]? = some l := (fixed_exec w e).qubits q l h hq

/-- Not vacuous: in the state of `frameDemo`, with an operation, a bit and two variables; calls that change one of them and not the other. -/
example : let w := (execCall (.newVar "b") (execCall (.newVar "a") (execCall (.construct 0 none (.qubits (some [2]))) frameDemo).2).2).2
    ¬ touchesOp w (.construct 0 none (.qubits (some [3]))) 0 ∧ ¬ touchesVar w (.setVar 0 5) 1 ∧ ¬ touchesBit w (.append 1 0) 0 ∧
    ((execCall (.setVar 0 5) w).2.vars.map (·.value)) = [some 5, none] ∧ ((execCall (.construct 0 none (.qubits (some [3]))) w).2.ops.map (·.qubits)) = [some [2], some [3]] := by
  refine ⟨fun h => h, by simp [touchesVar], fun h => h, by decide +kernel, by decide +kernel⟩

/-- Not vacuous: two circuits with a bit each that has a value; `reset` of circuit 0 removes the value of its own bit only. -/
example : let w := (execCall (.setBit 1 true false) (execCall (.setBit 0 true false) (execCall (.readBits 0) (execCall (.addCReg 1 1 none) frameDemo).2).2).2).2
    (w.bits.map (·.value)) = [some 1, some 1] ∧ ((execCall (.reset 0 true) w).2.bits.map (·.value)) = [none, some 1] := by decide +kernel

end DG.Props
