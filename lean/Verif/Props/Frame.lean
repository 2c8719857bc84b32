import Verif.Proofs.Frame
import Verif.Model.Program

/-!
# C123 — calls change only the objects that they are about

A user who works with several circuits relies on each of them staying as it is while another one is built: a method of a circuit changes that circuit, the creation of an operation (also
by calling a template) changes the circuit of the active context, and nothing else changes any circuit.  In particular a template is not changed by applying it, and evaluating a
parametric circuit into a copy does not change the original.  The small setters change exactly one attribute of one object.
-/

namespace DG.Props
open DG.Spec
variable {K : Type} [DecidableEq K] [Zero K]

omit [DecidableEq K] [Zero K] in
theorem void_snd {α : Type} (m : M K α) (w : World K) : (m.void w).2 = (m w).2 := by
  unfold M.void
  split <;> rename_i h <;> rw [h]

/-- In every state, a call leaves every circuit but the one of `mayChange` as the user sees it, whether the call raises or not. -/
theorem C123_frame (w : World K) (e : Call K) {d : Nat} {C : Circ} (hC : w.circs[d]? = some C) (he : mayChange w e ≠ some d) :
    ((execCall e w).2.circs[d]?).map sees = some (sees C) := by
  have h0 : Keep d (sees C) w.active w.ctxs w := ⟨by rw [hC]; rfl, rfl, rfl⟩
  have hd : d < w.circs.length := (List.getElem?_eq_some_iff.1 hC).1
  suffices h : ∀ A X, w.active = A → w.ctxs = X → ∃ A' X', Keep d (sees C) A' X' (execCall e w).2 by
    obtain ⟨_, _, h⟩ := h _ _ rfl rfl
    exact h.1
  intro A X hA hX
  have go : Pres (Keep (K := K) d (sees C) A X) (execCall e) → ∃ A' X', Keep d (sees C) A' X' (execCall e w).2 := fun h => ⟨A, X, h w (hA ▸ hX ▸ h0)⟩
  have ht : w.target ≠ some d → NotTarget d A X := fun h => hA ▸ hX ▸ notTarget h
  have ne : ∀ {c : Nat}, some c ≠ some d → c ≠ d := fun h e => h (e ▸ rfl)
  cases e with
  | newQubit l => exact go fun w h => h.same rfl rfl rfl
  | newBit l => exact go fun w h => h.same rfl rfl rfl
  | newVar l => exact go fun w h => h.same rfl rfl rfl
  | newClass l => exact go fun w h => h.same rfl rfl rfl
  | newCirc p n m =>
    have h1 : Keep d (sees C) w.active w.ctxs (allocCirc (K := K) p w).2 := by
      refine ⟨?_, rfl, rfl⟩
      simp only [allocCirc]
      rw [List.getElem?_append_left hd]
      exact h0.1
    have hne : w.circs.length ≠ d := by omega
    have key : Pres (Keep (K := K) d (sees C) w.active w.ctxs) (do
        ifGiven n fun n => addQReg w.circs.length n none
        ifGiven m fun n => addCReg w.circs.length n none
        pure w.circs.length : M K Nat) := by
      refine pres_bind ?_ fun _ => pres_bind ?_ fun _ => pres_pure _
      · cases n with
        | none => exact pres_pure _
        | some n => exact keep_addQReg hne _ _
      · cases m with
        | none => exact pres_pure _
        | some n => exact keep_addCReg hne _ _
    refine ⟨w.active, w.ctxs, ?_⟩
    have hv := key _ h1
    rw [← void_snd] at hv
    exact hv
  | setQubitLabel q l => exact go fun w h => h.same rfl rfl rfl
  | setBit b v f =>
    refine go fun w h => ?_
    simp only [execCall, setBit]
    split
    · exact h
    · exact h.same rfl rfl rfl
  | resetBit b => exact go (keep_resetItem _)
  | setVar v x => exact go (keep_setVar _ _)
  | resetVar v => exact go (keep_resetVar _)
  | addQubit c q l => exact go (keep_addQubit (ne he) _ _)
  | addBit c q l => exact go (keep_addBit (ne he) _ _)
  | addQReg c n l => exact go (keep_addQReg (ne he) _ _)
  | addCReg c n l => exact go (keep_addCReg (ne he) _ _)
  | readQubits c => exact go (pres_void (keep_qubitsOf c))
  | readBits c => exact go (pres_void (keep_bitsOf c))
  | getParam c i => exact go (pres_void (keep_getParam (ne he) i))
  | construct k p a => exact go (pres_void (keep_construct (ht he) k p a))
  | reapply o a => exact go (pres_void (keep_reapply (ht he) o a))
  | setQubits o qs => exact go (pres_bind (pres_deref _) fun _ => pres_bind (keep_checkArity _ _) fun _ => keep_modOp _ _)
  | conditional o bs => exact go (pres_bind (pres_deref _) fun _ => keep_modOp _ _)
  | measureInto o bs => exact go (keep_measureInto o bs)
  | evalInPlace o g => exact go (keep_evalInPlace o g)
  | append c o => exact go (keep_appendOp (ne he) o)
  | extend c os => exact go (pres_each fun o => keep_appendOp (ne he) o)
  | remove c o =>
    refine go fun w h => ?_
    simp only [execCall, removeOp]
    split
    · split
      · exact h
      · exact h.setOther (ne he) _
    · exact h
  | lock c => exact go (keep_modCirc (ne he) _)
  | unlock c => exact go (keep_modCirc (ne he) _)
  | reset c k =>
    refine go (pres_bind (pres_deref _) fun _ => pres_bind (keep_modCirc (ne he) _) fun _ => pres_bind ?_ fun _ => keep_modCirc (ne he) _)
    cases k with
    | false => exact keep_modCirc (ne he) _
    | true =>
      refine pres_bind (keep_bitsOf c) fun r => ?_
      split
      · exact pres_raise _
      · exact pres_each fun x => keep_resetItem x
  | call a q b => exact go (keep_callCirc (ht he) a q b)
  | callParam a p q b =>
    refine go (pres_bind (pres_deref _) fun T => pres_bind (pres_raiseIf _ _) fun _ => pres_bind (pres_read _) fun act => pres_bind (pres_whenever (keep_setVars _ _)) fun _ =>
      pres_bind (fun w h => h.same rfl rfl rfl) fun _ => keep_callCirc (ht he) a q b)
  | resetVariables a => exact go (pres_bind (pres_deref _) fun T => pres_each fun v => keep_resetVar v)
  | evalCirc c g i =>
    have key : ∃ A' X', Keep d (sees C) A' X' (evalCirc c g i w).2 := by
      simp only [evalCirc, bind_def, circ, M.deref, M.raiseIf]
      cases hc : w.circs[c]? with
      | none => exact ⟨_, _, h0⟩
      | some T =>
        dsimp only
        cases hp : T.param with
        | false => exact ⟨_, _, h0⟩
        | true =>
          dsimp only [evalTarget]
          cases i with
          | true =>
            refine ⟨w.active, w.ctxs, ?_⟩
            refine (pres_bind (pres_deref _) fun D => pres_bind (keep_evalOps (inplace := true) (by simp) g D.ops 0) fun _ => pres_pure c : Pres (Keep (K := K) d (sees C) w.active w.ctxs) (do
              let D ← circ c
              evalOps c g true 0 D.ops
              pure c)) w h0
          | false =>
            have hne : w.circs.length ≠ d := by omega
            have h1 : Keep d (sees C) (deepCopy c w).2.active (deepCopy c w).2.ctxs (deepCopy c w).2 := by
              refine ⟨?_, rfl, rfl⟩
              simp only [deepCopy, hc]
              rw [List.getElem?_append_left hd]
              exact h0.1
            refine ⟨(deepCopy c w).2.active, (deepCopy c w).2.ctxs, ?_⟩
            have h2 := (pres_bind (pres_deref _) fun D => pres_bind (keep_evalOps (fun _ => hne) g D.ops 0) fun _ => pres_pure w.circs.length :
              Pres (Keep (K := K) d (sees C) (deepCopy c w).2.active (deepCopy c w).2.ctxs) (do
                let D ← circ w.circs.length
                evalOps w.circs.length g false 0 D.ops
                pure w.circs.length)) _ h1
            have h3 : deepCopy c w = (.ok w.circs.length, (deepCopy c w).2) := by
              simp only [deepCopy, hc]
            generalize (deepCopy c w).2 = w1 at h2 h3 ⊢
            simp only [Bool.not_true, Bool.false_eq_true, if_false]
            erw [h3]
            exact h2
    obtain ⟨A', X', key⟩ := key
    refine ⟨A', X', ?_⟩
    rw [← void_snd] at key
    exact key

/-- Applying a template, to a circuit other than itself, does not change the template. -/
theorem C123_template (w : World K) (a : Nat) (qs : List Nat) (bs : Option (List Nat)) {C : Circ} (hC : w.circs[a]? = some C) (ht : w.target ≠ some a) :
    ((execCall (.call a qs bs) w).2.circs[a]?).map sees = some (sees C) := C123_frame w _ hC ht

/-- Evaluating a parametric circuit does not change what any circuit looks like: in place only the values of the parameters of its operations change, and a copy is a new circuit. -/
theorem C123_eval (w : World K) (c : Nat) (g : Option (List (List K))) (i : Bool) {d : Nat} {C : Circ} (hC : w.circs[d]? = some C) :
    ((execCall (.evalCirc c g i) w).2.circs[d]?).map sees = some (sees C) := C123_frame w _ hC (by simp [mayChange])

/-- `op.conditional(bits)` sets the condition of that operation, and does nothing else. -/
theorem C123_conditional (w : World K) (o : Nat) (bs : List Nat) {op : OpObj K} (ho : w.ops[o]? = some op) :
    (execCall (.conditional o bs) w).1 = .ok () ∧ (execCall (.conditional o bs) w).2.ops[o]? = some { op with cond := some bs } ∧
      OnlyOp w (execCall (.conditional o bs) w).2 o ∧ (execCall (.conditional o bs) w).2.classes = w.classes := by
  have hlt := (List.getElem?_eq_some_iff.1 ho).1
  have key : execCall (.conditional o bs) w = (.ok (), w.setOp o { op with cond := some bs }) := by
    simp only [execCall, conditional, bind_def, opObj, M.deref, ho, modOp, M.write]
  rw [key]
  refine ⟨rfl, List.getElem?_set_self hlt, ⟨rfl, rfl, rfl, rfl, rfl, rfl, rfl, List.length_set, fun i hi => List.getElem?_set_ne (Ne.symm hi)⟩, rfl⟩

/-- `circuit.lock()` locks that circuit, and does nothing else. -/
theorem C123_lock (w : World K) (c : Nat) {C : Circ} (hC : w.circs[c]? = some C) :
    (execCall (.lock c) w).1 = .ok () ∧ (execCall (.lock c) w).2.circs[c]? = some { C with locked := true } ∧ OnlyCirc w (execCall (.lock c) w).2 c := by
  have hlt := (List.getElem?_eq_some_iff.1 hC).1
  have key : execCall (.lock c) w = (.ok (), w.setCirc c { C with locked := true }) := by
    simp only [execCall, lockCirc, modCirc, M.write, hC]
  rw [key]
  exact ⟨rfl, List.getElem?_set_self hlt, rfl, rfl, rfl, rfl, rfl, rfl, rfl, rfl, List.length_set, fun i hi => List.getElem?_set_ne (Ne.symm hi)⟩

/-- `circuit.unlock()` unlocks that circuit, makes the parameter register of a parametric circuit growable again, and does nothing else. -/
theorem C123_unlock (w : World K) (c : Nat) {C : Circ} (hC : w.circs[c]? = some C) :
    (execCall (.unlock c) w).1 = .ok () ∧
      (execCall (.unlock c) w).2.circs[c]? = some { C with locked := false, varsFrozen := if C.param then false else C.varsFrozen } ∧
      OnlyCirc w (execCall (.unlock c) w).2 c := by
  have hlt := (List.getElem?_eq_some_iff.1 hC).1
  have key : execCall (.unlock c) w = (.ok (), w.setCirc c { C with locked := false, varsFrozen := if C.param then false else C.varsFrozen }) := by
    simp only [execCall, unlockCirc, modCirc, M.write, hC]
    cases C.param <;> rfl
  rw [key]
  exact ⟨rfl, List.getElem?_set_self hlt, rfl, rfl, rfl, rfl, rfl, rfl, rfl, rfl, List.length_set, fun i hi => List.getElem?_set_ne (Ne.symm hi)⟩

/-- `variable.set(x)` and `variable.reset()` change the value of that variable, whatever it was, and do nothing else. -/
theorem C123_variable (w : World K) (v : Nat) (x : K) {V : VarObj K} (hV : w.vars[v]? = some V) :
    ((execCall (.setVar v x) w).1 = .ok () ∧ (execCall (.setVar v x) w).2.vars[v]? = some { V with value := some x } ∧ OnlyVar w (execCall (.setVar v x) w).2 v) ∧
    ((execCall (.resetVar v) w).1 = .ok () ∧ (execCall (.resetVar v) w).2.vars[v]? = some { V with value := none } ∧ OnlyVar w (execCall (.resetVar v) w).2 v) := by
  have hlt := (List.getElem?_eq_some_iff.1 hV).1
  have k1 : execCall (.setVar v x) w = (.ok (), { w with vars := w.vars.set v { V with value := some x } }) := by
    simp only [execCall, setVar, M.write, hV]
  have k2 : execCall (.resetVar v) w = (.ok (), { w with vars := w.vars.set v { V with value := none } }) := by
    simp only [execCall, resetVar, M.write, hV]
  rw [k1, k2]
  exact ⟨⟨rfl, List.getElem?_set_self hlt, rfl, rfl, rfl, rfl, rfl, rfl, rfl, rfl, List.length_set, fun i hi => List.getElem?_set_ne (Ne.symm hi)⟩,
    ⟨rfl, List.getElem?_set_self hlt, rfl, rfl, rfl, rfl, rfl, rfl, rfl, rfl, List.length_set, fun i hi => List.getElem?_set_ne (Ne.symm hi)⟩⟩

/-- `bit.set(v, force)`: a bit with a value refuses a new one unless forced, and then nothing changes; otherwise it has the value 0 or 1.  `bit.reset()` removes the value.  Neither does
anything else. -/
theorem C123_bit (w : World K) (b : Nat) (v force : Bool) {B : BitObj} (hB : w.bits[b]? = some B) :
    (B.value ≠ none → force = false → (execCall (.setBit b v force) w).1 = .error .valueError ∧ (execCall (.setBit b v force) w).2.bits[b]? = some B) ∧
    (B.value = none ∨ force = true → (execCall (.setBit b v force) w).1 = .ok () ∧ (execCall (.setBit b v force) w).2.bits[b]? = some { B with value := some (if v then 1 else 0) }) ∧
    OnlyBit w (execCall (.setBit b v force) w).2 b ∧
    (execCall (.resetBit b) w).1 = .ok () ∧ (execCall (.resetBit b) w).2.bits[b]? = some { B with value := none } ∧ OnlyBit w (execCall (.resetBit b) w).2 b := by
  have hlt := (List.getElem?_eq_some_iff.1 hB).1
  have k2 : execCall (.resetBit b) w = (.ok (), { w with bits := w.bits.set b { B with value := none } }) := by
    simp only [execCall, resetItem, M.write, hB]
  rw [k2]
  refine ⟨fun h1 h2 => ?_, fun h => ?_, ?_, rfl, List.getElem?_set_self hlt, rfl, rfl, rfl, rfl, rfl, rfl, rfl, rfl, List.length_set, fun i hi => List.getElem?_set_ne (Ne.symm hi)⟩
  · subst h2
    obtain ⟨x, hx⟩ := Option.ne_none_iff_exists'.1 h1
    simp only [execCall, setBit, hB, BitState.set, hx]
    refine ⟨rfl, ?_⟩
    simp only [Option.isSome_some, Bool.not_false, Bool.and_self, if_true]
    rw [List.getElem?_set_self hlt, ← hx]
  · have hg : (B.value.isSome && !force) = false := by
      rcases h with h | h <;> simp [h]
    simp only [execCall, setBit, hB, BitState.set, hg]
    exact ⟨rfl, List.getElem?_set_self hlt⟩
  · simp only [execCall, setBit, hB]
    exact ⟨rfl, rfl, rfl, rfl, rfl, rfl, rfl, rfl, List.length_set, fun i hi => List.getElem?_set_ne (Ne.symm hi)⟩

/-- `measurement | bits`: the measurement gets as many of the given bits as it has qubits, the first ones; nothing else changes, and if bits are missing or the operation is no measurement
nothing changes at all. -/
theorem C123_measure (w : World K) (o : Nat) (bs : List Nat) {op : OpObj K} (ho : w.ops[o]? = some op) {k : OpCls} (hk : w.classes[op.cls]? = some k) :
    (∀ n, k.kind = .measurement → op.numQubits = some n → n ≤ bs.length →
      (execCall (.measureInto o bs) w).1 = .ok () ∧ (execCall (.measureInto o bs) w).2.ops[o]? = some { op with bits := some (bs.take n) }) ∧
    (∀ n, k.kind = .measurement → op.numQubits = some n → bs.length < n → execCall (.measureInto o bs) w = (.error .valueError, w)) ∧
    (k.kind ≠ .measurement ∨ op.numQubits = none → execCall (.measureInto o bs) w = (.error .typeError, w)) ∧
    OnlyOp w (execCall (.measureInto o bs) w).2 o ∧ (execCall (.measureInto o bs) w).2.classes = w.classes := by
  have hlt := (List.getElem?_eq_some_iff.1 ho).1
  have k1 : ∀ n, k.kind = .measurement → op.numQubits = some n → n ≤ bs.length → execCall (.measureInto o bs) w = (.ok (), w.setOp o { op with bits := some (bs.take n) }) := by
    intro n h1 h2 h3
    have h4 : ¬ bs.length < n := by omega
    simp only [execCall, measureInto, bind_def, opObj, clsObj, M.deref, ho, hk, h1, h2, M.raiseIf, h4, decide_false, modOp, M.write]
    simp [ho, h2]
  have k2 : ∀ n, k.kind = .measurement → op.numQubits = some n → bs.length < n → execCall (.measureInto o bs) w = (.error .valueError, w) := by
    intro n h1 h2 h3
    simp only [execCall, measureInto, bind_def, opObj, clsObj, M.deref, ho, hk, h1, h2, M.raiseIf, h3, decide_true]
    simp
  have k3 : k.kind ≠ .measurement ∨ op.numQubits = none → execCall (.measureInto o bs) w = (.error .typeError, w) := by
    intro h
    simp only [execCall, measureInto, bind_def, opObj, clsObj, M.deref, ho, hk]
    rcases h with h | h
    · cases hk' : k.kind <;> first | rfl | exact absurd hk' h
    · rw [h]
      cases k.kind <;> rfl
  refine ⟨fun n h1 h2 h3 => by rw [k1 n h1 h2 h3]; exact ⟨rfl, List.getElem?_set_self hlt⟩, k2, k3, ?_⟩
  have self : OnlyOp w w o := ⟨rfl, rfl, rfl, rfl, rfl, rfl, rfl, rfl, fun _ _ => rfl⟩
  by_cases hm : k.kind = .measurement
  · cases hn : op.numQubits with
    | none => rw [k3 (.inr hn)]; exact ⟨self, rfl⟩
    | some n =>
      by_cases hl : bs.length < n
      · rw [k2 n hm hn hl]; exact ⟨self, rfl⟩
      · rw [k1 n hm hn (by omega)]
        exact ⟨⟨rfl, rfl, rfl, rfl, rfl, rfl, rfl, List.length_set, fun i hi => List.getElem?_set_ne (Ne.symm hi)⟩, rfl⟩
  · rw [k3 (.inl hm)]; exact ⟨self, rfl⟩

/-- `op.qubits = [...]`: if it succeeds, the operation has these qubits; whether or not it does, no other object changes (the class may remember its number of qubits). -/
theorem C123_set_qubits (w : World K) (o : Nat) (qs : List Nat) {op : OpObj K} (ho : w.ops[o]? = some op) :
    ((execCall (.setQubits o qs) w).1 = .ok () → (execCall (.setQubits o qs) w).2.ops[o]? = some { op with qubits := some qs }) ∧
    ((execCall (.setQubits o qs) w).1 ≠ .ok () → (execCall (.setQubits o qs) w).2.ops = w.ops) ∧
    OnlyOp w (execCall (.setQubits o qs) w).2 o := by
  have hlt := (List.getElem?_eq_some_iff.1 ho).1
  obtain ⟨r, cl, hc⟩ : ∃ r cl, checkArity op.cls qs.length w = (r, { w with classes := cl }) := by
    unfold checkArity
    split
    · exact ⟨_, w.classes, rfl⟩
    · exact ⟨_, _, rfl⟩
  cases r with
  | error e =>
    have key : execCall (.setQubits o qs) w = (.error e, { w with classes := cl }) := by
      simp only [execCall, setQubits, bind_def, opObj, M.deref, ho, hc]
    rw [key]
    exact ⟨fun h => (nomatch h), fun _ => rfl, rfl, rfl, rfl, rfl, rfl, rfl, rfl, rfl, fun _ _ => rfl⟩
  | ok u =>
    have key : execCall (.setQubits o qs) w = (.ok (), World.setOp { w with classes := cl } o { op with qubits := some qs }) := by
      simp only [execCall, setQubits, bind_def, opObj, M.deref, ho, hc, modOp, M.write]
    rw [key]
    exact ⟨fun _ => List.getElem?_set_self hlt, fun h => absurd rfl h, rfl, rfl, rfl, rfl, rfl, rfl, rfl, List.length_set, fun i hi => List.getElem?_set_ne (Ne.symm hi)⟩

/-! ### A concrete case: two circuits, one of them active -/

/-- Circuits 0 and 1 of two qubits each; circuit 1 is the circuit of the active context. -/
def frameDemo : World Int :=
  let w := (execCall (.newCirc false (some 2) none) (execCall (.newCirc true (some 2) (some 1))
    (execCall (.newClass ⟨"X", .plain, ⟨false, some 1, none, none⟩, none⟩) ({} : World Int)).2).2).2
  { w with ctxs := [{ circuit := 1 }], active := some 0 }

/-- Not vacuous: creating an operation changes circuit 1, as allowed, and not circuit 0; locking circuit 0 changes it and not circuit 1. -/
example : mayChange frameDemo (.construct 0 none (.qubits (some [2]))) = some 1 ∧
    ((execCall (.construct 0 none (.qubits (some [2]))) frameDemo).2.circs.map (·.ops)) = [[], [0]] ∧
    ((execCall (.lock 0) frameDemo).2.circs.map (·.locked)) = [true, false] ∧ mayChange frameDemo (.call 0 [2, 3] none) ≠ some 0 := by decide +kernel

/-- Not vacuous: the objects of the theorems above exist. -/
example : (∃ C, frameDemo.circs[0]? = some C ∧ C.param = true) ∧ (∃ B, frameDemo.bits[0]? = some B ∧ B.value = none) ∧
    (∃ op, (execCall (.construct 0 none (.qubits (some [2]))) frameDemo).2.ops[0]? = some op) ∧ (∃ V, (execCall (.newVar "a") frameDemo).2.vars[0]? = some V) :=
  ⟨⟨_, rfl, rfl⟩, ⟨_, rfl, rfl⟩, ⟨_, rfl⟩, ⟨_, rfl⟩⟩

end DG.Props
