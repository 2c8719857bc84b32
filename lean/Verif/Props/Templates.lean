import Verif.Proofs.CallParam
import Verif.Proofs.Remove
import Verif.Proofs.CircuitRegs

/-!
# Properties C28-C33: calls of circuits, parameters, changes of circuits

`Appended w w' B new`: what happened between the states `w` and `w'` is that the operations `new` were appended to circuit `B`.
`CopyOf`: an operation with exchanged qubits and bits. Both are defined in `Spec/Program.lean`.
-/

namespace DG.Props
open Spec
variable {K : Type} [DecidableEq K] [Zero K]

/-! ## C28 -/

/-- C28 for calls that succeed and operations without conditions: in any reachable state, calling circuit `a` where new operations go to circuit
`B` appends to `B`, in order, one copy of each operation of `a`, and changes nothing else. The qubits of the copies are the given qubits at the
position of the original ones in `a.qubits` (and similarly for bits). Missing: conditions are not copied, see below. -/
theorem C28_call_partial {P : Call K → Prop} {w w' : World K} (hw : Reach P w) {a B : Nat} {qs : List Nat} {bits : Option (List Nat)}
    (ht : w.target = some B) (h : callCirc a qs bits w = (.ok (), w')) :
    ∃ D items R new, w.circs[B]? = some D ∧ B ≠ a ∧ seen (qubitsOf a w).1 = .ok items ∧ items.length = qs.length ∧ items.Nodup ∧
      BitsGiven w a bits R ∧ Appended w w' B new ∧
      List.Forall₂ (fun o op' => ∃ op C, w.ops[o]? = some op ∧ w.classes[op.cls]? = some C ∧
        CopyOf w C (D.parametric = false) (SamePlace items qs) R op op') (opsOf w a) new := by
  obtain ⟨A, D, items, R, new, h1, h2, h3, h4, h5, h6, h7, h8⟩ := callCirc_ok (Refs.reach hw) (OpsInv.reach hw) h ht
  obtain ⟨r, its, g1, g2⟩ := reach_rep hw h1
  rw [g1] at h4 h5
  have e : items = its := by
    have := h4.symm.trans g2.iter_eq
    cases this
    rfl
  subst e
  refine ⟨D, items, R, new, h2, h3, by rw [g1]; exact h4, ?_, g2.nodup, h6, h7, ?_⟩
  · simp only [count, Except.ok.injEq] at h5
    rw [← h5, g2.stop]
  · rw [opsOf_of_get h1]; exact h8

/-- C28: outside of a context, in the context of the circuit itself, and with a wrong number of qubits or bits the call raises, and no circuit,
operation, or anything else a user can see has changed. -/
theorem C28_raises {P : Call K → Prop} {w : World K} (hw : Reach P w) {a : Nat} {A : Circ} (hA : w.circs[a]? = some A) (qs : List Nat)
    (bits : Option (List Nat)) :
    (w.active = none → callCirc a qs bits w = (.error .circuitError, w)) ∧
    (∀ x X, w.active = some x → w.ctxs[x]? = some X →
      (X.circuit = a → callCirc a qs bits w = (.error .typeError, w)) ∧
      (X.circuit ≠ a → count (qubitsOf a w).1 ≠ .ok qs.length ∨
          (∃ b bs n, bits = some (b :: bs) ∧ count (bitsOf a w).1 = .ok n ∧ n ≠ (b :: bs).length) →
        ∃ A', bare A' = bare A ∧ callCirc a qs bits w = (.error .valueError, w.setCirc a A'))) := by
  constructor
  · intro ha
    unfold callCirc
    simp only [bind_def, M.read, ha]
    rfl
  · intro x X hx hX
    constructor
    · intro hXa
      unfold callCirc
      simp only [bind_def, M.read, hx, ctxObj, M.deref, hX, M.raiseIf, hXa, decide_true, if_true]
    · intro hXa hc
      obtain ⟨r, its, g1, g2⟩ := reach_rep hw hA
      unfold callCirc
      simp only [bind_def, M.read, hx, ctxObj, M.deref, hX, M.raiseIf, hXa, decide_false, Bool.false_eq_true, if_false, g1]
      by_cases hn : qs.length = r.cy.stop
      · rcases hc with hc | ⟨b, bs, n, rfl, hc, hne⟩
        · rw [g1] at hc; simp [count, hn] at hc
        · simp only [hn, ne_eq, not_true_eq_false, decide_false, Bool.false_eq_true, if_false, bitMap, nonempty, bind_def]
          rw [← bitsOf_setQ hA { A.q with cache := some r }] at hc
          obtain ⟨rb, w2, hz⟩ : ∃ rb w2, bitsOf a (w.setCirc a { A with q := { A.q with cache := some r } }) = (rb, w2) := ⟨_, _, rfl⟩
          rw [hz] at hc ⊢
          cases rb with
          | error e => cases hc
          | ok rb =>
            obtain ⟨A1, h1, h2⟩ := bitsOf_inv hz
            rw [setCirc_get hA] at h1
            cases h1
            rw [setCirc_setCirc] at h2
            simp only [count, Except.ok.injEq] at hc
            simp only [M.raiseIf, hc]
            have hd : decide ((b :: bs).length ≠ n) = true := by rw [decide_eq_true_iff]; exact fun e => hne e.symm
            rw [if_pos hd, h2]
            exact ⟨{ A with q := { A.q with cache := some r }, c := { A.c with cache := some rb } }, rfl, rfl⟩
      · rw [if_pos (by simpa using hn)]
        exact ⟨{ A with q := { A.q with cache := some r } }, rfl, rfl⟩

/-- A template with a controlled, a parametric and a measuring operation, and a circuit in whose context it is called. -/
def callDemo : Prog Int :=
  .seq (.call (.newClass ⟨"CX", .controlled, ⟨true, none, some 1, some 1⟩, none⟩)) <|
  .seq (.call (.newClass ⟨"RX", .parametric, ⟨false, some 1, none, none⟩, some 1⟩)) <|
  .seq (.call (.newClass ⟨"Measurement", .measurement, ⟨false, none, none, none⟩, none⟩)) <|
  .seq (.call (.newCirc false (some 2) (some 2))) <|
  .seq (.call (.newCirc false (some 3) (some 3))) <|
  .seq (.withCtx 0 (
    .seq (.call (.construct 0 none (.split (some [1]) (some [0])))) <|
    .seq (.call (.construct 1 (some [.num 7]) (.qubits (some [1])))) <|
    .seq (.call (.construct 2 none (.qubits (some [0, 1])))) <|
    .call (.measureInto 2 [1, 0]))) <|
  .withCtx 1 (.call (.call 0 [4, 2] (some [2, 4])))

/-- The state inside of the context in which the template is called. -/
def callDemoAt : World Int := (openCtx 1 (Prog.final (match callDemo with
  | .seq a (.seq b (.seq c (.seq d (.seq e (.seq f _))))) => .seq a (.seq b (.seq c (.seq d (.seq e f))))
  | p => p))).2

example : callDemoAt.target = some 1 ∧ opsOf callDemoAt 0 = [0, 1, 2] ∧ (callCirc 0 [4, 2] (some [2, 4]) callDemoAt).1 = .ok () ∧
    opsOf (callCirc 0 [4, 2] (some [2, 4]) callDemoAt).2 1 = [3, 4, 5] ∧
    (callCirc 0 [4, 2] (some [2, 4]) callDemoAt).2.ops.drop 3 =
      [{ cls := 0, qubits := some [2, 4], numQubits := some 2, control := some [2], target := some [4] },
       { cls := 1, qubits := some [2], numQubits := some 1, params := [.num 7] },
       { cls := 2, qubits := some [4, 2], numQubits := some 2, bits := some [4, 2] }] ∧
    (callCirc 0 [4] none callDemoAt).1 = .error .valueError ∧ (callCirc 1 [4] none callDemoAt).1 = .error .typeError ∧
    (callCirc 0 [4, 2] (some [2]) callDemoAt).1 = .error .valueError := by
  decide +kernel

/-- The condition of the operation in the template is lost. -/
def condDemo : Prog Int :=
  .seq (.call (.newClass ⟨"X", .plain, ⟨false, some 1, none, none⟩, none⟩)) <|
  .seq (.call (.newCirc false (some 1) (some 1))) <|
  .seq (.call (.newCirc false (some 1) (some 1))) <|
  .seq (.withCtx 0 (.seq (.call (.construct 0 none (.qubits (some [0])))) (.call (.conditional 0 [0])))) <|
  .withCtx 1 (.call (.call 0 [1] (some [1])))

/-- C28 is violated: the copy of a conditional operation is unconditional. -/
theorem C28_condition_violated : (condDemo.run {}).1 = .ok () ∧
    condDemo.final.ops = [{ cls := 0, qubits := some [0], numQubits := some 1, cond := some [0] },
      { cls := 0, qubits := some [1], numQubits := some 1, cond := none }] ∧
    opsOf condDemo.final 0 = [0] ∧ opsOf condDemo.final 1 = [1] := by
  decide +kernel

/-- A template whose measurement has no bits, and one with an operation with two controls. -/
def failDemo : Prog Int :=
  .seq (.call (.newClass ⟨"Measurement", .measurement, ⟨false, none, none, none⟩, none⟩)) <|
  .seq (.call (.newClass ⟨"CCZ", .controlled, ⟨true, none, some 2, some 1⟩, none⟩)) <|
  .seq (.call (.newCirc false (some 1) (some 1))) <|
  .seq (.call (.newCirc false (some 3) none)) <|
  .seq (.call (.newCirc false (some 3) (some 3))) <|
  .seq (.withCtx 0 (.call (.construct 0 none (.qubits (some [0]))))) <|
  .withCtx 1 (.call (.construct 1 none (.split (some [1, 2]) (some [3]))))

/-- C28 is violated: correct calls raise, of a template with a measurement without bits if bits are passed (after the copy has been appended), and of a
template with a controlled operation on three qubits. -/
theorem C28_raises_violated : (failDemo.run {}).1 = .ok () ∧
    ((Prog.withCtx 2 (.call (.call 0 [4] (some [1])))).run failDemo.final).1 = .error .valueError ∧
    opsOf ((Prog.withCtx 2 (.call (.call 0 [4] (some [1])))).run failDemo.final).2 2 = [2] ∧
    ((Prog.withCtx 2 (.call (.call 1 [4, 5, 6] none))).run failDemo.final).1 = .error .typeError := by
  decide +kernel

/-! ## C29 -/

/-- C29 for operations that are parametric but not controlled, and calls that succeed (values 0 raise, see below): calling a parametric
circuit with parameters sets its variables and appends, to an ordinary circuit, copies of its operations in which every variable of the circuit is
replaced by the parameter at its index. -/
theorem C29_partial {P : Call K → Prop} {w w' : World K} (hw : Reach P w) {a B : Nat} {A D : Circ} (hA : w.circs[a]? = some A)
    (hp : A.param = true) (ht : w.target = some B) (hD : w.circs[B]? = some D) (hDp : D.param = false) {ps : List K}
    (hl : A.vars.length ≤ ps.length) {qs : List Nat} {bits : Option (List Nat)} (h : callParam a ps qs bits w = (.ok (), w')) :
    ∃ l new, l.length = w.vars.length ∧ Appended { w with vars := l, onExit := w.onExit ++ [a] } w' B new ∧
      (∀ v, w'.varVal v = assigned A.vars ps w.varVal v) ∧
      List.Forall₂ (fun o op' => ∃ op C, w.ops[o]? = some op ∧ w.classes[op.cls]? = some C ∧ op'.cls = op.cls ∧
        (C.kind = .parametric → Replaced (assigned A.vars ps w.varVal) none op.params op'.params)) A.ops new := by
  have hr := Refs.reach hw
  obtain ⟨l, h1, h2, h3⟩ := callParam_eq hr hA hp (World.target_active ht) hl qs bits
  rw [h3] at h
  have hr' : Refs { w with vars := l, onExit := w.onExit ++ [a] } := by
    refine ⟨hr.ctx, hr.circuit, hr.active, ?_, ?_⟩
    · intro b hb
      rcases List.mem_append.1 hb with hb | hb
      · exact hr.onExit b hb
      · rw [List.mem_singleton.1 hb]; exact (List.getElem?_eq_some_iff.1 hA).1
    · intro c C hC
      obtain ⟨e1, e2⟩ := hr.vars c C hC
      exact ⟨e1, fun v hv => by dsimp only; rw [h1]; exact e2 v hv⟩
  obtain ⟨A', D', items, R, new, g1, g2, g3, g4, g5, g6, g7, g8⟩ := callCirc_ok hr' (⟨(OpsInv.reach hw).ops⟩) h ht
  rw [hA] at g1
  cases g1
  rw [hD] at g2
  cases g2
  refine ⟨l, new, h1, g7, ?_, g8.imp ?_⟩
  · intro v
    rw [← h2 v]
    unfold World.varVal
    rw [g7.vars]
  · rintro o op' ⟨op, C, e1, e2, e3⟩
    refine ⟨op, C, e1, e2, e3.cls, fun hk => ?_⟩
    have := e3.values hk (by simp [Circ.parametric, hDp])
    rw [funext h2] at this
    exact this

/-- A parametric template with a rotation and a controlled rotation by the same variable, and an ordinary circuit. -/
def paramDemo : Prog Int :=
  .seq (.call (.newClass ⟨"RX", .parametric, ⟨false, some 1, none, none⟩, some 1⟩)) <|
  .seq (.call (.newClass ⟨"CRX", .pcontrolled, ⟨true, none, some 1, some 1⟩, some 1⟩)) <|
  .seq (.call (.newCirc true (some 2) none)) <|
  .seq (.call (.newCirc true (some 2) none)) <|
  .seq (.call (.newCirc false (some 2) none)) <|
  .seq (.withCtx 0 (
    .seq (.call (.getParam 0 1)) <|
    .seq (.call (.construct 0 (some [.var 1]) (.qubits (some [0])))) <|
    .call (.construct 0 (some [.var 0]) (.qubits (some [1]))))) <|
  .withCtx 1 (.seq (.call (.getParam 1 0)) (.call (.construct 1 (some [.var 2]) (.split (some [2]) (some [3])))))

/-- The state in the context of the ordinary circuit. -/
def paramDemoAt : World Int := (openCtx 2 paramDemo.final).2

example : (paramDemo.run {}).1 = .ok () ∧ paramDemoAt.target = some 2 ∧ (callParam 0 [5, 6] [5, 4] none paramDemoAt).1 = .ok () ∧
    (callParam 0 [5, 6] [5, 4] none paramDemoAt).2.ops.drop 3 = [{ cls := 0, qubits := some [5], numQubits := some 1, params := [.num 6] },
      { cls := 0, qubits := some [4], numQubits := some 1, params := [.num 5] }] := by
  decide +kernel

/-- C29 is violated: calling with the value 0 raises `ValueError`. -/
theorem C29_zero_violated : (callParam 0 [5, 0] [5, 4] none paramDemoAt).1 = .error .valueError := by
  decide +kernel

/-- C29 is violated for controlled operations: the appended operation still carries the variable, whose value is gone after the context. -/
theorem C29_controlled_violated :
    ((Prog.withCtx 2 (.call (.callParam 1 [5] [4, 5] none))).run paramDemo.final).1 = .ok () ∧
    ((Prog.withCtx 2 (.call (.callParam 1 [5] [4, 5] none))).run paramDemo.final).2.ops.drop 3 =
      [{ cls := 1, qubits := some [4, 5], numQubits := some 2, control := some [4], target := some [5], params := [.var 2] }] ∧
    ((Prog.withCtx 2 (.call (.callParam 1 [5] [4, 5] none))).run paramDemo.final).2.varVal 2 = none := by
  decide +kernel

/-! ## C30 -/

/-- C30 for calls with enough parameters: if in a block a parametric circuit is called, whatever the outcome and whatever happens afterwards in the
block, then after the block its variables have no value, and there are no exit functions. -/
theorem C30_partial {P : Call K → Prop} {w : World K} (hw : Reach P w) {c x : Nat} {w1 : World K} (ho : openCtx c w = (.ok x, w1))
    (body : Prog K) {u : World K} (hu : body.Visits w1 u) {a : Nat} {A : Circ} (hA : u.circs[a]? = some A) (hp : A.param = true)
    {ps : List K} (hl : A.vars.length ≤ ps.length) {qs : List Nat} {bits : Option (List Nat)}
    (hu' : body.Visits w1 (execCall (.callParam a ps qs bits) u).2) :
    ∃ w3, (Prog.withCtx c body).run w = ((body.run w1).1, w3) ∧ w3.onExit = [] ∧ ∀ v ∈ varsOf w3 a, w3.varVal v = none := by
  have h0 := openCtx_inv (Refs.reach hw) ho
  have hr1 : Refs w1 := by
    have := Refs.openCtx c w (Refs.reach hw)
    rw [ho] at this
    exact this
  have hact : w1.active.isSome = true := by rw [h0.1]; rfl
  have hru := Refs.visits body hr1 hu
  have hau : u.active.isSome = true := by rw [((ActiveIn.inside body).2 w1 u h0 hu).1]; rfl
  -- the exit function is registered
  have hreg : Registered (u.onExit ++ [a]) (body.run w1).2 := by
    refine registered_end body hact hu' ?_
    obtain ⟨l, h1, h2, h3⟩ := callParam_eq hru hA hp hau hl qs bits
    show Registered _ (callParam a ps qs bits u).2
    rw [h3]
    exact (Registered.ctl (u.onExit ++ [a])).prims.to0.callCirc a qs bits _ ⟨hau, List.prefix_rfl⟩
  have ha : a ∈ (body.run w1).2.onExit := hreg.2.subset (by simp)
  -- leaving the context
  have h2 := (ActiveIn.inside body).1 w1 h0
  have hr2 := Refs.run body w1 hr1
  obtain ⟨-, X, hX, hXc⟩ := h2
  obtain ⟨vars, C, g1, g2, g3⟩ := exitCtx_ok hr2 hX
  rw [run_withCtx]
  unfold withStmt
  rw [ho]
  dsimp only
  rw [g3]
  refine ⟨_, rfl, rfl, fun v hv => ?_⟩
  have hv' : v ∈ varsOf (body.run w1).2 a := by
    unfold varsOf at hv ⊢
    dsimp only at hv
    by_cases hXa : X.circuit = a
    · subst hXa
      rw [List.getElem?_set_self (List.getElem?_eq_some_iff.1 g1).1] at hv
      rw [g1]
      exact hv
    · rwa [List.getElem?_set_ne hXa] at hv
  unfold World.varVal
  dsimp only
  rw [g2.2 v]
  have : v ∈ (body.run w1).2.onExit.flatMap (varsOf (body.run w1).2) := List.mem_flatMap.2 ⟨a, ha, hv'⟩
  cases hvv : (body.run w1).2.vars[v]? with
  | none => rfl
  | some o => simp [this]

/-- A block in which a template is called twice, the second time with an exception. -/
def resetDemo : Prog Int := .seq (.call (.callParam 0 [5, 6] [5, 4] none)) (.attempt (.call (.callParam 0 [7, 8] [5] none)))

example : (resetDemo.run paramDemoAt).2.varVal 0 = some 7 ∧ (resetDemo.run paramDemoAt).2.varVal 1 = some 8 ∧
    ((Prog.withCtx 2 resetDemo).run paramDemo.final).1 = .ok () ∧ ((Prog.withCtx 2 resetDemo).run paramDemo.final).2.varVal 0 = none ∧
    ((Prog.withCtx 2 resetDemo).run paramDemo.final).2.varVal 1 = none := by
  decide +kernel

/-- C30 with too few parameters: in every state inside of a context such a call raises `IndexError`; before that, as many variables as there are
parameters have been set, in order. Nothing else has changed; in particular nothing was registered to be done at the end of the block. -/
theorem C30_short {P : Call K → Prop} {w : World K} (hw : Reach P w) {a : Nat} {A : Circ} (hA : w.circs[a]? = some A) (hp : A.param = true)
    (hact : w.active.isSome = true) {ps : List K} (hl : ps.length < A.vars.length) (qs : List Nat) (bits : Option (List Nat)) :
    ∃ vars, callParam a ps qs bits w = (.error .indexError, { w with vars := vars }) ∧
      ∀ v, World.varVal { w with vars := vars } v = assigned (A.vars.take ps.length) ps w.varVal v := by
  obtain ⟨l, h1, h2, h3⟩ := callParam_short (Refs.reach hw) hA hp hact hl qs bits
  exact ⟨l, h3, h2⟩

/-- C30 is violated by every call with too few parameters in a block, if nothing else was registered before: the block raises `IndexError`, and after
it the variables that were set still have the values of the parameters. -/
theorem C30_short_violated {P : Call K → Prop} {w : World K} (hw : Reach P w) {c x : Nat} {w1 : World K} (ho : openCtx c w = (.ok x, w1))
    (he : w1.onExit = []) {a : Nat} {A : Circ} (hA : w1.circs[a]? = some A) (hp : A.param = true)
    {ps : List K} (hl : ps.length < A.vars.length) (qs : List Nat) (bits : Option (List Nat)) :
    ∃ w3, (Prog.withCtx c (.call (.callParam a ps qs bits))).run w = (.error .indexError, w3) ∧
      ∀ (i : Nat) (y : K), ps[i]? = some y → ∃ v, A.vars[i]? = some v ∧ w3.varVal v = some y := by
  have h0 := openCtx_inv (Refs.reach hw) ho
  have hr1 : Refs w1 := by
    have := Refs.openCtx c w (Refs.reach hw)
    rw [ho] at this
    exact this
  have hact : w1.active.isSome = true := by rw [h0.1]; rfl
  obtain ⟨l, k1, k2, k3⟩ := callParam_short hr1 hA hp hact hl qs bits
  obtain ⟨-, X, hX, hXc⟩ := h0
  have hr2 : Refs { w1 with vars := l } := by
    have := Refs.run (.call (.callParam a ps qs bits)) w1 hr1
    have e : ((Prog.call (.callParam a ps qs bits)).run w1).2 = { w1 with vars := l } := congrArg Prod.snd k3
    rwa [e] at this
  obtain ⟨vars, C, g1, g2, g3⟩ := exitCtx_ok hr2 (x := x) (X := X) hX
  rw [run_withCtx]
  unfold withStmt
  rw [ho]
  have e : (Prog.call (.callParam a ps qs bits)).run w1 = (.error .indexError, { w1 with vars := l }) := k3
  dsimp only
  rw [e, g3]
  refine ⟨_, rfl, fun i y hy => ?_⟩
  have hi : i < ps.length := (List.getElem?_eq_some_iff.1 hy).1
  have hv : A.vars[i]? = some (A.vars[i]'(by omega)) := List.getElem?_eq_getElem _
  refine ⟨_, hv, ?_⟩
  have hnd := (hr1.vars a A hA).1
  have := k2 (A.vars[i]'(by omega))
  have hidx : (A.vars.take ps.length).idxOf? (A.vars[i]'(by omega)) = some i := by
    have hlt : i < (A.vars.take ps.length).length := by simp; omega
    have e1 : (A.vars.take ps.length)[i]'hlt = A.vars[i]'(by omega) := List.getElem_take
    rw [← e1, List.idxOf?_eq_some_iff]
    refine ⟨hlt, rfl, fun j hj e => ?_⟩
    have := (List.Nodup.getElem_inj_iff (hnd.sublist (List.take_sublist _ _))).1 e
    omega
  unfold assigned at this
  rw [hidx] at this
  dsimp only at this
  rw [hy] at this
  have g2' := g2.2 (A.vars[i]'(by omega))
  rw [he] at g2'
  unfold World.varVal at this ⊢
  dsimp only at this ⊢ g2'
  rw [g2']
  simpa using this

/-- C30 is violated: if there are too few parameters, the call raises `IndexError`, and the variables that were set stay set after the block. -/
theorem C30_violated :
    ((Prog.withCtx 2 (.call (.callParam 0 [5] [5, 4] none))).run paramDemo.final).1 = .error .indexError ∧
    ((Prog.withCtx 2 (.call (.callParam 0 [5] [5, 4] none))).run paramDemo.final).2.varVal 0 = some 5 := by
  decide +kernel

example : (openCtx 2 paramDemo.final).1 = .ok 2 ∧ paramDemoAt.onExit = [] ∧
    ((paramDemoAt.circs[0]?).map fun A => (A.param, A.vars)) = some (true, [0, 1]) := by
  decide +kernel

/-! ## C31 -/

/-- C31 with parameters: `op.eval(l)` with a number for every position of a variable returns a copy of the operation in which exactly the variables are
replaced, by the number at the same position; the state does not change (the model of `inplace=False` is a function without effect). If a
number is missing the call raises `IndexError`. Missing: the empty list, which counts as no parameters. -/
theorem C31_given_partial (w : World K) (op : OpObj K) {l : List K} (hl : l ≠ []) :
    ((∀ (j : Nat) (v : Nat), op.params[j]? = some (.var v) → j < l.length) →
      ∃ ps, evalCopy w op (some l) = .ok { op with params := ps } ∧ Replaced w.varVal (some l) op.params ps) ∧
    (¬ (∀ (j : Nat) (v : Nat), op.params[j]? = some (.var v) → j < l.length) → evalCopy w op (some l) = .error .indexError) := by
  unfold evalCopy
  rcases evalLoop_given w.varVal hl 0 op.params with ⟨h1, qs, h2, h3, h4⟩ | ⟨h1, qs, h2⟩
  · simp only [Nat.zero_add] at h1 h4
    refine ⟨fun _ => ⟨qs, by rw [h2], h3, fun i p hp => ?_⟩, fun h => absurd h1 h⟩
    have := h4 i p hp
    cases p <;> exact this
  · simp only [Nat.zero_add] at h1
    exact ⟨fun h => absurd h h1, fun _ => by rw [h2]⟩

/-- C31 without parameters, for variables whose value is not 0: `op.eval()` returns a copy in which exactly the variables are replaced by their values, if
all of them have one, and raises `ValueError` otherwise. Missing: variables with value 0, see below. -/
theorem C31_values_partial (w : World K) (op : OpObj K) (h0 : ∀ v, OpParam.var v ∈ op.params → w.varVal v ≠ some 0) :
    ((∀ v, OpParam.var v ∈ op.params → (w.varVal v).isSome = true) →
      ∃ ps, evalCopy w op none = .ok { op with params := ps } ∧ Replaced w.varVal none op.params ps) ∧
    ((∃ v, OpParam.var v ∈ op.params ∧ w.varVal v = none) → evalCopy w op none = .error .valueError) := by
  unfold evalCopy
  rcases evalLoop_none w.varVal (given := none) (.inl rfl) 0 op.params with ⟨h1, h2⟩ | ⟨h1, qs, h2⟩
  · refine ⟨fun _ => ⟨_, by rw [h2], evaluates_replaced h1⟩, ?_⟩
    rintro ⟨v, hv, e⟩
    obtain ⟨x, hx, -⟩ := h1 v hv
    rw [e] at hx
    cases hx
  · refine ⟨fun h => ?_, fun _ => by rw [h2]⟩
    refine absurd (fun v hv => ?_) h1
    obtain ⟨x, hx⟩ := Option.isSome_iff_exists.1 (h v hv)
    exact ⟨x, hx, fun e => h0 v hv (by rw [hx, e])⟩

/-- C31 in place: `op.eval(given, inplace=True)` of an operation with parameters changes the parameters of this object to those of the copy, if it
succeeds, and nothing else. -/
theorem C31_inplace {w w' : World K} {o : Nat} {op : OpObj K} {C : OpCls} (ho : w.ops[o]? = some op) (hC : w.classes[op.cls]? = some C)
    (hp : C.kind.isParametric = true) (given : Option (List K)) :
    (evalInPlace o given w = (.ok (), w') ↔ ∃ op', evalCopy w op given = .ok op' ∧ w' = { w with ops := w.ops.set o op' }) ∧
    (∀ e, (evalInPlace o given w).1 = .error e ↔ evalCopy w op given = .error e) := by
  unfold evalInPlace evalCopy
  simp only [ho, hC, hp, if_true]
  generalize evalLoop w.varVal given 0 op.params = z
  obtain ⟨r, ps⟩ := z
  cases r with
  | error e =>
    simp
  | ok u =>
    cases u
    simp only [Prod.mk.injEq, true_and, Except.ok.injEq, reduceCtorEq, implies_true, and_true, World.setOp]
    constructor
    · intro h; exact ⟨_, rfl, h.symm⟩
    · rintro ⟨op', rfl, h⟩; exact h.symm

/-- A state with two variables, one with value 5, and an operation `Rotation(x, 3, y)` with these. -/
def evalDemo : World Int := { vars := [⟨"x", some 5⟩, ⟨"y", none⟩, ⟨"z", some 0⟩] }

example : evalCopy evalDemo { cls := 0, params := [.var 0, .num 3, .var 1] } (some [7, 8, 9]) = .ok { cls := 0, params := [.num 7, .num 3, .num 9] } ∧
    evalCopy evalDemo { cls := 0, params := [.var 0, .num 3, .var 1] } (some [7, 8]) = .error .indexError ∧
    evalCopy evalDemo { cls := 0, params := [.var 0, .num 3, .var 1] } none = .error .valueError ∧
    evalCopy evalDemo { cls := 0, params := [.var 0, .num 3] } none = .ok { cls := 0, params := [.num 5, .num 3] } := by
  decide +kernel

/-- C31 is violated for all operations and states: a variable with the value 0 makes `eval()` raise `ValueError`. -/
theorem C31_zero_violated (w : World K) (op : OpObj K) {v : Nat} (hv : OpParam.var v ∈ op.params) (h0 : w.varVal v = some 0) :
    evalCopy w op none = .error .valueError := by
  unfold evalCopy
  rcases evalLoop_none w.varVal (given := none) (.inl rfl) 0 op.params with ⟨h1, h2⟩ | ⟨h1, qs, h2⟩
  · obtain ⟨x, hx, hx0⟩ := h1 v hv
    rw [h0] at hx
    cases hx
    exact absurd rfl hx0
  · rw [h2]

/-- The variable `z` of `evalDemo` has the value 0. -/
example : evalDemo.varVal 2 = some 0 ∧ evalCopy evalDemo { cls := 0, params := [.var 2] } none = .error .valueError := by decide +kernel

/-- C31 is violated: an explicit empty list is ignored. -/
theorem C31_empty_violated : evalCopy evalDemo { cls := 0, params := [.var 0] } (some []) = .ok { cls := 0, params := [.num 5] } := by
  decide +kernel

/-! ## C32

`SameOp` (equality of operations) and `EqualAt` are defined in `Spec/Program.lean`. -/

/-- **C32, in all cases:** `circuit.remove(op)` looks for the first operation that is `op`, equals `op`, or has parameters while `op` has none. If it has
parameters while `op` has none (and is not `op`), `AttributeError` is raised; otherwise it is deleted. If there is none, `ValueError` is raised. Nothing else
changes. -/
theorem C32_cases {w : World K} {c o : Nat} {C : Circ} {y : OpObj K} {k' : OpCls} (hC : w.circs[c]? = some C) (ho : w.ops[o]? = some y)
    (hk : w.classes[y.cls]? = some k') (hops : ∀ a ∈ C.ops, ∃ x k, w.ops[a]? = some x ∧ w.classes[x.cls]? = some k) :
    (∃ i, EqualAt w C.ops o i ∧ ¬ Incomparable w C.ops o i ∧ (∀ j < i, ¬ EqualAt w C.ops o j ∧ ¬ Incomparable w C.ops o j) ∧
      removeOp c o w = (.ok (), { w with circs := w.circs.set c { C with ops := C.ops.take i ++ C.ops.drop (i + 1) } })) ∨
    (∃ i, Incomparable w C.ops o i ∧ (∀ j < i, ¬ EqualAt w C.ops o j ∧ ¬ Incomparable w C.ops o j) ∧ removeOp c o w = (.error .attributeError, w)) ∨
    ((∀ i, ¬ EqualAt w C.ops o i ∧ ¬ Incomparable w C.ops o i) ∧ removeOp c o w = (.error .valueError, w)) := by
  unfold removeOp
  simp only [hC, ho]
  rcases indexLoop_cases ho hk C.ops 0 hops with ⟨i, h1, h1', h2, h3⟩ | ⟨i, h1, h2, h3⟩ | ⟨h1, h2⟩
  · refine .inl ⟨i, h1, h1', h2, ?_⟩
    rw [h3, Nat.zero_add]
    dsimp only
    rw [List.eraseIdx_eq_take_drop_succ]
    rfl
  · exact .inr (.inl ⟨i, h1, h2, by rw [h3]⟩)
  · exact .inr (.inr ⟨h1, by rw [h2]⟩)

/-- C32 if `op` has parameters or no operation of the circuit has: `circuit.remove(op)` deletes the first operation that is `op` or equal to `op`,
and nothing else changes; if there is none it raises `ValueError` and nothing changes. Missing: an operation without parameters in a circuit with
others that have some, see below. -/
theorem C32_partial {w : World K} {c o : Nat} {C : Circ} {y : OpObj K} {k' : OpCls} (hC : w.circs[c]? = some C) (ho : w.ops[o]? = some y)
    (hk : w.classes[y.cls]? = some k')
    (hops : ∀ a ∈ C.ops, ∃ x k, w.ops[a]? = some x ∧ w.classes[x.cls]? = some k ∧ (k.kind.isParametric = true → k'.kind.isParametric = true)) :
    (∃ i, EqualAt w C.ops o i ∧ (∀ j < i, ¬ EqualAt w C.ops o j) ∧
      removeOp c o w = (.ok (), { w with circs := w.circs.set c { C with ops := C.ops.take i ++ C.ops.drop (i + 1) } })) ∨
    ((∀ i, ¬ EqualAt w C.ops o i) ∧ removeOp c o w = (.error .valueError, w)) := by
  unfold removeOp
  simp only [hC, ho]
  rcases indexLoop_ok ho hk C.ops 0 hops with ⟨i, h1, h2, h3⟩ | ⟨h1, h2⟩
  · refine .inl ⟨i, h1, h2, ?_⟩
    rw [h3, Nat.zero_add]
    dsimp only
    rw [List.eraseIdx_eq_take_drop_succ]
    rfl
  · exact .inr ⟨h1, by rw [h2]⟩

/-- `RX(x)`, `RX(2)`, `X` on qubit 0 and `RX(2)` on qubit 1, where `x = 2`. -/
def removeDemo : Prog Int :=
  .seq (.call (.newClass ⟨"RX", .parametric, ⟨false, some 1, none, none⟩, some 1⟩)) <|
  .seq (.call (.newClass ⟨"X", .plain, ⟨false, some 1, none, none⟩, none⟩)) <|
  .seq (.call (.newCirc true (some 2) none)) <|
  .seq (.call (.getParam 0 0)) <|
  .seq (.call (.construct 0 (some [.num 3]) (.qubits (some [0])))) <|
  .seq (.call (.construct 0 (some [.num 2]) (.qubits (some [1])))) <|
  .seq (.call (.construct 0 (some [.var 0]) (.qubits (some [0])))) <|
  .seq (.call (.construct 1 none (.qubits (some [0])))) <|
  .seq (.call (.construct 0 (some [.num 2]) (.qubits (some [0])))) <|
  .seq (.call (.construct 1 none (.qubits (some [1])))) <|
  .seq (.call (.setVar 0 2)) <|
  .call (.extend 0 [0, 1, 2, 3, 4])

example : (removeDemo.run {}).1 = .ok () ∧ opsOf removeDemo.final 0 = [0, 1, 2, 3, 4] ∧ (removeOp 0 4 removeDemo.final).1 = .ok () ∧
    opsOf (removeOp 0 4 removeDemo.final).2 0 = [0, 1, 3, 4] := by decide +kernel

/-- C32 is violated: `circuit.remove(X)` raises `AttributeError`, if an operation with parameters is in front of an equal operation, or if there is no
equal operation. -/
theorem C32_violated : opsOf removeDemo.final 0 = [0, 1, 2, 3, 4] ∧ EqualAt removeDemo.final [0, 1, 2, 3, 4] 3 3 ∧
    (removeOp 0 3 (removeOp 0 3 removeDemo.final).2).1 = .error .attributeError ∧
    (removeOp 0 5 removeDemo.final).1 = .error .attributeError := by
  refine ⟨by decide +kernel, ⟨3, rfl, .inl rfl⟩, by decide +kernel, by decide +kernel⟩

/-- All three cases of `C32_cases` occur: removing the `RX(2)` at the end, an `X` in front of which there are parametric operations, and `RX(3)` twice. -/
example : (∀ a ∈ opsOf removeDemo.final 0, ((removeDemo.final.ops[a]?).bind (fun x => removeDemo.final.classes[x.cls]?)).isSome = true) ∧
    (removeOp 0 4 removeDemo.final).1 = .ok () ∧ (removeOp 0 5 removeDemo.final).1 = .error .attributeError ∧
    (removeOp 0 0 (removeOp 0 0 removeDemo.final).2).1 = .error .valueError := by decide +kernel

/-! ## C33 -/

/-- C33 for `reset()` if `circuit.bits` shows the bits of all registers: the operations are gone, the circuit is unlocked, its bits and no others
are unset, and everything else is as before. -/
theorem C33_keep_partial {w : World K} {c : Nat} {C : Circ} (hC : w.circs[c]? = some C) {L : Layout} (hL : Shows C.c L)
    (hb : seen (bitsOf c w).1 = .ok (L.items.map Lbl.obj)) :
    ∃ w' C', resetCirc c true w = (.ok (), w') ∧ w'.circs[c]? = some C' ∧ C'.ops = [] ∧ C'.locked = false ∧
      C'.q = C.q ∧ Shows C'.c L ∧ seen (qubitsOf c w').1 = seen (qubitsOf c w).1 ∧ seen (bitsOf c w').1 = seen (bitsOf c w).1 ∧
      C'.param = C.param ∧ C'.vars = C.vars ∧
      (∀ (k : Nat) (b : BitObj), w.bits[k]? = some b → w'.bits[k]? = some { b with value := if k ∈ L.items then none else b.value }) ∧
      (∀ d, d ≠ c → w'.circs[d]? = w.circs[d]?) ∧
      w' = { w with bits := w'.bits, circs := w'.circs } := by
  obtain ⟨r, bits, h1, h2, h3, h4⟩ := resetCirc_keep hC hb
  refine ⟨_, _, h2, setCirc_get (w := { w with bits := bits }) hC, rfl, rfl, rfl, hL, ?_, ?_, rfl, rfl, h4, fun d hd => ?_, rfl⟩
  · unfold qubitsOf
    rw [setCirc_get (w := { w with bits := bits }) hC, hC]
  · rw [h1]
    unfold bitsOf
    rw [setCirc_get (w := { w with bits := bits }) hC]
    rfl
  · show (w.circs.set c _)[d]? = _
    rw [List.getElem?_set_ne (Ne.symm hd)]

/-- C33 for `reset()`: the condition of `C33_keep_partial` holds if no bit was ever set and no registers were deleted. -/
theorem C33_keep_shown {A : Call K → Prop} (hA : ∀ e, A e → SetsNoBit e ∧ KeepsRegisters e) {w : World K} (h : Reach A w) {c : Nat} {C : Circ}
    (hC : w.circs[c]? = some C) : ∃ L, Shows C.c L ∧ seen (bitsOf c w).1 = .ok (L.items.map Lbl.obj) := by
  obtain ⟨hev, -⟩ := reach_c (fun e he => (hA e he).1) h hC
  obtain ⟨L, g1, g2⟩ := reach_c_strict hA h hC
  exact ⟨L, g1.shows, (seen_bits hC hev g1 g2).1⟩

/-- C33: it holds as well after bits were set, if `circuit.bits` was used before. -/
theorem C33_keep_read {w : World K} {c : Nat} {l : List Lbl} (h : seen (bitsOf c w).1 = .ok l) (bits : List BitObj) :
    seen (bitsOf c { (bitsOf c w).2 with bits := bits }).1 = .ok l := by
  obtain ⟨r, w1, hz⟩ : ∃ r w1, bitsOf c w = (r, w1) := ⟨_, _, rfl⟩
  rw [hz] at h ⊢
  cases r with
  | error e => cases h
  | ok r =>
    obtain ⟨A, hA, rfl⟩ := bitsOf_inv hz
    unfold bitsOf
    rw [setCirc_get (w := w) (c := c) (C' := { A with c := { A.c with cache := some r } }) hA]
    exact h

/-- A circuit with two bits, set after they were used, and an operation; the circuit is locked. -/
def resetBitsDemo : Prog Int :=
  .seq (.call (.newClass ⟨"X", .plain, ⟨false, some 1, none, none⟩, none⟩)) <|
  .seq (.call (.newCirc false (some 1) (some 2))) <|
  .seq (.call (.newBit (.str "b"))) <|
  .seq (.call (.readBits 0)) <|
  .seq (.call (.setBit 1 true false)) <|
  .seq (.call (.setBit 2 true false)) <|
  .seq (.call (.construct 0 none (.qubits (some [0])))) <|
  .seq (.call (.append 0 0)) <| .call (.lock 0)

example : (resetBitsDemo.run {}).1 = .ok () ∧ (∃ C, resetBitsDemo.final.circs[0]? = some C ∧ Shows C.c [(.str "creg0", [0, 1])]) ∧
    seen (bitsOf 0 resetBitsDemo.final).1 = .ok [.obj 0, .obj 1] ∧
    resetBitsDemo.final.bits.map (·.value) = [none, some 1, some 1] ∧
    (resetCirc 0 true resetBitsDemo.final).2.bits.map (·.value) = [none, none, some 1] ∧
    opsOf (resetCirc 0 true resetBitsDemo.final).2 0 = [] :=
  ⟨by decide +kernel, shows_circ Circ.c (by decide +kernel), by decide +kernel, by decide +kernel, by decide +kernel, by decide +kernel⟩

/-- C33 is violated: if a bit is set before `circuit.bits` is used for the first time, `reset()` raises `AttributeError`, with the operations gone
and the bit still set. -/
def resetLateDemo : Prog Int :=
  .seq (.call (.newCirc false none (some 2))) <| .seq (.call (.setBit 1 true false)) <| .call (.lock 0)

theorem C33_keep_violated : (resetLateDemo.run {}).1 = .ok () ∧
    (resetCirc 0 true resetLateDemo.final).1 = .error .attributeError ∧
    (resetCirc 0 true resetLateDemo.final).2.bits.map (·.value) = [none, some 1] ∧
    ((resetCirc 0 true resetLateDemo.final).2.circs.map (·.locked)) = [true] := by
  decide +kernel

/-- C33 for `reset(keep_registers=False)`: there are no operations and no registers, and the circuit is unlocked. There are no qubits (bits), if
`circuit.qubits` (`circuit.bits`) was never used before. -/
theorem C33_drop_partial {w : World K} {c : Nat} {C : Circ} (hC : w.circs[c]? = some C) :
    ∃ w' C', resetCirc c false w = (.ok (), w') ∧ w'.circs[c]? = some C' ∧ C'.ops = [] ∧ C'.locked = false ∧ Shows C'.q [] ∧ Shows C'.c [] ∧
      (C.q.cache = none → seen (qubitsOf c w').1 = .ok []) ∧ (C.c.cache = none → seen (bitsOf c w').1 = .ok []) ∧
      (∀ d, d ≠ c → w'.circs[d]? = w.circs[d]?) ∧ w' = { w with circs := w'.circs } := by
  have key := resetCirc_drop hC
  refine ⟨_, _, key, setCirc_get hC, rfl, rfl, .nil, .nil, fun h => ?_, fun h => ?_, fun d hd => ?_, rfl⟩
  · unfold qubitsOf
    rw [setCirc_get hC]
    simp only [Bank.clear, Bank.flat, h, Bank.sum, PyDict.values, List.map_nil]
    rfl
  · unfold bitsOf
    rw [setCirc_get hC]
    simp only [Bank.clear, Bank.flat, h, Bank.sum, PyDict.values, List.map_nil]
    rfl
  · show (w.circs.set c _)[d]? = _
    rw [List.getElem?_set_ne (Ne.symm hd)]

/-- C33 is violated: after `circuit.qubits` was used (with result `l`), `reset(keep_registers=False)` does not change it. -/
theorem C33_drop_violated {w : World K} {c : Nat} {l : List Lbl} (h : seen (qubitsOf c w).1 = .ok l) :
    seen (qubitsOf c (resetCirc c false (qubitsOf c w).2).2).1 = .ok l := by
  obtain ⟨r, w1, hz⟩ : ∃ r w1, qubitsOf c w = (r, w1) := ⟨_, _, rfl⟩
  rw [hz] at h ⊢
  cases r with
  | error e => cases h
  | ok r =>
    obtain ⟨A, hA, rfl⟩ := qubitsOf_inv hz
    dsimp only
    have hA' := setCirc_get (w := w) (c := c) (C' := { A with q := { A.q with cache := some r } }) hA
    rw [resetCirc_drop hA']
    dsimp only
    rw [setCirc_setCirc]
    unfold qubitsOf
    rw [setCirc_get hA]
    exact h

example : seen (qubitsOf 0 (Prog.final (K := Int) (.call (.newCirc false (some 2) none)))).1 = .ok [.obj 0, .obj 1] := by decide +kernel

end DG.Props
