import Verif.Proofs.Enter

/-!
# Properties C25-C27: contexts

`p.Visits w w'`: `w'` is one of the states between the calls when the program `p` is executed from `w`. `World.target`: the circuit of
the active context, if there is one that is not frozen. `opsOf w c`: the list `circuit.circuit` of circuit `c`.
-/

namespace DG.Props
open Spec
variable {K : Type} [DecidableEq K] [Zero K]

/-! ## C25 -/

/-- C25: entering is refused if the circuit is locked (`CircuitError`) or a context is active (`RuntimeError`), and changes nothing; the
block is not executed. -/
theorem C25_refused {A : Call K → Prop} {w : World K} (h : Reach A w) {c : Nat} (hc : c < w.circs.length) (body : Prog K) :
    (lockedIn w c = true → ((Prog.withCtx c body).run w).1 = .error .circuitError ∧ SameButContexts w ((Prog.withCtx c body).run w).2) ∧
    (lockedIn w c = false → w.active.isSome = true →
      ((Prog.withCtx c body).run w).1 = .error .runtimeError ∧ SameButContexts w ((Prog.withCtx c body).run w).2) := by
  have hr := Refs.reach h
  obtain ⟨C, hC⟩ : ∃ C, w.circs[c]? = some C := ⟨_, List.getElem?_eq_getElem hc⟩
  have hl : lockedIn w c = C.locked := by unfold lockedIn; rw [hC]
  rw [hl, run_withCtx]
  unfold withStmt
  constructor
  · intro h1
    rw [openCtx_locked hr hC h1]
    exact ⟨rfl, contextOf_same c w⟩
  · intro h1 h2
    rw [openCtx_active hr hC h1 h2]
    exact ⟨rfl, contextOf_same c w⟩

/-- C25: otherwise entering succeeds, provided that no bit has ever been set, or else that `circuit.bits` can be read. Missing: circuits
whose bits cannot be read, see below. -/
theorem C25_enter_partial {A : Call K → Prop} {w : World K} (h : Reach A w) {c : Nat} (hc : c < w.circs.length)
    (hb : (∀ e, A e → SetsNoBit e) ∨ ∃ r, (bitsOf c w).1 = .ok r)
    (hl : lockedIn w c = false) (ha : w.active = none) : ∃ x w1, openCtx c w = (.ok x, w1) := by
  obtain ⟨C, hC⟩ : ∃ C, w.circs[c]? = some C := ⟨_, List.getElem?_eq_getElem hc⟩
  have hl' : C.locked = false := by unfold lockedIn at hl; rw [hC] at hl; exact hl
  refine openCtx_ok (Refs.reach h) hC hl' ha ?_ ?_
  · obtain ⟨r, items, h1, -⟩ := reach_rep h hC
    refine ⟨r, ?_⟩
    have := congrArg Prod.fst h1
    unfold qubitsOf at this
    rw [hC] at this
    exact this
  · rcases hb with hA | ⟨r, hr⟩
    · obtain ⟨hev, -, L, h1, -⟩ := reach_c hA h hC
      obtain ⟨r, b', g1, -⟩ := Bank.flat_ok hev h1
      exact ⟨r, by rw [g1]⟩
    · refine ⟨r, ?_⟩
      unfold bitsOf at hr
      rw [hC] at hr
      exact hr

/-- C25: while the block is executed its context is active, whatever the block does, including attempts to enter contexts. -/
theorem C25_inside {A : Call K → Prop} {w : World K} (h : Reach A w) {c x : Nat} {w1 : World K} (ho : openCtx c w = (.ok x, w1))
    {body : Prog K} {w' : World K} (hv : body.Visits w1 w') :
    w'.active = some x ∧ ∃ X, w'.ctxs[x]? = some X ∧ X.circuit = c :=
  (ActiveIn.inside body).2 w1 w' (openCtx_inv (Refs.reach h) ho) hv

/-- C25: leaving a context, normally or by exception. The outcome of the block is the outcome of the `with` statement; afterwards no
context is active, the circuit is locked, there are no exit functions, the variables of the circuits whose `reset_variables` was registered
have no value and the others are what they were; the operations of all circuits are what they were at the end of the block. -/
theorem C25_leave {A : Call K → Prop} {w : World K} (h : Reach A w) {c x : Nat} {w1 : World K} (ho : openCtx c w = (.ok x, w1))
    (body : Prog K) :
    ∃ w3, (Prog.withCtx c body).run w = ((body.run w1).1, w3) ∧ w3.active = none ∧ lockedIn w3 c = true ∧ w3.onExit = [] ∧
      (∀ c', opsOf w3 c' = opsOf (body.run w1).2 c') ∧ w3.ops = (body.run w1).2.ops ∧
      (∀ v, ((∃ a ∈ (body.run w1).2.onExit, v ∈ varsOf (body.run w1).2 a) → w3.varVal v = none) ∧
        ((∀ a ∈ (body.run w1).2.onExit, v ∉ varsOf (body.run w1).2 a) → w3.varVal v = (body.run w1).2.varVal v)) := by
  have h0 := openCtx_inv (Refs.reach h) ho
  have hr1 : Refs w1 := by
    have := Refs.openCtx c w (Refs.reach h)
    rw [ho] at this
    exact this
  have h2 := (ActiveIn.inside body).1 w1 h0
  have hr2 := Refs.run body w1 hr1
  obtain ⟨-, X, hX, hXc⟩ := h2
  subst hXc
  obtain ⟨vars, C, g1, g2, g3⟩ := exitCtx_ok hr2 hX
  rw [run_withCtx]
  unfold withStmt
  rw [ho]
  dsimp only
  rw [g3]
  have hlt := (List.getElem?_eq_some_iff.1 g1).1
  refine ⟨_, rfl, rfl, ?_, rfl, ?_, rfl, ?_⟩
  · unfold lockedIn
    dsimp only
    rw [List.getElem?_set_self hlt]
  · intro c'
    have := opsOf_setCirc (C' := { C with locked := true, varsFrozen := C.param || C.varsFrozen }) g1 c'
    unfold World.setCirc at this
    have e : opsOf (body.run w1).2 X.circuit = C.ops := opsOf_of_get g1
    by_cases hc : c' = X.circuit
    · subst hc
      rw [e]
      simpa [opsOf] using this
    · simpa [opsOf, hc] using this
  · intro v
    unfold World.varVal
    dsimp only
    rw [g2.2 v]
    constructor
    · rintro ⟨a, ha, hv⟩
      have : v ∈ (body.run w1).2.onExit.flatMap (varsOf (body.run w1).2) := List.mem_flatMap.2 ⟨a, ha, hv⟩
      cases hvv : (body.run w1).2.vars[v]? with
      | none => rfl
      | some o => simp [this]
    · intro hn
      have : v ∉ (body.run w1).2.onExit.flatMap (varsOf (body.run w1).2) := fun hm => by
        obtain ⟨a, ha, hv⟩ := List.mem_flatMap.1 hm
        exact hn a ha hv
      cases hvv : (body.run w1).2.vars[v]? with
      | none => rfl
      | some o => simp [this]

/-- C25: so a second entry needs `unlock()`. -/
theorem C25_again {A : Call K → Prop} {w : World K} (h : Reach A w) {c x : Nat} {w1 : World K} (ho : openCtx c w = (.ok x, w1))
    (body again : Prog K) :
    ((Prog.withCtx c again).run ((Prog.withCtx c body).run w).2).1 = .error .circuitError ∧
    lockedIn (execCall (.unlock c) ((Prog.withCtx c body).run w).2).2 c = false := by
  obtain ⟨w3, h1, -, h2, -⟩ := C25_leave h ho body
  have hr := Refs.run (.withCtx c body) w (Refs.reach h)
  rw [h1] at hr ⊢
  dsimp only at hr ⊢
  unfold lockedIn at h2
  cases hC : w3.circs[c]? with
  | none => rw [hC] at h2; cases h2
  | some C =>
    rw [hC] at h2
    constructor
    · rw [run_withCtx]
      unfold withStmt
      rw [openCtx_locked hr hC h2]
    · show lockedIn (unlockCirc c w3).2 c = false
      unfold unlockCirc modCirc M.write lockedIn
      simp only [hC, setCirc_get hC]
      split <;> rfl

/-- Two circuits, a context in a context, and an exception that is caught. -/
def ctxDemo : Prog Int :=
  .seq (.call (.newClass ⟨"X", .plain, ⟨false, some 1, none, none⟩, none⟩)) <|
  .seq (.call (.newCirc false (some 2) (some 1))) <|
  .seq (.call (.newCirc false (some 1) none)) <|
  .attempt <| .withCtx 0 <|
    .seq (.call (.construct 0 none (.qubits (some [0])))) <|
    .seq (.attempt (.withCtx 1 .skip)) <|
    .seq (.call (.construct 0 none (.qubits (some [1])))) <|
    .call (.construct 0 none (.qubits (some [2])))

example : (ctxDemo.run {}).1 = .ok () ∧ opsOf ctxDemo.final 0 = [0, 1] ∧ opsOf ctxDemo.final 1 = [] ∧ lockedIn ctxDemo.final 0 = true ∧
    lockedIn ctxDemo.final 1 = false ∧ ctxDemo.final.active = none ∧ (openCtx 1 ctxDemo.final).1.isOk = true ∧
    ((Prog.withCtx 0 .skip).run ctxDemo.final).1 = .error .circuitError := by
  decide +kernel

/-- Two classical registers, each with a bit of value 1 at position 1. -/
def badBits : Prog Int :=
  .seq (.call (.newCirc false (some 1) (some 1))) <|
  .seq (.call (.newBit (.str "a"))) <| .seq (.call (.setBit 1 true false)) <| .seq (.call (.addBit 0 (.item 1) none)) <|
  .seq (.call (.addCReg 0 1 (some (.str "d")))) <|
  .seq (.call (.newBit (.str "b"))) <| .seq (.call (.setBit 3 true false)) <| .seq (.call (.addBit 0 (.item 3) (some (.str "d")))) <|
  .call (.newCirc false none none)

/-- C25 is violated: the circuit is not locked and no context is active, but entering raises `ValueError` and leaves the context active, so
that no context at all can be entered from then on. -/
theorem C25_violated : (badBits.run {}).1 = .ok () ∧ lockedIn badBits.final 0 = false ∧ badBits.final.active = none ∧
    ((Prog.withCtx 0 .skip).run badBits.final).1 = .error .valueError ∧
    ((Prog.withCtx 0 .skip).run badBits.final).2.active.isSome = true ∧
    ((Prog.withCtx 1 .skip).run ((Prog.withCtx 0 .skip).run badBits.final).2).1 = .error .runtimeError := by
  decide +kernel

/-! ## C26 -/

/-- C26: constructors. If the constructor raises, all lists of operations stay what they are. Otherwise there is one new operation object, of the
given class and on the given qubits, and it is appended to the circuit of the active context if that is not frozen; nothing else is appended
anywhere. -/
theorem C26_construct (w : World K) (k : Nat) (ps : Option (List (OpParam K))) (args : QArgs) :
    (∀ e, (construct k ps args w).1 = .error e → ∀ c, opsOf (construct k ps args w).2 c = opsOf w c) ∧
    (∀ o, (construct k ps args w).1 = .ok o →
      (∃ op, (construct k ps args w).2.ops = w.ops ++ [op] ∧ o = w.ops.length ∧ op.cls = k ∧ op.qubits.getD [] = args.all.getD []) ∧
      (∀ c, w.target = some c → opsOf (construct k ps args w).2 c = opsOf w c ++ [o]) ∧
      (∀ c, w.target ≠ some c → opsOf (construct k ps args w).2 c = opsOf w c)) := by
  rcases construct_cases k ps args w with ⟨e, w', h1, h2⟩ | ⟨C, w', op', h1, h2, h3⟩
  · rw [h1]
    exact ⟨fun _ _ => h2, fun o ho => by (cases ho)⟩
  · rw [h2]
    refine ⟨fun e he => by (cases he), fun o ho => ?_⟩
    cases ho
    have hm := opsOf_made (n := w.ops.length) (w' := w') (w := w) (by
      have := h3.circs
      revert this
      cases w.target with
      | none => exact id
      | some c => exact fun ⟨D, b', g1, _, _, g2⟩ => ⟨D, b', g1, g2⟩)
    refine ⟨⟨op', h3.ops, rfl, h3.cls, ?_⟩, fun c hc => ?_, fun c hc => ?_⟩
    · rcases h3.given with h | ⟨h, h'⟩
      · rw [h]
      · rw [h, h']; rfl
    · rw [hm, if_pos hc]
    · rw [hm, if_neg hc]

/-- C26: the same if an existing operation is applied again, `op(qubits)`. -/
theorem C26_reapply (w : World K) (o : Nat) (args : QArgs) :
    (∀ e, (reapply o args w).1 = .error e → ∀ c, opsOf (reapply o args w).2 c = opsOf w c) ∧
    (∀ o', (reapply o args w).1 = .ok o' →
      (∃ op op', w.ops[o]? = some op ∧ (reapply o args w).2.ops = w.ops ++ [op'] ∧ o' = w.ops.length ∧ op'.cls = op.cls) ∧
      (∀ c, w.target = some c → opsOf (reapply o args w).2 c = opsOf w c ++ [o']) ∧
      (∀ c, w.target ≠ some c → opsOf (reapply o args w).2 c = opsOf w c)) := by
  rcases reapply_cases o args w with ⟨e, h1⟩ | ⟨op, C, ps, args', h1, h2, -, -, h3⟩
  · rw [h1]
    exact ⟨fun _ _ _ => rfl, fun o ho => by (cases ho)⟩
  · rw [h3]
    obtain ⟨g1, g2⟩ := C26_construct w op.cls ps args'
    refine ⟨g1, fun o' ho => ?_⟩
    obtain ⟨⟨op', k1, k2, k3, -⟩, k4, k5⟩ := g2 o' ho
    exact ⟨⟨op, op', h1, k1, k2, k3⟩, k4, k5⟩

/-- A state inside of a context. -/
def insideDemo : World Int := (openCtx 0 (Prog.final
  (.seq (.call (.newClass ⟨"X", .plain, ⟨false, some 1, none, none⟩, none⟩))
    (.seq (.call (.newCirc false (some 2) none)) (.call (.newCirc false (some 1) none)))))).2

example : insideDemo.target = some 0 ∧ (construct 0 none (.qubits (some [1])) insideDemo).1 = .ok 0 ∧
    opsOf (construct 0 none (.qubits (some [1])) insideDemo).2 0 = [0] ∧
    (construct 0 none (.qubits (some [2])) insideDemo).1 = .error .valueError ∧
    (construct 0 none (.qubits (some [0, 1])) insideDemo).1 = .error .valueError ∧ (freezeEnter insideDemo).2.target = none ∧
    (construct 0 none (.qubits (some [1])) (freezeEnter insideDemo).2).1 = .ok 0 := by
  decide +kernel

/-! ## C27 -/

/-- C27 for blocks without a nested `freeze`, and in which lists of operations are not changed directly (`append`, `extend`, `remove`, `reset`):
nothing is appended to any circuit. Circuits that are created in the block stay empty, unless they are copies made by `eval`. Missing: nested `freeze`, see
below. -/
theorem C27_freeze_partial {w w1 : World K} (hw : ∃ x X, w.active = some x ∧ w.ctxs[x]? = some X) (he : freezeEnter w = (.ok (), w1))
    {body : Prog K} (hA : body.All fun e => ¬ ChangesLists e) (hf : NoFreeze body) {w' : World K} (hv : body.Visits w1 w') (c : Nat)
    (hc : c < w.circs.length ∨ body.All fun e => ¬ CopiesCircuit e) : opsOf w' c = opsOf w c := by
  obtain ⟨x, X, h1, h2⟩ := hw
  have hlt := (List.getElem?_eq_some_iff.1 h2).1
  simp only [freezeEnter, h1, setFrozen, M.write, h2, Prod.mk.injEq, true_and] at he
  rcases hc with hc | hB
  · have hs : Still (some w.circs.length) x { X with frozen := true } (opsOf w) w1 := by
      subst he
      exact ⟨rfl, List.getElem?_set_self hlt, fun c _ => rfl, fun n hn => by cases hn; exact le_rfl⟩
    exact ((Still.inside rfl (opsOf w) body (hA.imp fun e h => ⟨h, by simp⟩) hf).2 w1 w' hs hv).2.2.1 c fun n hn => by cases hn; exact hc
  · have hs : Still none x { X with frozen := true } (opsOf w) w1 := by
      subst he
      exact ⟨rfl, List.getElem?_set_self hlt, fun c _ => rfl, fun n hn => by cases hn⟩
    exact ((Still.inside rfl (opsOf w) body ((hA.and hB).imp fun e h => ⟨h.1, fun _ => h.2⟩) hf).2 w1 w' hs hv).2.2.1 c fun n hn => by cases hn

/-- C27: after leaving `freeze` (normally or by exception) operations are appended again to the circuit of the active context, which is the
same as before. -/
theorem C27_after {w : World K} {x : Nat} {X : Ctx} (h1 : w.active = some x) (h2 : w.ctxs[x]? = some X) (body : Prog K) :
    ((Prog.withFreeze body).run w).2.target = some X.circuit := by
  have hP : ActiveIn x X.circuit w := ⟨h1, X, h2, rfl⟩
  have e : ((Prog.withFreeze body).run w) = withStmt freezeEnter body.run (fun _ => freezeExit) w := rfl
  rw [e]
  have g1 := ActiveIn.freezeEnter w hP
  have he : freezeEnter w = (.ok (), (freezeEnter w).2) := by simp [freezeEnter, h1, setFrozen, M.write]
  generalize (freezeEnter w).2 = w1 at g1 he
  have g2 := (ActiveIn.inside body).1 w1 g1
  unfold withStmt
  rw [he]
  dsimp only
  generalize (body.run w1) = z at g2
  obtain ⟨r, w2⟩ := z
  obtain ⟨k1, Y, k2, k3⟩ := g2
  dsimp only at k1 k2 ⊢
  simp only [freezeExit, k1, setFrozen, M.write, k2]
  unfold World.target
  simp only [k1]
  rw [List.getElem?_set_self (List.getElem?_eq_some_iff.1 k2).1]
  simp [k3]

/-- C27: outside of contexts `freeze` is refused. -/
theorem C27_outside {w : World K} (h : w.active = none) (body : Prog K) : (Prog.withFreeze body).run w = (.error .circuitError, w) := by
  show withStmt freezeEnter body.run (fun _ => freezeExit) w = _
  unfold withStmt freezeEnter
  simp [h]

example : (∃ x X, insideDemo.active = some x ∧ insideDemo.ctxs[x]? = some X) ∧
    NoFreeze (.attempt (.call (.construct 0 none (.qubits (some [1])))) : Prog Int) :=
  ⟨⟨0, ⟨0, false⟩, by decide +kernel, by decide +kernel⟩, trivial⟩

/-- C27 is violated: leaving the inner `freeze` ends the outer one, so that the operation is appended. -/
theorem C27_violated : opsOf insideDemo 0 = [] ∧
    opsOf ((Prog.withFreeze (.seq (.withFreeze .skip) (.call (.construct 0 none (.qubits (some [1])))))).run insideDemo).2 0 = [0] := by
  decide +kernel

end DG.Props
