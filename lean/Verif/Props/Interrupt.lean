import Verif.Proofs.InterruptOps
import Verif.Props.Circuit

/-!
# Property C93: interrupts

`p.Exec I J w r w'`: executing the program `p` in state `w` can end with outcome `r` (`done`, `raised e` or `interrupted`) in state `w'`; any number of
interrupts can happen between any two calls, in the middle of the calls in `I`, and in the middle of `__enter__` and `__exit__` if `J`. `ReachI A I J w`: `w`
occurs in such an execution of a program with calls in `A`, started without any objects.
-/

namespace DG.Props
open Spec
variable {K : Type} [DecidableEq K] [Zero K]

private theorem kept {A I : Call K → Prop} (hI : ∀ e, I e → ¬ e.Adds) {s u : Bool} (hu : u = true → s = true) (hA : ∀ e, A e → e.Keeps s u) {J : Bool} {w : World K}
    (h : ReachI A I J w) : QInv s u w := by
  obtain ⟨p, r, hp, he⟩ := h
  exact QInv.interrupted hu hI he (hp.imp hA) ⟨by simp, by simp⟩

private theorem keptRefs {A I : Call K → Prop} {J : Bool} {w : World K} (h : ReachI A I J w) : Refs w := by
  obtain ⟨p, r, -, he⟩ := h
  exact Refs.empty.interrupted he

private theorem keptBits {A I : Call K → Prop} (hI : ∀ e, I e → ¬ e.Adds) {s : Bool} (hA : ∀ e, A e → e.NoBits s) {J : Bool} {w : World K}
    (h : ReachI A I J w) : CInv s w := by
  obtain ⟨p, r, hp, he⟩ := h
  exact CInv.interrupted hI he (hp.imp hA) ⟨by simp, by simp⟩

/-! ## Contexts -/

/-- C93 for programs that set no bits and in which neither `__enter__`, `__exit__` nor a call that adds qubits or bits is interrupted in the middle: wherever the
other calls are interrupted, and whatever the program does about it, when the program has ended no context is active, and every circuit that is not locked can be
opened. Missing: interrupts in those methods, see below, and set bits, see C25. -/
theorem C93_contexts_partial {A I : Call K → Prop} (hI : ∀ e, I e → ¬ e.Adds) (hA : ∀ e, A e → SetsNoBit e) {p : Prog K} (hp : p.All A) {r : Outcome}
    {w : World K} (he : p.Exec I false {} r w) :
    w.active = none ∧ ∀ c < w.circs.length, lockedIn w c = false → ∃ x w1, openCtx c w = (.ok x, w1) := by
  have hq := kept hI (s := false) (u := false) (by simp) (fun e _ => by cases e <;> simp [Call.Keeps]) ⟨p, r, hp, he⟩
  have hc := keptBits hI (s := false) (fun e h => noBits_false e (hA e h)) ⟨p, r, hp, he⟩
  have ha := he.outside hI (hp.imp hA) Refs.empty ⟨by simp, by simp⟩ ⟨by simp, by simp⟩ rfl
  refine ⟨ha, fun c hlt hl => ?_⟩
  obtain ⟨C, hC⟩ : ∃ C, w.circs[c]? = some C := ⟨_, List.getElem?_eq_getElem hlt⟩
  have hl' : C.locked = false := by unfold lockedIn at hl; rw [hC] at hl; exact hl
  refine openCtx_ok (Refs.empty.interrupted he) hC hl' ha ?_ ?_
  · obtain ⟨L, h1, -⟩ := hq.bank C (mem_of_get? hC)
    obtain ⟨r, b', g1, -⟩ := Bank.flat_ok inert_qubitEnv h1
    exact ⟨r, by rw [g1]⟩
  · obtain ⟨L, h1, -⟩ := hc.bank C (mem_of_get? hC)
    obtain ⟨r, b', g1, -⟩ := Bank.flat_ok (inert_bitEnv hc.unset) h1
    exact ⟨r, by rw [g1]⟩

/-- C93: a block that is interrupted anywhere, in any call, is left as it should be, if `__exit__` itself is not interrupted: no context is active and the circuit is
locked. -/
theorem C93_block {A I : Call K → Prop} {J : Bool} {w : World K} (h : ReachI A I J w) {c x : Nat} {w1 : World K} (ho : openCtx c w = (.ok x, w1))
    {body : Prog K} {r : Outcome} {w2 : World K} (hb : body.Exec I J w1 r w2) :
    w2.active = some x ∧ ∃ w', exitCtx x w2 = (.ok (), w') ∧ (Prog.withCtx c body).Exec I J w r w' ∧ w'.active = none ∧ lockedIn w' c = true := by
  rcases hx : exitCtx x w2 with ⟨a, w'⟩
  obtain ⟨rfl, h1, -, h2⟩ := block_left (keptRefs h) ho hb hx
  exact ⟨(ActiveIn.exec hb (openCtx_inv (keptRefs h) ho)).1, w', rfl, .block c x body w w1 w2 w' r ho hb hx, h1, h2⟩

/-! ## Registers and operations -/

/-- C93 for programs in which no call that adds qubits is interrupted in the middle: in every state no qubit is in a circuit twice, and `circuit.qubits` shows the
registers, unless registers have been dropped and there are none. Missing: interrupts in calls that add qubits, see below. -/
theorem C93_qubits_partial {A I : Call K → Prop} (hI : ∀ e, I e → ¬ e.Adds) {J : Bool} {w : World K} (h : ReachI A I J w) {c : Nat} {C : Circ}
    (hC : w.circs[c]? = some C) :
    ∃ L, Shows C.q L ∧ L.items.Nodup ∧ (((∀ e, A e → KeepsRegisters e) ∨ L ≠ []) →
      seen (qubitsOf c w).1 = .ok (L.items.map Lbl.obj) ∧ count (qubitsOf c w).1 = .ok L.items.length) := by
  have hq := kept hI (s := false) (u := false) (by simp) (fun e _ => by cases e <;> simp [Call.Keeps]) h
  obtain ⟨L, h1, h2, -⟩ := hq.bank C (mem_of_get? hC)
  refine ⟨L, h1.shows, h1.nodup, ?_⟩
  rintro (hA | hL)
  · obtain ⟨L', g1, g2, -⟩ := (kept hI (s := true) (u := false) (by simp) (fun e he => keeps_true_false e (hA e he)) h).bank C (mem_of_get? hC)
    rw [Bank.shows_unique h1.shows g1.shows]
    exact seen_qubits hC g1 (g2 (.inl rfl))
  · exact seen_qubits hC h1 (h2 (.inr hL))

/-- The same for bits, if no bit is set. -/
theorem C93_bits_partial {A I : Call K → Prop} (hI : ∀ e, I e → ¬ e.Adds) (hA : ∀ e, A e → SetsNoBit e) {J : Bool} {w : World K} (h : ReachI A I J w) {c : Nat}
    {C : Circ} (hC : w.circs[c]? = some C) :
    ∃ L, Shows C.c L ∧ L.items.Nodup ∧ (((∀ e, A e → KeepsRegisters e) ∨ L ≠ []) →
      seen (bitsOf c w).1 = .ok (L.items.map Lbl.obj) ∧ count (bitsOf c w).1 = .ok L.items.length) := by
  have hq := keptBits hI (s := false) (fun e h => noBits_false e (hA e h)) h
  obtain ⟨L, h1, h2, -⟩ := hq.bank C (mem_of_get? hC)
  refine ⟨L, h1.shows, h1.nodup, ?_⟩
  rintro (hA' | hL)
  · obtain ⟨L', g1, g2, -⟩ := (keptBits hI (s := true) (fun e he => noBits_true e ⟨hA e he, hA' e he⟩) h).bank C (mem_of_get? hC)
    rw [Bank.shows_unique h1.shows g1.shows]
    exact seen_bits hC (inert_bitEnv hq.unset) g1 (g2 (.inl rfl))
  · exact seen_bits hC (inert_bitEnv hq.unset) h1 (h2 (.inr hL))

/-- C93, with C24's restrictions: the operations of a circuit exist and act on its qubits. -/
theorem C93_operations_partial {A I : Call K → Prop} (hI : ∀ e, I e → ¬ e.Adds) (hA : ∀ e, A e → KeepsRegisters e ∧ KeepsOperands e) {J : Bool} {w : World K}
    (h : ReachI A I J w) {c : Nat} {C : Circ} (hC : w.circs[c]? = some C) :
    ∃ items, seen (qubitsOf c w).1 = .ok items ∧
      ∀ o ∈ opsOf w c, ∃ op, w.ops[o]? = some op ∧ ∀ q ∈ op.qubits.getD [], Lbl.obj q ∈ items := by
  have hi := kept hI (s := true) (u := true) (by simp) (fun e he => keeps_true_true e (hA e he)) h
  obtain ⟨L, h1, h2, -, h4, -⟩ := hi.bank C (mem_of_get? hC)
  refine ⟨_, (seen_qubits hC h1 (h2 (.inl rfl))).1, ?_⟩
  intro o ho
  rw [opsOf_of_get hC] at ho
  have hlt := hi.ops rfl C (mem_of_get? hC) o ho
  refine ⟨_, List.getElem?_eq_getElem hlt, fun q hq => ?_⟩
  refine List.mem_map_of_mem (h4 q ?_)
  simp only [World.usedIf, if_true, World.used, List.mem_flatMap]
  exact ⟨o, ho, by rw [List.getElem?_eq_getElem hlt]; exact hq⟩

/-- C93: a call that is interrupted has appended a first part of the operations that it would have appended, to every circuit, in every state. -/
theorem C93_progress {e : Call K} (ha : e.Appends) {I : Call K → Prop} {J : Bool} {w w' : World K} (he : (Prog.call e).Exec I J w .interrupted w') (c : Nat) :
    opsOf w c <+: opsOf w' c ∧ opsOf w' c <+: opsOf (execCall e w).2 c := by
  have hg := grows_exec e ha w
  rw [execSteps_run] at hg
  generalize hp : Prog.call e = p at he
  generalize hr : Outcome.interrupted = r at he
  cases he with
  | now => exact ⟨List.prefix_rfl, hg.1 c⟩
  | late _ _ _ hd =>
    generalize hr' : Outcome.done = r' at hd
    cases hd with
    | call => cases hp; exact ⟨hg.1 c, List.prefix_rfl⟩
    | now => cases hr'
    | late => cases hr'
    | callCut => cases hr'
    | _ => cases hp
  | call e' =>
    cases hp
    rcases hx : (execCall e w).1 with _ | _ <;> rw [hx] at hr <;> cases hr
  | callCut _ _ _ _ h => cases hp; exact ⟨(hg.2 w' h).1 c, (hg.2 w' h).2 c⟩
  | _ => cases hp

/-! ## Violations -/

private theorem stuck {x c : Nat} {w : World K} (h : ActiveIn x c w) {I : Call K → Prop} {J : Bool} {q : Prog K} {r : Outcome} {w' : World K}
    (he : q.Exec I J w r w') : w'.active = some x ∧ ∀ c', ∃ e w'', openCtx c' w' = (.error e, w'') := by
  have h1 := (ActiveIn.exec he h).1
  refine ⟨h1, fun c' => ?_⟩
  obtain ⟨e, h2⟩ := openCtx_refused c' (w := w') (by rw [h1]; rfl)
  exact ⟨e, _, h2⟩

/-- C93 is violated in `__exit__`, for every block: if it is interrupted before it has removed the context, then the context stays active whatever is executed
afterwards, and no circuit can be opened any more. -/
theorem C93_exit_violated {A I : Call K → Prop} {w : World K} (h : ReachI A I true w) {c x : Nat} {w1 : World K} (ho : openCtx c w = (.ok x, w1))
    {body : Prog K} {r : Outcome} {w2 : World K} (hb : body.Exec I true w1 r w2) :
    (Prog.withCtx c body).Exec I true w .interrupted w2 ∧
    ∀ (q : Prog K) (r' : Outcome) (w3 : World K), q.Exec I true w2 r' w3 → w3.active = some x ∧ ∀ c', ∃ e w4, openCtx c' w3 = (.error e, w4) := by
  refine ⟨.exitCut c x body w w1 w2 w2 r rfl ho hb ?_, fun q r' w3 he => stuck (ActiveIn.exec hb (openCtx_inv (keptRefs h) ho)) he⟩
  unfold exitSteps
  rw [Steps.cut_bind_eq]
  exact List.mem_append_left _ (List.mem_singleton.2 rfl)

/-- C93 is violated in `__enter__`, for every context that can be entered: if it is interrupted after it has stored the context, then the block is not executed and the
context stays active for ever. -/
theorem C93_enter_violated {A I : Call K → Prop} {w : World K} (h : ReachI A I true w) {c x : Nat} {w1 : World K} (ho : openCtx c w = (.ok x, w1)) (body : Prog K) :
    ∃ w2, (Prog.withCtx c body).Exec I true w .interrupted w2 ∧
    ∀ (q : Prog K) (r' : Outcome) (w3 : World K), q.Exec I true w2 r' w3 → w3.active = some x ∧ ∀ c', ∃ e w4, openCtx c' w3 = (.error e, w4) := by
  obtain ⟨w2, h1, h2⟩ := open_cut (keptRefs h) ho
  exact ⟨w2, .enterCut c body w w2 rfl h1, fun q r' w3 he => stuck h2 he⟩

/-- C93 is violated in `freeze`: if it is interrupted when it has frozen the context, then the context stays frozen after the block. -/
theorem C93_freeze_violated {I : Call K → Prop} {w w1 : World K} (h : freezeEnter w = (.ok (), w1)) (body : Prog K) :
    (Prog.withFreeze body).Exec I true w .interrupted w1 ∧ w1.target = none := by
  refine ⟨.freezeCut body w w1 rfl h, ?_⟩
  unfold freezeEnter at h
  cases ha : w.active with
  | none => rw [ha] at h; cases h
  | some x =>
    rw [ha] at h
    dsimp only [setFrozen, M.write] at h
    cases h
    unfold World.target
    cases hx : w.ctxs[x]? with
    | none => simp [ha, hx]
    | some X => simp [ha, hx, List.getElem?_set_self (List.getElem?_eq_some_iff.1 hx).1]

/-- C93 is violated in `add_qubit`, for every qubit that is not in the circuit yet: if the call is interrupted before its last statement, then the registers contain the
qubit but `circuit.qubits` still shows the old ones, and `append` refuses operations on the qubit. -/
theorem C93_stale_violated {A I : Call K → Prop} (hI : ∀ e, I e → ¬ e.Adds) {J : Bool} {w : World K} (h : ReachI A I J w) {c : Nat} {C : Circ}
    (hC : w.circs[c]? = some C) {L : Layout} (hL : Shows C.q L) {q : Nat} (hq : q < w.qubits.length) (hn : q ∉ L.items) (label : Option RLabel) (I' : Call K → Prop)
    (hI' : I' (.addQubit c (.item q) label)) :
    ∃ w' C' L', (Prog.call (.addQubit c (.item q) label)).Exec I' J w .interrupted w' ∧ w'.circs[c]? = some C' ∧ Shows C'.q L' ∧ q ∈ L'.items ∧
      seen (qubitsOf c w').1 = .ok (L.items.map Lbl.obj) ∧
      ∀ o op k, w'.ops[o]? = some op → w'.classes[op.cls]? = some k → q ∈ op.qubits.getD [] → C'.locked = false → (appendOp c o w').1 = .error .valueError := by
  obtain ⟨L0, h1, h2, h3, -⟩ := (kept hI (s := false) (u := false) (by simp) (fun e _ => by cases e <;> simp [Call.Keeps]) h).bank C (mem_of_get? hC)
  cases Bank.shows_unique h1.shows hL
  obtain ⟨b, r, g1, g2, g3, g4⟩ := addItem_stale inert_qubitEnv h1 (fun hL => h2 (.inr hL)) "qreg" q label w.qubits.length h3 hn []
  have hlt := (List.getElem?_eq_some_iff.1 hC).1
  have hC' : (w.setCirc c { C with q := b }).circs[c]? = some { C with q := b } := by simp [World.setCirc, List.getElem?_set_self hlt]
  obtain ⟨r', k1, k2, -⟩ := qubitsOf_eq hC' g4
  have hr : r' = r := by
    rcases k2 with k2 | k2
    · rw [g2] at k2; cases k2
    · rw [g2] at k2; cases k2; rfl
  subst hr
  have hE : (Prog.call (.addQubit c (.item q) label)).Exec I' J w .interrupted (w.setCirc c { C with q := b }) := by
    refine .callCut _ w _ hI' ?_
    change _ ∈ (addQubitSteps c (.item q) label).cut w
    unfold addQubitSteps onQ
    dsimp only
    rw [hC, List.getElem?_eq_getElem hq]
    refine List.mem_cons_of_mem _ (List.mem_map.2 ⟨(b, []), g1, ?_⟩)
    simp [World.setCirc]
  refine ⟨_, _, _, hE, hC', g4.shows, ?_, ?_, ?_⟩
  · obtain ⟨P, S, -, e⟩ := Bank.addTo_items (by have := g4.labels; rwa [Bank.addTo_labels] at this) (Bank.withRegister_mem L "qreg" label) q
    rw [e]; simp
  · rw [k1]; exact g3.iter_eq
  · generalize w.setCirc c { C with q := b } = W at hC' k1
    intro o op k hop hk hm hl
    rcases appendOp_known hC' hop hk hl with ⟨-, ps, a⟩ | ⟨-, a⟩
    · rw [a]
    · have hlt := (List.getElem?_eq_some_iff.1 hop).1
      have hq := qubitsOf_ops (ops := W.ops.set o { op with params := appendedParams W { C with q := b } (some k) op }) k1
      rcases appendTail_known (W := { W with ops := W.ops.set o { op with params := appendedParams W { C with q := b } (some k) op } }) (c := c) (o := o) hC'
        (List.getElem?_set_self hlt) hq g3 with ⟨-, w', b2, -⟩ | ⟨b1, -⟩
      · rw [a, b2]
      · have := b1 q hm
        simp only [List.mem_map, Lbl.obj.injEq, exists_eq_right] at this
        exact absurd this hn

/-- A circuit with two registers of one qubit, another qubit, and a class of operations. -/
def cutDemo : Prog Int :=
  .seq (.call (.newClass ⟨"X", .plain, ⟨false, some 1, none, none⟩, none⟩)) <|
  .seq (.call (.newCirc false (some 1) none)) <|
  .seq (.call (.addQReg 0 1 (some (.str "b")))) <| .call (.newQubit (.str "a"))

/-- The hypotheses of `C93_stale_violated` are met by `cutDemo` and its last qubit. -/
example : ReachI (fun _ => True) (fun _ => False) false cutDemo.final ∧ (∃ C, cutDemo.final.circs[0]? = some C ∧ Shows C.q [(.str "qreg0", [0]), (.str "b", [1])]) ∧
    2 < cutDemo.final.qubits.length ∧ lockedIn cutDemo.final 0 = false := by
  refine ⟨⟨cutDemo, .done, .of _, ?_⟩, shows_circ Circ.q (by decide +kernel), by decide +kernel, by decide +kernel⟩
  exact .seq _ _ _ _ _ _ (.call _ _) (.seq _ _ _ _ _ _ (.call _ _) (.seq _ _ _ _ _ _ (.call _ _) (.call _ _)))

private theorem last_mem {α : Type} {l : List α} (h : l.isEmpty = false) (d : α) : l.getLastD d ∈ l := by
  cases l with
  | nil => cases h
  | cons a l => simp [List.getLastD_cons, List.getLastD_eq_getLast?, List.getLast?_eq_some_getLast]

/-- The state of `cutDemo` after `circuit.add_qubit(a)` interrupted in front of its last statement. -/
def stale : World Int := ((execSteps (.addQubit 0 (.item 2) none)).cut cutDemo.final).getLastD {}

/-- C93 is violated: after that interrupt the same qubit is accepted a second time, into another register; then `circuit.qubits` raises `ValueError`, and
opening the circuit fails with the context left active, so that no other circuit can be opened either. -/
theorem C93_twice_violated :
    (Prog.call (.addQubit 0 (.item 2) none)).Exec (fun _ => True) false cutDemo.final .interrupted stale ∧
    (addQubit 0 (.item 2) (some (.str "b")) stale).1 = .ok () ∧
    (∃ C, (addQubit 0 (.item 2) (some (.str "b")) stale).2.circs[0]? = some C ∧ Shows C.q [(.str "qreg0", [0, 2]), (.str "b", [1, 2])]) ∧
    seen (qubitsOf 0 (addQubit 0 (.item 2) (some (.str "b")) stale).2).1 = .error .valueError ∧
    (openCtx 0 (addQubit 0 (.item 2) (some (.str "b")) stale).2).1 = .error .valueError ∧
    (openCtx 0 (addQubit 0 (.item 2) (some (.str "b")) stale).2).2.active = some 0 := by
  refine ⟨.callCut _ _ _ trivial (last_mem (by decide +kernel) _), by decide +kernel, shows_circ Circ.q (by decide +kernel), by decide +kernel, by decide +kernel,
    by decide +kernel⟩

/-- A block in which one operation is constructed. -/
def cutBlock : Prog Int := .withCtx 0 (.call (.construct 0 none (.qubits (some [0]))))

/-- The hypotheses of the other theorems are met: the block can be entered, the constructor can be interrupted in the middle (the operation exists and is not appended), and
the block is left with the circuit locked. -/
example : ∃ w w', ReachI (fun _ => True) (fun e => ¬ e.Adds) false w ∧ cutBlock.Exec (fun e => ¬ e.Adds) false cutDemo.final .interrupted w' ∧
    w = w' ∧ w'.ops.length = 1 ∧ opsOf w' 0 = [] ∧ w'.active = none ∧ lockedIn w' 0 = true := by
  have hd : cutDemo.Exec (fun e => ¬ e.Adds) false {} .done cutDemo.final := .seq _ _ _ _ _ _ (.call _ _) (.seq _ _ _ _ _ _ (.call _ _) (.seq _ _ _ _ _ _ (.call _ _) (.call _ _)))
  obtain ⟨w1, ho⟩ : ∃ w1, openCtx 0 cutDemo.final = (.ok 0, w1) := ⟨_, Prod.ext (by decide +kernel) rfl⟩
  have hw1 : w1 = (openCtx 0 cutDemo.final).2 := by rw [ho]
  have hb : (Prog.call (.construct 0 none (.qubits (some [0])))).Exec (fun e => ¬ e.Adds) false w1 .interrupted
      (((execSteps (.construct 0 none (.qubits (some [0])))).cut w1).getLastD {}) :=
    .callCut _ _ _ (by simp [Call.Adds]) (last_mem (by rw [hw1]; decide +kernel) _)
  obtain ⟨-, w', h1, h2, h3, h4⟩ := C93_block (A := fun _ => True) ⟨cutDemo, .done, .of _, hd⟩ ho hb
  refine ⟨w', w', ⟨.seq cutDemo cutBlock, .interrupted, .of _, .seq _ _ _ _ _ _ hd h2⟩, h2, rfl, ?_, ?_, h3, h4⟩
  · have : w' = (exitCtx 0 (((execSteps (.construct 0 none (.qubits (some [0])))).cut w1).getLastD {})).2 := by rw [h1]
    rw [this, hw1]; decide +kernel
  · have : w' = (exitCtx 0 (((execSteps (.construct 0 none (.qubits (some [0])))).cut w1).getLastD {})).2 := by rw [h1]
    rw [this, hw1]; decide +kernel

end DG.Props
