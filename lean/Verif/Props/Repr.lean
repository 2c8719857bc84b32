import Verif.Proofs.Repr
import Verif.Spec.Repr
import Verif.Props.Circuit
import Verif.Props.Contexts
import Verif.Props.Ids

/-!
# Property C116: printed texts tell what the object is
-/

namespace DG
open Spec
variable {K : Type}

theorem reprCircuit_eq {w : World K} {c : Nat} {C : Circ} (hC : w.circs[c]? = some C) {a b : Nat} (ha : count (qubitsOf c w).1 = .ok a)
    (hb : count (bitsOf c w).1 = .ok b) :
    (reprCircuit c w).1 = .ok (circuitText (if C.param then "ParametricCircuit" else "Circuit") a b C.ops.length) ∧
    ∃ C', (reprCircuit c w).2.circs[c]? = some C' ∧ C'.ops = C.ops ∧ C'.q.regs = C.q.regs ∧ C'.c.regs = C.c.regs := by
  have hq : qubitsOf c w = ((C.q.flat qubitEnv).1, w.setCirc c { C with q := (C.q.flat qubitEnv).2 }) := by unfold qubitsOf; rw [hC]
  have hb' : ∀ w' C', w'.circs[c]? = some C' →
      bitsOf c w' = ((C'.c.flat w'.bitEnv).1, (w'.setCirc c { C' with c := (C'.c.flat w'.bitEnv).2 } : World K)) := by
    intro w' C' h; unfold bitsOf; rw [h]
  rw [hb' w C hC] at hb
  rw [hq] at ha
  have h1 := setCirc_get (C' := { C with q := (C.q.flat qubitEnv).2 }) hC
  have h2 := hb' _ _ h1
  have h3 := setCirc_get (C' := { C with q := (C.q.flat qubitEnv).2, c := (C.c.flat w.bitEnv).2 }) h1
  have ev : (w.setCirc c { C with q := (C.q.flat qubitEnv).2 }).bitEnv = w.bitEnv := rfl
  have r1 := flat_regs qubitEnv C.q
  have r2 := flat_regs w.bitEnv C.c
  rw [ev] at h2
  unfold reprCircuit
  simp only [bind, M.bind, hq]
  cases e1 : (C.q.flat qubitEnv).1 with
  | error e => rw [e1] at ha; cases ha
  | ok r =>
    rw [e1] at ha
    simp only [h2]
    cases e2 : (C.c.flat w.bitEnv).1 with
    | error e => simp only [e2] at hb; cases hb
    | ok s =>
      simp only [e2] at hb
      simp only [h3]
      have ea : r.cy.stop = a := by simpa [count] using ha
      have eb : s.cy.stop = b := by simpa [count] using hb
      exact ⟨by simp only [ea, eb], _, rfl, rfl, r1, r2⟩

end DG

namespace DG.Props
open Spec
variable {K : Type} [DecidableEq K] [Zero K]

/-! ## Circuits -/

/-- C116 for circuits, for programs that set no bit and for circuits with registers or programs that never call
`reset(keep_registers=False)`: the text shows the numbers of qubits, of bits and of operations. Printing keeps registers and operations. -/
theorem C116_circuit_partial {A : Call K → Prop} (hA : ∀ e, A e → SetsNoBit e) {w : World K} (h : Reach A w) {c : Nat} {C : Circ}
    (hC : w.circs[c]? = some C) :
    ∃ Q B, Shows C.q Q ∧ Shows C.c B ∧ (((∀ e, A e → KeepsRegisters e) ∨ (Q ≠ [] ∧ B ≠ [])) →
      (reprCircuit c w).1 =
        .ok (circuitText (if C.param then "ParametricCircuit" else "Circuit") Q.items.length B.items.length C.ops.length) ∧
      ∃ C', (reprCircuit c w).2.circs[c]? = some C' ∧ C'.ops = C.ops ∧ Shows C'.q Q ∧ Shows C'.c B) := by
  obtain ⟨Q, q1, q2⟩ := C18_qubits_partial h hC
  obtain ⟨B, b1, b2⟩ := C18_bits_partial hA h hC
  refine ⟨Q, B, q1, b1, fun hyp => ?_⟩
  obtain ⟨t, C', t1, t2, t3, t4⟩ := reprCircuit_eq hC (q2 (hyp.imp id (·.1))).2 (b2 (hyp.imp id (·.2))).2
  refine ⟨t, C', t1, t2, ?_, ?_⟩
  · unfold Shows; rw [t3]; exact q1
  · unfold Shows; rw [t4]; exact b1

/-- The text of a circuit determines the numbers (and the class). -/
theorem C116_circuit_reads {s t : String} {q b o q' b' o' : Nat} (hs : Avoids [':'] s) (ht : Avoids [':'] t)
    (h : circuitText s q b o = circuitText t q' b' o') : s = t ∧ q = q' ∧ b = b' ∧ o = o' :=
  circuitText_inj (hs ':' (by simp)) (ht ':' (by simp)) h

example : (reprCircuit 0 circDemo.final).1 = .ok "<Circuit: qubits=4, bits=1, ops=1>" := by decide +kernel

example : Reach (K := Int) (fun e => KeepsRegisters e ∧ KeepsOperands e ∧ SetsNoBit e) circDemo.final := circDemo_reach

/-- C116 is violated: a circuit with set bits cannot be printed, and after `reset(keep_registers=False)` old qubits are counted. -/
theorem C116_circuit_violated : (reprCircuit 0 badBits.final).1 = .error .valueError ∧
    (∃ C, dropDemo.final.circs[0]? = some C ∧ Shows C.q []) ∧
    (reprCircuit 0 dropDemo.final).1 = .ok "<Circuit: qubits=1, bits=0, ops=0>" :=
  ⟨by decide +kernel, C18_qubits_violated.1, by decide +kernel⟩

/-! ## Qubits and bits -/

/-- C116 for qubits: the text determines the label as printed and the id. -/
theorem C116_qubit {l l' i i' : String} (hi : Avoids [' '] i) (hi' : Avoids [' '] i') (h : reprQubit l i = reprQubit l' i') : l = l' ∧ i = i' :=
  reprQubit_inj (hi ' ' (by simp)) (hi' ' ' (by simp)) h

/-- C116 for bits: the text determines the label as printed, the id and the value. -/
theorem C116_bit {l l' i i' : String} {v v' : Option Int} (hi : Avoids [' '] i) (hi' : Avoids [' '] i') (h : reprBit l i v = reprBit l' i' v') :
    l = l' ∧ i = i' ∧ v = v' :=
  reprBit_inj (hi ' ' (by simp)) (hi' ' ' (by simp)) h

open IdCounter in
/-- Ids contain no spaces and no `>`. -/
theorem C116_ids (length batch : Option Nat) (picks : List Nat) (i : Nat) (x : List Char) :
    (draws alphanum picks (reset alphanum length batch)).1[i]? = some (.ok x) → Avoids [' ', '>'] (String.ofList x) := by
  intro h
  obtain ⟨h1, h2⟩ := reset_inv alphanum length batch
  have hp := (draws_inv alphanum_nodup.1 picks h1 h2).1.perm
  have hm : ∀ (l : List (Except Err (List Char))), Except.ok x ∈ l → x ∈ oks l := by
    intro l
    induction l with
    | nil => simp
    | cons a l ih => cases a <;> simp [oks] <;> grind
  have hx := hm _ (List.mem_of_getElem? h)
  have hs := (mem_allIds.1 ((hp.mem_iff (a := x)).1 (by simp [hx]))).1
  have ha : ∀ c ∈ [' ', '>'], c ∉ alphanum := by decide +kernel
  intro c hc hcx
  exact ha c hc (hs.subset (by simpa using hcx))

/-! ## Variables -/

/-- C116 for variables: a variable without value prints its name in braces, one with a value other than zero its value. -/
theorem C116_variable_partial (num : K → String) (v : VarObj K) : (v.value = none → reprVar num v = "{" ++ v.name ++ "}") ∧
    ∀ x, v.value = some x → x ≠ 0 → reprVar num v = num x := by
  refine ⟨fun h => by simp [reprVar, h], fun x h hx => by simp [reprVar, h, hx]⟩

/-- C116 is violated: a variable with value zero prints like one without value. -/
theorem C116_variable_violated (num : K → String) (name : String) : reprVar num ⟨name, some 0⟩ = reprVar num ⟨name, none⟩ := by
  simp [reprVar]

/-! ## Operations -/

omit [DecidableEq K] [Zero K] in
theorem qubitText_inj' {T : Texts K} {w : World K} (hT : Legible T w) : ∀ {l l' : List Nat}, (∀ q ∈ l, q < w.qubits.length) →
    (∀ q ∈ l', q < w.qubits.length) → l.map (w.qubitText T) = l'.map (w.qubitText T) → l = l'
  | [], [], _, _, _ => rfl
  | [], _ :: _, _, _, h => by simp at h
  | _ :: _, [], _, _, h => by simp at h
  | q :: l, q' :: l', h1, h2, h => by
    simp only [List.map_cons, List.cons.injEq] at h
    rw [qubitText_inj' hT (fun x hx => h1 x (List.mem_cons_of_mem _ hx)) (fun x hx => h2 x (List.mem_cons_of_mem _ hx)) h.2]
    have e := h.1
    unfold World.qubitText at e
    rw [List.getElem?_eq_getElem (h1 q (by simp)), List.getElem?_eq_getElem (h2 q' (by simp))] at e
    rw [hT.qubitId_inj (reprQubit_inj (hT.qubitId q ' ' (by simp)) (hT.qubitId q' ' ' (by simp)) e).2]

omit [DecidableEq K] [Zero K] in
theorem bitText_inj' {T : Texts K} {w : World K} (hT : Legible T w) : ∀ {l l' : List Nat}, (∀ q ∈ l, q < w.bits.length) →
    (∀ q ∈ l', q < w.bits.length) → l.map (w.bitText T) = l'.map (w.bitText T) → l = l'
  | [], [], _, _, _ => rfl
  | [], _ :: _, _, _, h => by simp at h
  | _ :: _, [], _, _, h => by simp at h
  | q :: l, q' :: l', h1, h2, h => by
    simp only [List.map_cons, List.cons.injEq] at h
    rw [bitText_inj' hT (fun x hx => h1 x (List.mem_cons_of_mem _ hx)) (fun x hx => h2 x (List.mem_cons_of_mem _ hx)) h.2]
    have e := h.1
    unfold World.bitText at e
    rw [List.getElem?_eq_getElem (h1 q (by simp)), List.getElem?_eq_getElem (h2 q' (by simp))] at e
    rw [hT.bitId_inj (reprBit_inj (hT.bitId q ' ' (by simp)) (hT.bitId q' ' ' (by simp)) e).2.1]

omit [DecidableEq K] [Zero K] in
theorem angle_qubits {T : Texts K} {w : World K} (hT : Legible T w) {o : Option (List Nat)} (ho : ∀ l, o = some l → ∀ q ∈ l, q < w.qubits.length) :
    ∀ l, o.map (fun l => l.map (w.qubitText T)) = some l → ∀ x ∈ l, Angle x := by
  intro l hl x hx
  obtain ⟨m, rfl, rfl⟩ := Option.map_eq_some_iff.1 hl
  obtain ⟨q, hq, rfl⟩ := List.mem_map.1 hx
  unfold World.qubitText
  rw [List.getElem?_eq_getElem (ho m rfl q hq)]
  exact angle_qubit (hT.qubitLabel _ (List.getElem_mem _) '>' (by simp)) (hT.qubitId q '>' (by simp))

omit [DecidableEq K] [Zero K] in
theorem angle_bits {T : Texts K} {w : World K} (hT : Legible T w) {o : Option (List Nat)} (ho : ∀ l, o = some l → ∀ q ∈ l, q < w.bits.length) :
    ∀ l, o.map (fun l => l.map (w.bitText T)) = some l → ∀ x ∈ l, Angle x := by
  intro l hl x hx
  obtain ⟨m, rfl, rfl⟩ := Option.map_eq_some_iff.1 hl
  obtain ⟨q, hq, rfl⟩ := List.mem_map.1 hx
  unfold World.bitText
  rw [List.getElem?_eq_getElem (ho m rfl q hq)]
  exact angle_bit (hT.bitLabel _ (List.getElem_mem _) '>' (by simp)) (hT.bitId q '>' (by simp))

theorem param_free {T : Texts K} {w : World K} (hT : Legible T w) {op : OpObj K} (hr : Refers w op) {k : Bool} :
    ∀ l, (if k then some (op.params.map (w.paramText T)) else none) = some l → ∀ x ∈ l, Free ',' x ∧ Free '=' x ∧ x ≠ "" := by
  intro l hl x hx
  cases k with
  | false => simp at hl
  | true =>
    simp only [if_true, Option.some.injEq] at hl
    subst hl
    obtain ⟨p, hp, rfl⟩ := List.mem_map.1 hx
    have hn : ∀ y, Free ',' (T.num y) ∧ Free '=' (T.num y) ∧ T.num y ≠ "" := fun y =>
      ⟨(hT.num y).2 ',' (by simp), (hT.num y).2 '=' (by simp), (hT.num y).1⟩
    cases p with
    | num y => exact hn y
    | var v =>
      have hv := hr.vars v hp
      simp only [World.paramText]
      rw [List.getElem?_eq_getElem hv]
      have hb : Free ',' ("{" ++ w.vars[v].name ++ "}") ∧ Free '=' ("{" ++ w.vars[v].name ++ "}") ∧ "{" ++ w.vars[v].name ++ "}" ≠ "" := by
        have := hT.var _ (List.getElem_mem hv)
        refine ⟨?_, ?_, ?_⟩
        · have := this ',' (by simp); simp [Free, this]
        · have := this '=' (by simp); simp [Free, this]
        · intro e; have := congrArg String.toList e; simp at this
      simp only [reprVar]
      split
      · split
        · exact hb
        · exact hn _
      · exact hb

/-- C116 for operations other than measurements: the text determines the name of the class, the kind of operation, the parameters as printed,
the qubits and the bits of the condition. -/
theorem C116_operation {T : Texts K} {w : World K} (hT : Legible T w) {o o' : Nat} {op op' : OpObj K} {k k' : OpCls} (ho : w.ops[o]? = some op)
    (ho' : w.ops[o']? = some op') (hk : w.classes[op.cls]? = some k) (hk' : w.classes[op'.cls]? = some k') (hr : Refers w op) (hr' : Refers w op')
    (hm : k.kind ≠ .measurement) (hm' : k'.kind ≠ .measurement) (h : w.opText T o = w.opText T o') :
    k.name = k'.name ∧ k.kind = k'.kind ∧ op.qubits = op'.qubits ∧ condBits op = condBits op' ∧
    (k.kind.isParametric = true → op.params.map (w.paramText T) = op'.params.map (w.paramText T)) := by
  unfold World.opText at h
  simp only [ho, ho', hk, hk', if_neg hm, if_neg hm'] at h
  have fb : ∀ c ∈ [':', '='], ∀ k : OpKind, Free c k.baseName := by
    intro c hc k
    simp only [List.mem_cons, List.not_mem_nil, or_false] at hc
    rcases hc with rfl | rfl <;> cases k <;> simp [Free, OpKind.baseName]
  have cl := hT.cls k (List.mem_of_getElem? hk)
  have cl' := hT.cls k' (List.mem_of_getElem? hk')
  obtain ⟨e1, e2, e3, e4, e5⟩ := reprOperation_inj (fb ':' (by simp) _) (fb ':' (by simp) _) (fb '=' (by simp) _) (fb '=' (by simp) _)
    (cl '(' (by simp)) (cl' '(' (by simp)) (cl '=' (by simp)) (cl' '=' (by simp)) (param_free hT hr) (param_free hT hr')
    (angle_qubits hT hr.qubits) (angle_qubits hT hr'.qubits) (angle_bits hT hr.cond) (angle_bits hT hr'.cond) h
  have ek : k.kind = k'.kind := by
    revert e1 hm hm'
    cases k.kind <;> cases k'.kind <;> simp [OpKind.baseName]
  refine ⟨e2, ek, ?_, ?_, ?_⟩
  · cases hq : op.qubits with
    | none => cases hq' : op'.qubits with
      | none => rfl
      | some l => rw [hq, hq'] at e4; simp at e4
    | some l => cases hq' : op'.qubits with
      | none => rw [hq, hq'] at e4; simp at e4
      | some l' =>
        rw [hq, hq'] at e4
        simp only [Option.map_some, Option.some.injEq] at e4
        rw [qubitText_inj' hT (hr.qubits l hq) (hr'.qubits l' hq') e4]
  · have key : ∀ op : OpObj K, shownCond (op.cond.map fun l => l.map (w.bitText T)) =
        if condBits op = [] then none else some ((condBits op).map (w.bitText T)) := by
      intro op
      unfold condBits
      match op.cond with
      | none => simp [shownCond]
      | some [] => simp [shownCond]
      | some (b :: bs) => simp [shownCond]
    have hb : ∀ op : OpObj K, Refers w op → ∀ b ∈ condBits op, b < w.bits.length := by
      intro op hr b hb
      unfold condBits at hb
      cases hc : op.cond with
      | none => rw [hc] at hb; simp at hb
      | some l => rw [hc] at hb; exact hr.cond l hc b (by simpa using hb)
    rw [key, key] at e5
    split at e5 <;> split at e5
    · next a b => rw [a, b]
    · cases e5
    · cases e5
    · exact bitText_inj' hT (hb op hr) (hb op' hr') (Option.some.inj e5)
  · intro hp
    rw [← ek, hp] at e3
    simpa using e3

omit [DecidableEq K] [Zero K] in
/-- C116 for quantum registers: `str` and `repr` of a register determine its class and its qubits, in order. -/
theorem C116_register {T : Texts K} {w : World K} (hT : Legible T w) {s t : String} (hs : Avoids [',', '('] s) (ht : Avoids [',', '('] t)
    {l m : List Nat} (hl : ∀ q ∈ l, q < w.qubits.length) (hm : ∀ q ∈ m, q < w.qubits.length) :
    (reprRegister s (l.map (w.qubitText T)) = reprRegister t (m.map (w.qubitText T)) → s = t ∧ l = m) ∧
    (strRegister s (l.map (w.qubitText T)) = strRegister t (m.map (w.qubitText T)) → s = t ∧ l = m) := by
  have al := angle_qubits hT (o := some l) (by rintro _ ⟨⟩; exact hl) _ rfl
  have am := angle_qubits hT (o := some m) (by rintro _ ⟨⟩; exact hm) _ rfl
  constructor <;> intro h
  · obtain ⟨e1, e2⟩ := reprRegister_inj (hs ',' (by simp)) (ht ',' (by simp)) al am h
    exact ⟨e1, qubitText_inj' hT hl hm e2⟩
  · obtain ⟨e1, e2⟩ := strRegister_inj (hs '(' (by simp)) (ht '(' (by simp)) al am h
    exact ⟨e1, qubitText_inj' hT hl hm e2⟩

/-- C116 for measurements, without conditions: the text determines the qubits and the bits that are written. -/
theorem C116_measurement_partial {T : Texts K} {w : World K} (hT : Legible T w) {o o' : Nat} {op op' : OpObj K} {k k' : OpCls}
    (ho : w.ops[o]? = some op) (ho' : w.ops[o']? = some op') (hk : w.classes[op.cls]? = some k) (hk' : w.classes[op'.cls]? = some k')
    (hr : Refers w op) (hr' : Refers w op') (hm : k.kind = .measurement) (hm' : k'.kind = .measurement) (h : w.opText T o = w.opText T o') :
    op.qubits = op'.qubits ∧ op.bits = op'.bits := by
  unfold World.opText at h
  simp only [ho, ho', hk, hk', if_pos hm, if_pos hm'] at h
  obtain ⟨e4, e5⟩ := reprMeasurement_inj (angle_qubits hT hr.qubits) (angle_qubits hT hr'.qubits) (angle_bits hT hr.bits) (angle_bits hT hr'.bits) h
  constructor
  · cases hq : op.qubits with
    | none => cases hq' : op'.qubits with
      | none => rfl
      | some l => rw [hq, hq'] at e4; simp at e4
    | some l => cases hq' : op'.qubits with
      | none => rw [hq, hq'] at e4; simp at e4
      | some l' =>
        rw [hq, hq'] at e4
        simp only [Option.map_some, Option.some.injEq] at e4
        rw [qubitText_inj' hT (hr.qubits l hq) (hr'.qubits l' hq') e4]
  · cases hq : op.bits with
    | none => cases hq' : op'.bits with
      | none => rfl
      | some l => rw [hq, hq'] at e5; simp at e5
    | some l => cases hq' : op'.bits with
      | none => rw [hq, hq'] at e5; simp at e5
      | some l' =>
        rw [hq, hq'] at e5
        simp only [Option.map_some, Option.some.injEq] at e5
        rw [bitText_inj' hT (hr.bits l hq) (hr'.bits l' hq') e5]

/-- C116 is violated for every measurement: making it conditional does not change its text. -/
theorem C116_measurement_violated {T : Texts K} {w : World K} {o : Nat} {op : OpObj K} {k : OpCls} (ho : w.ops[o]? = some op)
    (hk : w.classes[op.cls]? = some k) (hm : k.kind = .measurement) (bs : List Nat) :
    (conditional o bs w).1 = .ok () ∧ (conditional o bs w).2.opText T o = w.opText T o := by
  have e : conditional o bs w = (.ok (), w.setOp o { op with cond := some bs }) := by
    simp [conditional, bind, M.bind, opObj, modOp, M.write, M.deref, ho]
  have g : (w.setOp o { op with cond := some bs }).ops[o]? = some { op with cond := some bs } := by
    unfold World.setOp; rw [List.getElem?_set_self (List.getElem?_eq_some_iff.1 ho).1]
  rw [e]
  refine ⟨rfl, ?_⟩
  have hk' : (w.setOp o { op with cond := some bs }).classes[op.cls]? = some k := hk
  unfold World.opText
  rw [g, ho]
  dsimp only
  rw [hk', hk]
  dsimp only
  rw [if_pos hm, if_pos hm]
  rfl

/-- Labels with quotation marks, integers in decimal, numbered ids. -/
def plainTexts : Texts Int where
  label := fun l => match l with
    | .str s => "'" ++ s ++ "'"
    | .int n => toString n
  num := fun n => toString n
  qubitId := fun q => "q" ++ toString q
  bitId := fun b => "b" ++ toString b

/-- A rotation with a variable and one with a number, the second one conditional. -/
def printDemo : Prog Int :=
  .seq (.call (.newClass ⟨"RX", .parametric, ⟨false, some 1, none, none⟩, some 1⟩)) <|
  .seq (.call (.newCirc false (some 2) (some 1))) <|
  .seq (.call (.newVar "t")) <|
  .seq (.call (.construct 0 (some [.var 0]) (.qubits (some [0])))) <|
  .seq (.call (.construct 0 (some [.num 3]) (.qubits (some [1])))) <|
  .call (.conditional 1 [0])

example : printDemo.final.opText plainTexts 0 = "<ParametricOperation: RX([{t}]), qubits=(<qubit: '0', id: q0>,)>" ∧
    printDemo.final.opText plainTexts 1 =
      "<ParametricOperation: RX([3]), qubits=(<qubit: '1', id: q1>,), conditional: (<bit: '0', id: b0>,)>" := by decide +kernel

/-- The hypotheses of `C116_operation` are met by the two operations. -/
theorem printDemo_legible : Legible plainTexts printDemo.final where
  qubitLabel := by
    have : printDemo.final.qubits = [.str "0", .str "1"] := by decide +kernel
    rw [this]
    simp [plainTexts, Avoids]
  bitLabel := by
    have : printDemo.final.bits.map (·.label) = [.str "0"] := by decide +kernel
    intro b hb
    have hb : b.label ∈ printDemo.final.bits.map (·.label) := List.mem_map_of_mem hb
    rw [this] at hb
    simp only [List.mem_singleton] at hb
    rw [hb]
    simp [plainTexts, Avoids]
  qubitId := by
    intro q c hc
    simp only [List.mem_cons, List.not_mem_nil, or_false] at hc
    rcases hc with rfl | rfl
    · exact Free.append (by simp [Free]) (digits_free (by decide) q)
    · exact Free.append (by simp [Free]) (digits_free (by decide) q)
  bitId := by
    intro q c hc
    simp only [List.mem_cons, List.not_mem_nil, or_false] at hc
    rcases hc with rfl | rfl
    · exact Free.append (by simp [Free]) (digits_free (by decide) q)
    · exact Free.append (by simp [Free]) (digits_free (by decide) q)
  qubitId_inj := fun a b h => toString_nat_inj ((String.append_right_inj "q").1 h)
  bitId_inj := fun a b h => toString_nat_inj ((String.append_right_inj "b").1 h)
  num := by
    intro x
    refine ⟨fun h => ?_, ?_⟩
    · cases x with
      | ofNat n =>
        have h : toString n = "" := h
        have := congrArg String.toList h
        rw [Nat.toString_eq_repr, Nat.toList_repr] at this
        exact Nat.toDigits_ne_nil this
      | negSucc n =>
        have h : "-" ++ toString (n + 1) = "" := h
        have := congrArg String.toList h
        simp at this
    · intro c hc
      simp only [List.mem_cons, List.not_mem_nil, or_false] at hc
      rcases hc with rfl | rfl
      · exact int_free (by decide) (by decide) x
      · exact int_free (by decide) (by decide) x
  cls := by
    have : printDemo.final.classes.map (·.name) = ["RX"] := by decide +kernel
    intro k hk
    have hk : k.name ∈ printDemo.final.classes.map (·.name) := List.mem_map_of_mem hk
    rw [this] at hk
    simp only [List.mem_singleton] at hk
    rw [hk]
    simp [Avoids]
  var := by
    have : printDemo.final.vars.map (·.name) = ["t"] := by decide +kernel
    intro k hk
    have hk : k.name ∈ printDemo.final.vars.map (·.name) := List.mem_map_of_mem hk
    rw [this] at hk
    simp only [List.mem_singleton] at hk
    rw [hk]
    simp [Avoids]

example : printDemo.final.ops = [{ cls := 0, qubits := some [0], numQubits := some 1, params := [.var 0] },
    { cls := 0, qubits := some [1], numQubits := some 1, params := [.num 3], cond := some [0] }] ∧ printDemo.final.qubits.length = 2 ∧
    printDemo.final.bits.length = 1 ∧ printDemo.final.vars.length = 1 := by decide +kernel

end DG.Props
