import Verif.Spec.OpShape
import Verif.Proofs.Construct
import Verif.Proofs.OpsInv

/-! Operations are well-formed in all histories. -/

namespace DG
open Spec
variable {K : Type}

/-- An operation fits its class; `s` tells whether its operands have to agree. -/
def Fit (s : Bool) (k : OpCls) (op : OpObj K) : Prop := Furnished k op ∧ (s = true → Aligned k op)

/-- All operations have a class, which they fit. -/
def Shape (s : Bool) (w : World K) : Prop := ∀ op ∈ w.ops, ∃ k, w.classes[op.cls]? = some k ∧ Fit s k op

/-- Two versions of a class. -/
def Kin (k k' : OpCls) : Prop := k'.kind = k.kind ∧ k'.numParams = k.numParams ∧ k'.ar.numControl = k.ar.numControl

/-- The classes are still there. -/
def KinW (cs cs' : List OpCls) : Prop := ∀ (i : Nat) (k : OpCls), cs[i]? = some k → ∃ k', cs'[i]? = some k' ∧ Kin k k'

theorem Kin.rfl {k : OpCls} : Kin k k := ⟨Eq.refl _, Eq.refl _, Eq.refl _⟩
theorem KinW.rfl {cs : List OpCls} : KinW cs cs := fun _ k h => ⟨k, h, Kin.rfl⟩

theorem Fit.kin {s : Bool} {k k' : OpCls} {op : OpObj K} (h : Fit s k op) (hk : Kin k k') : Fit s k' op := by
  obtain ⟨h1, h2, h3⟩ := hk
  obtain ⟨g, g'⟩ := h
  refine ⟨⟨?_, ?_, ?_⟩, fun hs => ⟨(g' hs).number, ?_⟩⟩
  · rw [h1]; exact g.bits
  · rw [h1, h2]; exact g.params
  · rw [h1]; exact g.uncontrolled
  · rw [h1, h3]; exact (g' hs).halves

theorem Shape.mono {s : Bool} {w w' : World K} (h : Shape s w) (h1 : w'.ops = w.ops) (h2 : KinW w.classes w'.classes) : Shape s w' := by
  intro op ho
  rw [h1] at ho
  obtain ⟨k, hk, hf⟩ := h op ho
  obtain ⟨k', hk', hkin⟩ := h2 _ _ hk
  exact ⟨k', hk', hf.kin hkin⟩

theorem Shape.same {s : Bool} {w w' : World K} (h : Shape s w) (h1 : w'.ops = w.ops) (h2 : w'.classes = w.classes) : Shape s w' :=
  h.mono h1 (by rw [h2]; exact KinW.rfl)

/-- A well-formed operation is added. -/
theorem Shape.push {s : Bool} {w w' : World K} (h : Shape s w) {op : OpObj K} {k : OpCls} (h1 : w'.ops = w.ops ++ [op]) (h2 : w'.classes = w.classes)
    (hk : w.classes[op.cls]? = some k) (hf : Fit s k op) : Shape s w' := by
  intro a ha
  rw [h1] at ha
  rw [h2]
  rcases List.mem_append.1 ha with ha | ha
  · exact h a ha
  · simp only [List.mem_singleton] at ha; subst ha; exact ⟨k, hk, hf⟩

/-- An operation is changed. -/
theorem Shape.set {s : Bool} {w w' : World K} (h : Shape s w) {o : Nat} {op op' : OpObj K} (ho : w.ops[o]? = some op) (h1 : w'.ops = w.ops.set o op')
    (h2 : w'.classes = w.classes) (hc : op'.cls = op.cls) (hf : ∀ k, w.classes[op.cls]? = some k → Fit s k op → Fit s k op') : Shape s w' := by
  intro a ha
  rw [h1] at ha
  rw [h2]
  rcases List.mem_or_eq_of_mem_set ha with ha | rfl
  · exact h a ha
  · obtain ⟨k, hk, g⟩ := h op (mem_of_get? ho)
    exact ⟨k, by rw [hc]; exact hk, hf k hk g⟩

theorem Fit.params {s : Bool} {k : OpCls} {op : OpObj K} (h : Fit s k op) {ps : List (OpParam K)} (hp : ps.length = op.params.length) :
    Fit s k { op with params := ps } := by
  obtain ⟨g, g'⟩ := h
  refine ⟨⟨g.bits, ?_, g.uncontrolled⟩, fun hs => ⟨(g' hs).number, (g' hs).halves⟩⟩
  have := g.params
  dsimp only
  split
  · next h => rw [if_pos h] at this; rw [hp]; exact this
  · next h => rw [if_neg h] at this; rw [this] at hp; exact List.length_eq_zero_iff.1 hp

theorem Fit.cond {s : Bool} {k : OpCls} {op : OpObj K} (h : Fit s k op) (bs : Option (List Nat)) : Fit s k { op with cond := bs } :=
  ⟨⟨h.1.bits, h.1.params, h.1.uncontrolled⟩, fun hs => ⟨(h.2 hs).number, (h.2 hs).halves⟩⟩

theorem Fit.shift {s : Bool} {k : OpCls} {op : OpObj K} (h : Fit s k op) (a b : Nat) : Fit s k (op.shift a b) := by
  obtain ⟨g, g'⟩ := h
  refine ⟨⟨?_, ?_, g.uncontrolled⟩, fun hs => ⟨(g' hs).number, (g' hs).halves⟩⟩
  · intro l hl
    simp only [OpObj.shift, Option.map_eq_some_iff] at hl
    obtain ⟨l', hl', rfl⟩ := hl
    rw [List.length_map]
    exact g.bits l' hl'
  · have := g.params
    simp only [OpObj.shift, List.length_map]
    split
    · next h => rw [if_pos h] at this; exact this
    · next h => rw [if_neg h] at this; rw [this]; rfl

theorem Shape.modCirc {s : Bool} {c : Nat} {f : Circ → Circ} : Pres (Shape (K := K) s) (modCirc c f) := by
  intro w h
  unfold DG.modCirc M.write
  dsimp only
  split
  · exact h.same rfl rfl
  · exact h

theorem Shape.qubitsOf {s : Bool} (c : Nat) : Pres (Shape (K := K) s) (qubitsOf c) := by
  intro w h
  unfold DG.qubitsOf
  split
  · exact h
  · exact h.same rfl rfl

theorem Shape.bitsOf {s : Bool} (c : Nat) : Pres (Shape (K := K) s) (bitsOf c) := by
  intro w h
  unfold DG.bitsOf
  split
  · exact h
  · exact h.same rfl rfl

theorem checkArity_kin (k m : Nat) (w : World K) : (checkArity k m w).2.ops = w.ops ∧ KinW w.classes (checkArity k m w).2.classes ∧
    (checkArity k m w).2.active = w.active ∧ (checkArity k m w).2.circs = w.circs ∧ (checkArity k m w).2.ctxs = w.ctxs := by
  unfold DG.checkArity
  split
  · exact ⟨rfl, KinW.rfl, rfl, rfl, rfl⟩
  · next C hC =>
    refine ⟨rfl, ?_, rfl, rfl, rfl⟩
    intro i k' hk
    dsimp only
    by_cases hi : i = k
    · subst hi
      cases hC.symm.trans hk
      exact ⟨_, List.getElem?_set_self (List.getElem?_eq_some_iff.1 hC).1, rfl, rfl, checkQubits_numControl _ _⟩
    · rw [List.getElem?_set_ne (Ne.symm hi)]
      exact ⟨k', hk, Kin.rfl⟩

variable [DecidableEq K] [Zero K]

theorem Shape.evalInPlace {s : Bool} (o : Nat) (g : Option (List K)) : Pres (Shape s) (evalInPlace o g) := by
  intro w h
  unfold DG.evalInPlace
  split
  · exact h
  · next op hop =>
    split
    · exact h
    · split
      · exact h.set hop rfl rfl rfl fun k _ hk => hk.params (evalLoop_length _ _ _ _)
      · exact h

/-- What `append` does to operations and classes. -/
def Quietly (w : World K) (o : Nat) (v : World K) : Prop :=
  v.classes = w.classes ∧ (v.ops = w.ops ∨ ∃ op ps, w.ops[o]? = some op ∧ ps.length = op.params.length ∧ v.ops = w.ops.set o { op with params := ps })

omit [DecidableEq K] [Zero K] in
theorem Quietly.qubitsOf {w : World K} {o : Nat} (c : Nat) : Pres (Quietly w o) (qubitsOf c) := by
  intro v h
  unfold DG.qubitsOf
  split
  · exact h
  · exact h

theorem appendOp_quiet (c o : Nat) (w : World K) : Quietly w o (appendOp c o w).2 := by
  unfold appendOp
  simp only [bind_def, circ, M.deref]
  cases hC : w.circs[c]? with
  | none => exact ⟨rfl, .inl rfl⟩
  | some C =>
    simp only [M.raiseIf]
    cases hl : C.locked with
    | true => exact ⟨rfl, .inl rfl⟩
    | false =>
      simp only [Bool.false_eq_true, if_false]
      have h1 : Quietly w o (M.whenever (!C.parametric) (evalInPlace o none) w).2 := by
        unfold M.whenever
        split
        · unfold evalInPlace
          split
          · exact ⟨rfl, .inl rfl⟩
          · next op hop =>
            split
            · exact ⟨rfl, .inl rfl⟩
            · split
              · exact ⟨rfl, .inr ⟨op, _, hop, evalLoop_length _ _ _ _, rfl⟩⟩
              · exact ⟨rfl, .inl rfl⟩
        · exact ⟨rfl, .inl rfl⟩
      generalize M.whenever (!C.parametric) (evalInPlace o none) w = z at h1
      obtain ⟨_ | _, w1⟩ := z
      · exact h1
      · refine pres_bind (P := Quietly w o) (m := (opObj o : M K (OpObj K))) (pres_deref _)
          (f := fun op => checkMember c (op.qubits.getD []) >>= fun _ => modCirc c fun C => { C with ops := C.ops ++ [o] })
          (fun op => pres_bind (pres_each fun q => pres_bind (Quietly.qubitsOf _) fun _ => pres_raiseIf _ _) fun _ => ?_) w1 h1
        intro v hv
        unfold DG.modCirc M.write
        dsimp only
        split <;> exact hv

theorem Shape.quiet {s : Bool} {w v : World K} {o : Nat} (h : Shape s w) (hq : Quietly w o v) : Shape s v := by
  obtain ⟨h1, h2 | ⟨op, ps, h2, h3, h4⟩⟩ := hq
  · exact h.same h2 h1
  · exact h.set h2 h4 h1 rfl fun k _ hk => hk.params h3

theorem Shape.appendOp {s : Bool} (c o : Nat) : Pres (Shape (K := K) s) (appendOp c o) := fun w h => h.quiet (appendOp_quiet c o w)

/-- What registering does to operations and classes. -/
theorem register_quiet (a : Option Nat) (o : Nat) (w : World K) : Quietly w o (register a o w).2 := by
  unfold register
  cases a with
  | none => exact ⟨rfl, .inl rfl⟩
  | some x =>
    simp only [bind_def, ctxObj, M.deref]
    cases w.ctxs[x]? with
    | none => exact ⟨rfl, .inl rfl⟩
    | some X =>
      simp only [M.whenever]
      split
      · exact appendOp_quiet _ _ _
      · exact ⟨rfl, .inl rfl⟩

/-- Constructing an operation adds it, if it does anything. -/
theorem initOperation_shape {s : Bool} {w : World K} (h : Shape s w) {op : OpObj K} {q : Option (List Nat)} {k : OpCls} (hk : w.classes[op.cls]? = some k)
    (hf : Fit s k { op with qubits := q, numQubits := q.map List.length, cond := none }) :
    Shape s (initOperation op q w).2 ∧ ∀ o, (initOperation op q w).1 = .ok o →
      ∃ op' k', (initOperation op q w).2.ops[o]? = some op' ∧ op'.params.length = op.params.length ∧ op'.cls = op.cls ∧
        (initOperation op q w).2.classes[op.cls]? = some k' ∧ Kin k k' := by
  have hc : (checkArg op.cls w.active q w).2.ops = w.ops ∧ KinW w.classes (checkArg op.cls w.active q w).2.classes := by
    unfold checkArg
    split
    · exact ⟨(checkArity_kin _ _ w).1, (checkArity_kin _ _ w).2.1⟩
    · unfold M.raiseIf; split <;> exact ⟨rfl, KinW.rfl⟩
  unfold initOperation
  simp only [bind_def, M.read]
  generalize checkArg op.cls w.active q w = z at hc
  obtain ⟨r, w1⟩ := z
  obtain ⟨c1, c2⟩ := hc
  have h1 : Shape s w1 := h.mono c1 c2
  cases r with
  | error e => exact ⟨h1, fun o ho => by cases ho⟩
  | ok u =>
    dsimp only
    obtain ⟨k', hk', hkin⟩ := c2 _ _ hk
    set op1 : OpObj K := { op with qubits := q, numQubits := q.map List.length, cond := none } with hop1
    have h2 : Shape s { w1 with ops := w1.ops ++ [op1] } := h1.push (op := op1) rfl rfl hk' (hf.kin hkin)
    unfold newOp
    dsimp only
    have hq := register_quiet w.active w1.ops.length { w1 with ops := w1.ops ++ [op1] }
    have h3 := h2.quiet hq
    generalize register w.active w1.ops.length { w1 with ops := w1.ops ++ [op1] } = y at hq h3
    obtain ⟨r', w2⟩ := y
    cases r' with
    | error e => exact ⟨h3, fun o ho => by cases ho⟩
    | ok u' =>
      refine ⟨h3, fun o ho => ?_⟩
      cases ho
      obtain ⟨q1, q2 | ⟨op2, ps, q2, q3, q4⟩⟩ := hq
      · dsimp only at q1 q2 ⊢
        refine ⟨op1, k', ?_, rfl, rfl, ?_, hkin⟩
        · show w2.ops[w1.ops.length]? = _
          rw [q2]; simp
        · show w2.classes[op.cls]? = _
          rw [q1]; exact hk'
      · dsimp only at q1 q2 q4 ⊢
        have : op2 = op1 := by simpa using q2.symm
        refine ⟨{ op2 with params := ps }, k', ?_, by rw [q3, this], by rw [this], ?_, hkin⟩
        · show w2.ops[w1.ops.length]? = _
          rw [q4]; simp
        · show w2.classes[op.cls]? = _
          rw [q1]; exact hk'

omit [DecidableEq K] [Zero K] in
/-- The qubits of a controlled operation are its control and target qubits. -/
theorem splitQubits_halves {n : Nat} (a : QArgs) {qs : List Nat} (h : (splitQubits (some n) a).2.2 = some qs) :
    ∃ c t, (splitQubits (some n) a).1 = some c ∧ (splitQubits (some n) a).2.1 = some t ∧ qs = c ++ t := by
  unfold splitQubits at h ⊢
  cases a with
  | qubits l =>
    dsimp only at h ⊢
    cases hl : nonempty l with
    | none => rw [hl] at h; cases h
    | some l' =>
      rw [hl] at h
      cases h
      exact ⟨_, _, rfl, rfl, (List.take_append_drop n _).symm⟩
  | split x y =>
    dsimp only at h ⊢
    cases hx : nonempty x with
    | none => rw [hx] at h; cases h
    | some c =>
      cases hy : nonempty y with
      | none => rw [hx, hy] at h; cases h
      | some t => rw [hx, hy] at h; cases h; exact ⟨c, t, rfl, rfl, rfl⟩

theorem Shape.construct {s : Bool} (k : Nat) (ps : Option (List (OpParam K))) (a : QArgs) : Pres (Shape s) (construct k ps a) := by
  intro w h
  unfold DG.construct
  simp only [bind_def, clsObj, M.deref]
  cases hC : w.classes[k]? with
  | none => exact h
  | some C =>
    dsimp only
    have halves : ∀ (a : QArgs), C.ar.numControl ≠ none → ∀ qs, (splitQubits C.ar.numControl a).2.2 = some qs →
        ∃ c t, (splitQubits C.ar.numControl a).1 = some c ∧ (splitQubits C.ar.numControl a).2.1 = some t ∧ qs = c ++ t := by
      intro a hn qs hqs
      obtain ⟨n, hn⟩ := Option.ne_none_iff_exists'.1 hn
      rw [hn] at hqs ⊢
      exact splitQubits_halves a hqs
    have plain : C.kind = .plain ∨ C.kind = .measurement → ∀ l, Shape s (initOperation { cls := k } l w).2 := by
      intro hk l
      refine (initOperation_shape h (op := { cls := k }) hC ⟨⟨by simp, ?_, by simp⟩, fun _ => ⟨rfl, ?_⟩⟩).1
      · rcases hk with hk | hk <;> simp [hk, OpKind.isParametric]
      · intro hx; rcases hk with hk | hk <;> simp [hk] at hx
    have param : C.kind = .parametric → ∀ ps l, Shape s ((checkParams C ps >>= fun _ => initOperation { cls := k, params := ps } l) w).2 := by
      intro hk ps l
      simp only [bind_def, checkParams, M.raiseIf]
      by_cases hp : some ps.length = C.numParams
      · simp only [hp, ne_eq, not_true, decide_false, Bool.false_eq_true, if_false]
        refine (initOperation_shape h (op := { cls := k, params := ps }) hC ⟨⟨by simp, ?_, by simp⟩, fun _ => ⟨rfl, ?_⟩⟩).1
        · simp [hk, OpKind.isParametric, hp]
        · intro hx; simp [hk] at hx
      · simp only [hp, ne_eq, not_false_eq_true, decide_true, if_true]
        exact h
    have ctrl : C.kind = .controlled → ∀ a, Shape s (initOperation
        { cls := k, control := (splitQubits C.ar.numControl a).1, target := (splitQubits C.ar.numControl a).2.1 }
        (splitQubits C.ar.numControl a).2.2 w).2 := by
      intro hk a
      refine (initOperation_shape h (op := { cls := k, control := (splitQubits C.ar.numControl a).1, target := (splitQubits C.ar.numControl a).2.1 }) hC
        ⟨⟨by simp, ?_, by simp [hk]⟩, fun _ => ⟨rfl, ?_⟩⟩).1
      · simp [hk, OpKind.isParametric]
      · intro _ hn qs hqs; exact halves _ hn qs hqs
    have pctrl : C.kind = .pcontrolled → ∀ ps a, Shape s ((checkParams C ps >>= fun _ => initOperation
        { cls := k, control := (splitQubits C.ar.numControl a).1, target := (splitQubits C.ar.numControl a).2.1, params := ps }
        (splitQubits C.ar.numControl a).2.2 >>= fun o => checkParams C ps >>= fun _ => modOp o (fun op => { op with params := ps }) >>= fun _ => pure o) w).2 := by
      intro hk ps a
      simp only [bind_def, checkParams, M.raiseIf]
      by_cases hp : some ps.length = C.numParams
      · simp only [hp, ne_eq, not_true, decide_false, Bool.false_eq_true, if_false]
        have := initOperation_shape h (s := s) (q := (splitQubits C.ar.numControl a).2.2)
          (op := { cls := k, control := (splitQubits C.ar.numControl a).1, target := (splitQubits C.ar.numControl a).2.1, params := ps }) hC
          ⟨⟨by simp, by simp [hk, OpKind.isParametric, hp], by simp [hk]⟩, fun _ => ⟨rfl, fun _ hn qs hqs => halves _ hn qs hqs⟩⟩
        generalize DG.initOperation _ _ w = z at this
        obtain ⟨r, w1⟩ := z
        cases r with
        | error e => exact this.1
        | ok o =>
          obtain ⟨h1, h2⟩ := this
          obtain ⟨op', k', g1, g2, g3, g4, g5⟩ := h2 o rfl
          dsimp only at h1 g1 g4 ⊢
          have : (modOp o (fun op => { op with params := ps }) w1) = (.ok (), w1.setOp o { op' with params := ps }) := by
            simp [modOp, M.write, g1]
          rw [this]
          exact h1.set g1 rfl rfl rfl fun _ _ hk => hk.params g2.symm
      · simp only [hp, ne_eq, not_false_eq_true, decide_true, if_true]
        exact h
    generalize hkd : C.kind = kd
    cases kd <;> cases ps <;> cases a
    · exact plain (.inl hkd) _
    any_goals exact h
    · exact param hkd _ _
    · exact ctrl hkd _
    · exact ctrl hkd _
    · exact pctrl hkd _ _
    · exact pctrl hkd _ _
    · exact plain (.inr hkd) _

theorem Shape.measureInto {s : Bool} (o : Nat) (bs : List Nat) : Pres (Shape (K := K) s) (measureInto o bs) := by
  intro w h
  unfold DG.measureInto
  simp only [bind_def, opObj, clsObj, M.deref]
  cases ho : w.ops[o]? with
  | none => exact h
  | some op =>
    dsimp only
    cases hk : w.classes[op.cls]? with
    | none => exact h
    | some k =>
      dsimp only
      generalize hkd : k.kind = kd
      generalize hn : op.numQubits = nq
      cases kd <;> cases nq
      any_goals exact h
      · next n =>
        dsimp only
        rw [bind_def]
        unfold M.raiseIf
        by_cases hl : bs.length < n
        · simp [hl]; exact h
        · simp only [hl, decide_false, Bool.false_eq_true, if_false]
          have : (modOp o (fun op => { op with bits := some (bs.take n) }) w) = (.ok (), w.setOp o { op with bits := some (bs.take n) }) := by
            simp [modOp, M.write, ho]
          rw [this]
          refine h.set ho rfl rfl rfl fun k' hk' hf => ?_
          cases hk.symm.trans hk'
          refine ⟨⟨?_, hf.1.params, hf.1.uncontrolled⟩, fun hs => ⟨(hf.2 hs).number, (hf.2 hs).halves⟩⟩
          intro l hl'
          cases hl'
          refine ⟨hkd, ?_⟩
          dsimp only
          rw [hn, List.length_take]
          congr 1
          omega

theorem Shape.steps {s : Bool} : StepsA (K := K) (Shape s) where
  construct := Shape.construct
  measureInto := Shape.measureInto
  qubitsOf := Shape.qubitsOf
  bitsOf := Shape.bitsOf
  addQReg := by
    intro c n lb w h
    unfold DG.addQReg
    split
    · exact h
    · split <;> exact h.same rfl rfl
  addCReg := by
    intro c n lb w h
    unfold DG.addCReg
    split
    · exact h
    · split <;> exact h.same rfl rfl
  addQubit := by
    intro c q lb w h
    unfold DG.addQubit
    split
    · exact h
    · dsimp only
      split
      · exact h
      · split <;> exact h.same rfl rfl
      · split
        · exact h
        · split <;> exact h.same rfl rfl
  addBit := by
    intro c q lb w h
    unfold DG.addBit
    split
    · exact h
    · dsimp only
      split
      · exact h
      · split <;> exact h.same rfl rfl
      · split
        · exact h
        · split <;> exact h.same rfl rfl
  appendOp := Shape.appendOp
  evalInPlace := Shape.evalInPlace
  setCond := by
    intro o bs w h
    unfold DG.modOp M.write
    dsimp only
    split
    · next op hop => exact h.set hop rfl rfl rfl fun _ _ hk => hk.cond bs
    · exact h
  getParam := by
    intro c i w h
    unfold DG.getParam
    split
    · exact h
    · next C hC =>
      split
      · exact h
      · dsimp only
        split
        · exact h.same rfl rfl
        · have : ∀ j : Int, Shape s (if 0 ≤ j then match C.vars[j.toNat]? with
              | some v => ((.ok v : Except Err Nat), w)
              | none => (.error .indexError, w) else (.error .indexError, w)).2 := by
            intro j
            split
            · split <;> exact h
            · exact h
          exact this _
  lock := fun _ => Shape.modCirc
  unlock := fun _ => Shape.modCirc
  clearOps := fun _ => Shape.modCirc
  resetItem := by
    intro x w h
    unfold DG.resetItem
    split
    · unfold M.write
      dsimp only
      split
      · exact h.same rfl rfl
      · exact h
    · exact h
  removeOp := by
    intro c o w h
    unfold DG.removeOp
    split
    · split
      · exact h
      · exact h.same rfl rfl
    · exact h
  allocCirc := fun p w h => h.same rfl rfl
  newQubit := fun lb w h => h.same rfl rfl
  newBit := fun lb w h => h.same rfl rfl
  newVar := fun lb w h => h.same rfl rfl
  newClass := fun lb w h => h.mono rfl fun i k hk => ⟨k, by
    dsimp only; rw [List.getElem?_append_left (List.getElem?_eq_some_iff.1 hk).1]; exact hk, Kin.rfl⟩
  setLabel := fun q lb w h => h.same rfl rfl

theorem Shape.ctxPrims {s : Bool} : CtxPrims (K := K) (Shape s) where
  contextOf := by
    intro c w h
    unfold DG.contextOf
    split
    · exact h
    · split
      · exact h
      · exact h.same rfl rfl
  setActive := fun a w h => h.same rfl rfl
  setOnExit := fun a w h => h.same rfl rfl
  freezeVars := fun c => Shape.modCirc
  setVar := by
    intro v x w h
    unfold DG.setVar M.write
    dsimp only
    split
    · exact h.same rfl rfl
    · exact h
  resetVar := by
    intro v w h
    unfold DG.resetVar M.write
    dsimp only
    split
    · exact h.same rfl rfl
    · exact h
  setFrozen := by
    intro x b w h
    unfold DG.setFrozen M.write
    dsimp only
    split
    · exact h.same rfl rfl
    · exact h

theorem Shape.evalPrims {s : Bool} : EvalPrims (K := K) (Shape s) where
  evalInPlace := Shape.evalInPlace
  deepCopy := by
    intro c w h
    unfold DG.deepCopy
    split
    · exact h
    · intro op hop
      dsimp only at hop ⊢
      rcases List.mem_append.1 hop with hop | hop
      · exact h op hop
      · obtain ⟨op', hop', rfl⟩ := List.mem_map.1 hop
        obtain ⟨k, hk, hf⟩ := h op' hop'
        exact ⟨k, hk, hf.shift _ _⟩
  replace := by
    intro d i o w D op ps h hD hi ho hp
    obtain ⟨k, hk, hf⟩ := h op (mem_of_get? ho)
    refine h.push (op := { op.shift w.bits.length 0 with params := ps }) rfl rfl hk ((hf.shift _ _).params ?_)
    simpa [OpObj.shift] using hp

theorem Shape.reach {s : Bool} {A : Call K → Prop} (hA : ∀ e, A e → s = true → KeepsOperands e) {w : World K} (h : Reach A w) : Shape s w := by
  refine Shape.ctxPrims.reach Shape.steps (fun e he hb => ?_) (by intro op hop; cases hop) h
  cases e with
  | setBit b v f =>
    intro w h
    show Shape s (DG.setBit b v f w).2
    unfold DG.setBit
    split
    · exact h
    · exact h.same rfl rfl
  | setVar v y => exact Shape.ctxPrims.setVar v y
  | resetVar v => exact Shape.ctxPrims.resetVar v
  | setQubits o qs =>
    cases s with
    | true => exact (hA _ he rfl).elim
    | false =>
      refine pres_bind (pres_deref _) fun _ => pres_bind (fun w h => h.mono (checkArity_kin _ _ w).1 (checkArity_kin _ _ w).2.1) fun _ => ?_
      intro w h
      unfold DG.modOp M.write
      dsimp only
      split
      · next op hop => exact h.set hop rfl rfl rfl fun _ _ hk => ⟨⟨hk.1.bits, hk.1.params, hk.1.uncontrolled⟩, fun hs => by cases hs⟩
      · exact h
  | callParam a ps qs bs => exact Shape.ctxPrims.callParam Shape.steps a ps qs bs
  | resetVariables a => exact Shape.ctxPrims.resetVariables a
  | evalCirc c g i => exact pres_void (Shape.evalPrims.evalCirc c g i)
  | reset c k =>
    cases k with
    | true => exact absurd rfl hb
    | false =>
      exact pres_bind (pres_deref _) fun _ => pres_bind (Shape.steps.clearOps c) fun _ =>
        pres_bind Shape.modCirc fun _ => Shape.steps.unlock c
  | _ => exact absurd trivial hb

end DG
