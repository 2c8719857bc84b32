import Verif.Proofs.Contexts

/-! What the constructors of operations do. -/

namespace DG
open Spec
variable {K : Type}

/-- Classes only differ in what `num_qubits` has recorded. -/
def SameClasses (a b : List OpCls) : Prop :=
  b.map (fun k => (k.name, k.kind, k.numParams, k.ar.numControl)) = a.map fun k => (k.name, k.kind, k.numParams, k.ar.numControl)

theorem SameClasses.trans {a b c : List OpCls} (h : SameClasses a b) (h' : SameClasses b c) : SameClasses a c := Eq.trans h' h

theorem SameClasses.get {a b : List OpCls} (h : SameClasses a b) {i : Nat} {k : OpCls} (hk : a[i]? = some k) :
    ∃ k', b[i]? = some k' ∧ k'.name = k.name ∧ k'.kind = k.kind ∧ k'.numParams = k.numParams ∧ k'.ar.numControl = k.ar.numControl := by
  have := congrArg (fun l => l[i]?) h
  simp only [List.getElem?_map, hk, Option.map_some, Option.map_eq_some_iff, Prod.mk.injEq] at this
  obtain ⟨k', h1, h2, h3, h4, h5⟩ := this
  exact ⟨k', h1, h2, h3, h4, h5⟩

theorem checkQubits_numControl (c : Arity.Cls) (m : Nat) : (Arity.checkQubits c m).2.numControl = c.numControl := by
  have h : (Arity.clsNumQubits c).2.numControl = c.numControl := by
    unfold Arity.clsNumQubits
    dsimp only
    split <;> (split <;> first | rfl | (split <;> rfl))
  unfold Arity.checkQubits
  split
  · rfl
  · split
    · next k c' heq => rw [heq] at h; split <;> exact h
    · next e c' heq => rw [heq] at h; exact h

/-- The qubits a constructor passes to `Operation.__init__`. -/
def QArgs.all : QArgs → Option (List Nat)
  | .qubits l => l
  | .split a b => match nonempty a, nonempty b with
    | some a, some b => some (a ++ b)
    | _, _ => none

theorem checkArity_eq (k m : Nat) (w : World K) : ∃ cs, SameClasses w.classes cs ∧ (checkArity k m w).2 = { w with classes := cs } := by
  unfold checkArity
  cases hk : w.classes[k]? with
  | none => exact ⟨w.classes, rfl, rfl⟩
  | some C =>
    refine ⟨_, ?_, rfl⟩
    unfold SameClasses
    rw [List.map_set]
    obtain ⟨hlt, e⟩ := List.getElem?_eq_some_iff.1 hk
    subst e
    have := List.set_getElem_self (as := w.classes.map fun k => (k.name, k.kind, k.numParams, k.ar.numControl)) (i := k) (by simpa using hlt)
    rw [List.getElem_map] at this
    dsimp only at this ⊢
    rw [checkQubits_numControl]
    exact this

theorem checkArg_eq (k : Nat) (a : Option Nat) (q : Option (List Nat)) (w : World K) :
    ∃ cs, SameClasses w.classes cs ∧ (checkArg k a q w).2 = { w with classes := cs } ∧
      ((checkArg k a q w).1 = .ok () → a.isSome = true → q.isSome = true) := by
  cases q with
  | none =>
    refine ⟨w.classes, rfl, ?_, ?_⟩
    · unfold checkArg M.raiseIf
      split <;> rfl
    · intro h1 h2
      simp [checkArg, M.raiseIf, h2] at h1
  | some l =>
    obtain ⟨cs, h1, h2⟩ := checkArity_eq k l.length w
    exact ⟨cs, h1, h2, fun _ _ => rfl⟩

variable [DecidableEq K] [Zero K]

/-- What a successful constructor does: a new object, appended to the circuit of the active context. `final` are the parameters of the object
if it is not appended, `op` the object before `append`. -/
structure Made (w w' : World K) (op op' : OpObj K) : Prop where
  ops : w'.ops = w.ops ++ [op']
  rest : op' = { op with params := op'.params }
  classes : SameClasses w.classes w'.classes
  qubits : w'.qubits = w.qubits
  bits : w'.bits = w.bits
  vars : w'.vars = w.vars
  active : w'.active = w.active
  ctxs : w'.ctxs = w.ctxs
  onExit : w'.onExit = w.onExit
  circs : match w.target with
    | none => w'.circs = w.circs ∧ op'.params = op.params
    | some c => ∃ C b', w.circs[c]? = some C ∧ C.locked = false ∧ b'.regs = C.q.regs ∧
        w'.circs = w.circs.set c { C with ops := C.ops ++ [w.ops.length], q := b' } ∧
        (∀ k, w.classes[op.cls]? = some k → op'.params = appendedParams w C (some k) op) ∧
        (∀ k, w.classes[op.cls]? = some k → C.parametric = false → k.kind.isParametric = true → Evaluates w.varVal op.params)

/-- `Operation.__init__`. -/
theorem initOperation_cases (op : OpObj K) (q : Option (List Nat)) (w : World K) :
    (∃ e w', initOperation op q w = (.error e, w') ∧ (∀ c, opsOf w' c = opsOf w c)) ∨
    (∃ w' op', initOperation op q w = (.ok w.ops.length, w') ∧ (w.active.isSome = true → q.isSome = true) ∧
      Made w w' { op with qubits := q, numQubits := q.map List.length, cond := none } op') := by
  obtain ⟨cs, h1, h2, h3⟩ := checkArg_eq op.cls w.active q w
  unfold initOperation
  simp only [bind_def, M.read]
  generalize hgen : checkArg op.cls w.active q w = y at h2 h3 ⊢
  obtain ⟨r, w1⟩ := y
  cases r with
  | error e =>
    dsimp only at h2 ⊢
    subst h2
    exact .inl ⟨e, _, rfl, fun c => rfl⟩
  | ok u =>
    cases u
    dsimp only at h2 h3 ⊢
    subst h2
    have h3' := h3 rfl
    simp only [newOp]
    set op1 : OpObj K := { op with qubits := q, numQubits := q.map List.length, cond := none } with hop1
    set w2 : World K := { w with classes := cs, ops := w.ops ++ [op1] } with hw2
    cases ha : w.active with
    | none =>
      refine .inr ⟨w2, op1, rfl, by simp, ?_⟩
      refine ⟨rfl, rfl, h1, rfl, rfl, rfl, rfl, rfl, rfl, ?_⟩
      simp [World.target, ha, hw2]
    | some x =>
      simp only [register, bind_def, ctxObj, M.deref]
      cases hX : w.ctxs[x]? with
      | none => exact .inl ⟨.typeError, w2, by simp [hw2, hX], fun c => rfl⟩
      | some X =>
        have hX2 : w2.ctxs[x]? = some X := hX
        simp only [hX2, M.whenever]
        cases hf : X.frozen with
        | true =>
          refine .inr ⟨w2, op1, by simp, fun _ => h3' (by simp [ha]), ?_⟩
          refine ⟨rfl, rfl, h1, rfl, rfl, rfl, rfl, rfl, rfl, ?_⟩
          simp [World.target, ha, hX, hf, hw2]
        | false =>
          simp only [Bool.not_false, if_true]
          rcases appendOp_cases X.circuit w.ops.length w2 with ⟨e, ops, w', g1, g2, g3⟩ | ⟨C, op0, b', g1, g2, g3, g4, g5, g6⟩
          · refine .inl ⟨e, w', by rw [g1], fun c => ?_⟩
            rw [g2.opsOf]; rfl
          · have hop0 : op0 = op1 := by
              have : w2.ops[w.ops.length]? = some op1 := by simp [hw2]
              rw [this] at g3; cases g3; rfl
            subst hop0
            refine .inr ⟨_, { op1 with params := appendedParams w2 C w2.classes[op1.cls]? op1 }, by rw [g6]; rfl, fun _ => h3' (by simp [ha]), ?_⟩
            refine ⟨?_, rfl, h1, rfl, rfl, rfl, rfl, rfl, rfl, ?_⟩
            · show (w.ops ++ [op1]).set w.ops.length _ = _
              simp
            · simp only [World.target, ha, hX, hf, Bool.false_eq_true, if_false]
              refine ⟨C, b', g1, g2, g4, rfl, ?_, ?_⟩
              · intro k hk
                obtain ⟨k', e1, e2, e3, e4, -⟩ := h1.get hk
                have e1' : w2.classes[op1.cls]? = some k' := e1
                simp only [e1', appendedParams, e3]
                rfl
              · intro k hk hp hkk
                obtain ⟨k', e1, e2, e3, e4, -⟩ := h1.get hk
                exact g5 k' hp e1 (by rw [e3]; exact hkk)

omit [DecidableEq K] [Zero K] in
theorem opsOf_made {w w' : World K} {n : Nat} (h : match w.target with
    | none => w'.circs = w.circs
    | some c => ∃ C b', w.circs[c]? = some C ∧ w'.circs = w.circs.set c { C with ops := C.ops ++ [n], q := b' }) (c : Nat) :
    opsOf w' c = if w.target = some c then opsOf w c ++ [n] else opsOf w c := by
  cases ht : w.target with
  | none =>
    rw [ht] at h
    simp only [reduceCtorEq, if_false]
    unfold opsOf
    rw [h]
  | some d =>
    rw [ht] at h
    obtain ⟨C, b', h1, h2⟩ := h
    have := opsOf_setCirc (C' := { C with ops := C.ops ++ [n], q := b' }) h1 c
    have e : opsOf w' c = opsOf (w.setCirc d { C with ops := C.ops ++ [n], q := b' }) c := by
      unfold opsOf
      simp only [World.setCirc, h2]
    rw [e, this]
    by_cases hd : c = d
    · subst hd; simp [opsOf_of_get h1]
    · have : ¬ d = c := fun e => hd e.symm
      simp [hd, this]

/-- Is the circuit that operations are appended to not parametric? -/
def World.concrete (w : World K) : Bool :=
  match w.target with
  | none => false
  | some c => match w.circs[c]? with
    | none => false
    | some D => !D.parametric

/-- The controls and targets that a constructor sets. -/
def splitOf (C : OpCls) (args : QArgs) : Option (List Nat) × Option (List Nat) :=
  if C.kind = .controlled ∨ C.kind = .pcontrolled then ((splitQubits C.ar.numControl args).1, (splitQubits C.ar.numControl args).2.1) else (none, none)

/-- Result of a constructor. -/
structure Constructed (w w' : World K) (k : Nat) (ps : Option (List (OpParam K))) (args : QArgs) (C : OpCls) (op' : OpObj K) : Prop where
  ops : w'.ops = w.ops ++ [op']
  cls : op'.cls = k
  bits : op'.bits = none
  cond : op'.cond = none
  given : op'.qubits = args.all ∨ (op'.qubits = none ∧ args.all = some [])
  split : (op'.control, op'.target) = splitOf C args
  numQubits : op'.numQubits = op'.qubits.map List.length
  inside : w.active.isSome = true → op'.qubits.isSome = true
  classes : SameClasses w.classes w'.classes
  wqubits : w'.qubits = w.qubits
  wbits : w'.bits = w.bits
  vars : w'.vars = w.vars
  active : w'.active = w.active
  ctxs : w'.ctxs = w.ctxs
  onExit : w'.onExit = w.onExit
  circs : match w.target with
    | none => w'.circs = w.circs
    | some c => ∃ D b', w.circs[c]? = some D ∧ D.locked = false ∧ b'.regs = D.q.regs ∧
        w'.circs = w.circs.set c { D with ops := D.ops ++ [w.ops.length], q := b' }
  params : op'.params = if C.kind = .parametric ∧ w.concrete = true then (ps.getD []).map (OpParam.subst w.varVal) else ps.getD []
  evaluates : C.kind.isParametric = true → w.concrete = true → Evaluates w.varVal (ps.getD [])

theorem Made.constructed {w w' : World K} {op op' : OpObj K} {k : Nat} {C : OpCls} (hk : w.classes[k]? = some C) (hcls : op.cls = k)
    (h : Made w w' op op') (args : QArgs) (hb : op.bits = none) (hc : op.cond = none) (hn : op.numQubits = op.qubits.map List.length)
    (hi : w.active.isSome = true → op.qubits.isSome = true)
    (hg : op.qubits = args.all ∨ (op.qubits = none ∧ args.all = some [])) (hkind : C.kind ≠ .pcontrolled) (ps : Option (List (OpParam K)))
    (hps : op.params = ps.getD []) (hs : (op.control, op.target) = splitOf C args) : Constructed w w' k ps args C op' := by
  have hr := h.rest
  have hcirc := h.circs
  have e1 : op'.cls = op.cls := by rw [hr]
  have e2 : op'.qubits = op.qubits := by rw [hr]
  refine ⟨h.ops, e1.trans hcls, by rw [hr]; exact hb, by rw [hr]; exact hc, by rw [e2]; exact hg, by rw [hr]; exact hs, by rw [e2, hr]; exact hn,
    by rw [e2]; exact hi, h.classes, h.qubits, h.bits, h.vars, h.active, h.ctxs, h.onExit, ?_, ?_, ?_⟩
  · cases ht : w.target with
    | none => rw [ht] at hcirc; exact hcirc.1
    | some c =>
      rw [ht] at hcirc
      obtain ⟨D, b', g1, g2, g3, g4, -⟩ := hcirc
      exact ⟨D, b', g1, g2, g3, g4⟩
  · unfold World.concrete
    cases ht : w.target with
    | none => rw [ht] at hcirc; simp [hcirc.2, hps]
    | some c =>
      rw [ht] at hcirc
      obtain ⟨D, b', g1, g2, g3, g4, g5, -⟩ := hcirc
      rw [g5 C (by rw [hcls]; exact hk)]
      simp only [g1, appendedParams, hps]
      have hiff : (C.kind = .parametric) ↔ C.kind.isParametric = true := by
        revert hkind
        rcases C.kind with _ | _ | _ | _ | _ <;> simp [OpKind.isParametric]
      by_cases h1 : C.kind.isParametric = true
      · have h2 := hiff.2 h1
        cases hD : D.parametric <;> simp [h2, hD, OpKind.isParametric]
      · have h2 : ¬ C.kind = .parametric := fun e => h1 (hiff.1 e)
        simp [h1, h2]
  · unfold World.concrete
    intro hk1 hk2
    cases ht : w.target with
    | none => rw [ht] at hk2; simp at hk2
    | some c =>
      rw [ht] at hcirc hk2
      obtain ⟨D, b', g1, g2, g3, g4, -, g6⟩ := hcirc
      simp only [g1, Bool.not_eq_true'] at hk2
      rw [← hps]
      exact g6 C (by rw [hcls]; exact hk) hk2 hk1

theorem splitQubits_all (nc : Option Nat) (args : QArgs) :
    (splitQubits nc args).2.2 = args.all ∨ ((splitQubits nc args).2.2 = none ∧ args.all = some []) := by
  cases args with
  | qubits l =>
    rcases l with _ | (_ | ⟨a, l⟩)
    · exact .inl rfl
    · exact .inr ⟨rfl, rfl⟩
    · cases nc <;> exact .inl rfl
  | split a b =>
    left
    unfold splitQubits QArgs.all
    dsimp only
    rcases nonempty a with _ | _ <;> rcases nonempty b with _ | _ <;> rfl

/-- A controlled operation before `Operation.__init__`. -/
def ctlOp (k : Nat) (C : OpCls) (args : QArgs) (ps : List (OpParam K)) : OpObj K :=
  { cls := k, control := (splitQubits C.ar.numControl args).1, target := (splitQubits C.ar.numControl args).2.1, params := ps }

/-- The constructors, all outcomes. -/
theorem construct_cases (k : Nat) (ps : Option (List (OpParam K))) (args : QArgs) (w : World K) :
    (∃ e w', construct k ps args w = (.error e, w') ∧ ∀ c, opsOf w' c = opsOf w c) ∨
    (∃ C w' op', w.classes[k]? = some C ∧ construct k ps args w = (.ok w.ops.length, w') ∧ Constructed w w' k ps args C op') := by
  unfold construct
  simp only [bind_def, clsObj, M.deref]
  cases hk : w.classes[k]? with
  | none => exact .inl ⟨_, _, rfl, fun _ => rfl⟩
  | some C =>
    dsimp only
    have simple : ∀ l, C.kind = .plain ∨ C.kind = .measurement → (ps.getD [] = []) → args = .qubits l →
        (∃ e w', initOperation { cls := k } l w = (.error e, w') ∧ ∀ c, opsOf w' c = opsOf w c) ∨
        (∃ C' w' op', some C = some C' ∧ initOperation { cls := k } l w = (.ok w.ops.length, w') ∧ Constructed w w' k ps args C' op') := by
      intro l hkind hps ha
      subst ha
      rcases initOperation_cases (K := K) { cls := k } l w with ⟨e, w', h1, h2⟩ | ⟨w', op', h1, h2, h3⟩
      · exact .inl ⟨e, w', h1, h2⟩
      · exact .inr ⟨C, w', op', rfl, h1, h3.constructed hk rfl _ rfl rfl rfl h2 (.inl rfl) (by rcases hkind with e | e <;> rw [e] <;> simp) ps hps.symm
          (by unfold splitOf; rcases hkind with e | e <;> simp [e])⟩
    have ctl : ∀ (ps : Option (List (OpParam K))) args, C.kind = .controlled → ps.getD [] = [] →
        (∃ e w', initOperation (ctlOp k C args [])
          (splitQubits C.ar.numControl args).2.2 w = (.error e, w') ∧ ∀ c, opsOf w' c = opsOf w c) ∨
        (∃ C' w' op', some C = some C' ∧ initOperation (ctlOp k C args []) (splitQubits C.ar.numControl args).2.2 w = (.ok w.ops.length, w') ∧
          Constructed w w' k ps args C' op') := by
      intro ps args hkind hps
      rcases initOperation_cases (K := K) (ctlOp k C args []) (splitQubits C.ar.numControl args).2.2 w with ⟨e, w', h1, h2⟩ | ⟨w', op', h1, h2, h3⟩
      · exact .inl ⟨e, w', h1, h2⟩
      · exact .inr ⟨C, w', op', rfl, h1, h3.constructed hk rfl _ rfl rfl rfl h2 (splitQubits_all _ _) (by rw [hkind]; simp) ps hps.symm (by simp [splitOf, hkind, ctlOp])⟩
    have pctl : ∀ (ps : List (OpParam K)) args, C.kind = .pcontrolled →
        (∃ e w', (checkParams C ps >>= fun _ => initOperation (ctlOp k C args ps) (splitQubits C.ar.numControl args).2.2 >>= fun o =>
          checkParams C ps >>= fun _ => modOp o (fun op => { op with params := ps }) >>= fun _ => pure o) w = (.error e, w') ∧
          ∀ c, opsOf w' c = opsOf w c) ∨
        (∃ C' w' op', some C = some C' ∧ (checkParams C ps >>= fun _ => initOperation (ctlOp k C args ps) (splitQubits C.ar.numControl args).2.2 >>= fun o =>
          checkParams C ps >>= fun _ => modOp o (fun op => { op with params := ps }) >>= fun _ => pure o) w = (.ok w.ops.length, w') ∧
          Constructed w w' k (some ps) args C' op') := by
      intro ps args hkind
      simp only [bind_def, checkParams, M.raiseIf]
      by_cases hn : decide (some ps.length ≠ C.numParams) = true
      · rw [if_pos hn]
        exact .inl ⟨_, _, rfl, fun _ => rfl⟩
      · simp only [if_neg hn]
        rcases initOperation_cases (K := K) (ctlOp k C args ps) (splitQubits C.ar.numControl args).2.2 w with
          ⟨e, w', h1, h2⟩ | ⟨w', op', h1, h2, h3⟩
        · rw [h1]
          exact .inl ⟨e, w', rfl, h2⟩
        · rw [h1]
          dsimp only
          have hget : w'.ops[w.ops.length]? = some op' := by rw [h3.ops]; simp
          refine .inr ⟨C, w'.setOp w.ops.length { op' with params := ps }, { op' with params := ps }, rfl, ?_, ?_⟩
          · simp only [modOp, M.write, hget]
            rfl
          · have hr := h3.rest
            have hcirc := h3.circs
            have e2 : op'.qubits = (splitQubits C.ar.numControl args).2.2 := by rw [hr]
            refine ⟨?_, ?_, ?_, ?_, ?_, ?_, ?_, ?_, h3.classes, h3.qubits, h3.bits, h3.vars, h3.active, h3.ctxs, h3.onExit, ?_, ?_, ?_⟩
            · show w'.ops.set _ _ = _
              rw [h3.ops]; simp
            · show op'.cls = k
              rw [hr]; rfl
            · show op'.bits = none
              rw [hr]; rfl
            · show op'.cond = none
              rw [hr]
            · show op'.qubits = _ ∨ (op'.qubits = none ∧ _)
              rw [e2]
              exact splitQubits_all _ _
            · show (op'.control, op'.target) = _
              rw [hr]; simp [splitOf, hkind, ctlOp]
            · show op'.numQubits = op'.qubits.map _
              rw [hr]
            · show _ → op'.qubits.isSome = true
              rw [e2]; exact h2
            · cases ht : w.target with
              | none => rw [ht] at hcirc; exact hcirc.1
              | some c =>
                rw [ht] at hcirc
                obtain ⟨D, b', g1, g2, g3, g4, -⟩ := hcirc
                exact ⟨D, b', g1, g2, g3, g4⟩
            · simp [hkind]
            · unfold World.concrete
              intro hk1 hk2
              cases ht : w.target with
              | none => rw [ht] at hk2; simp at hk2
              | some c =>
                rw [ht] at hcirc hk2
                obtain ⟨D, b', g1, g2, g3, g4, -, g6⟩ := hcirc
                simp only [g1, Bool.not_eq_true'] at hk2
                exact g6 C hk hk2 hk1
    rcases hkind : C.kind with _ | _ | _ | _ | _ <;> rcases ps with _ | ps <;> rcases args with l | ⟨a, b⟩ <;> dsimp only <;>
      first
      | exact .inl ⟨_, _, rfl, fun _ => rfl⟩
      | exact simple l (.inl hkind) rfl rfl
      | exact simple l (.inr hkind) rfl rfl
      | skip
    · -- parametric
      simp only [bind_def, checkParams, M.raiseIf]
      by_cases hn : decide (some ps.length ≠ C.numParams) = true
      · rw [if_pos hn]
        exact .inl ⟨_, _, rfl, fun _ => rfl⟩
      · simp only [if_neg hn]
        rcases initOperation_cases (K := K) { cls := k, params := ps } l w with ⟨e, w', h1, h2⟩ | ⟨w', op', h1, h2, h3⟩
        · exact .inl ⟨e, w', h1, h2⟩
        · exact .inr ⟨C, w', op', rfl, h1, h3.constructed hk rfl _ rfl rfl rfl h2 (.inl rfl) (by rw [hkind]; simp) (some ps) rfl
            (by simp [splitOf, hkind])⟩
    · exact ctl none (.qubits l) hkind rfl
    · exact ctl none (.split a b) hkind rfl
    · exact pctl ps (.qubits l) hkind
    · exact pctl ps (.split a b) hkind

/-- Applying an operation again calls the constructor of its class with its parameters, or raises. -/
theorem reapply_cases (o : Nat) (args : QArgs) (w : World K) :
    (∃ e, reapply o args w = (.error e, w)) ∨
    (∃ op C ps args', w.ops[o]? = some op ∧ w.classes[op.cls]? = some C ∧ (ps = none ∨ ps = some op.params) ∧
      (C.kind.isParametric = true → ps = some op.params) ∧
      reapply o args w = construct op.cls ps args' w) := by
  unfold reapply
  simp only [bind_def, opObj, clsObj, M.deref]
  cases ho : w.ops[o]? with
  | none => exact .inl ⟨_, rfl⟩
  | some op =>
    dsimp only
    cases hk : w.classes[op.cls]? with
    | none => exact .inl ⟨_, rfl⟩
    | some C =>
      dsimp only
      rcases hkind : C.kind with _ | _ | _ | _ | _ <;> rcases args with l | ⟨a, b⟩ <;> dsimp only <;>
        first
        | exact .inl ⟨_, rfl⟩
        | exact .inr ⟨op, C, none, _, rfl, hk, .inl rfl, by simp [hkind, OpKind.isParametric], rfl⟩
        | exact .inr ⟨op, C, some op.params, _, rfl, hk, .inr rfl, fun _ => rfl, rfl⟩

end DG
