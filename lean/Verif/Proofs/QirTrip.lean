import Verif.Proofs.QirLoad

/-! The loader succeeds. -/

namespace DG
open Spec
variable {K : Type} [DecidableEq K] [Zero K] {B : Qir.Before}

namespace Qir

omit [DecidableEq K] [Zero K] in
theorem checkArity_same {w : World K} {k m : Nat} {C : OpCls} (hk : w.classes[k]? = some C) (h : Arity.checkQubits C.ar m = (.ok m, C.ar)) :
    checkArity k m w = (.ok (), w) := by
  unfold checkArity
  rw [hk]
  dsimp only
  rw [h]
  obtain ⟨hlt, e⟩ := List.getElem?_eq_some_iff.1 hk
  have : w.classes.set k C = w.classes := by rw [← e, List.set_getElem_self]
  dsimp only
  have e2 : { C with ar := C.ar } = C := rfl
  rw [this]

/-- `Operation.__init__` in the context of the circuit. -/
theorem initOperation_ok {w : World K} {c x : Nat} {C : Circ} {L LC : Layout} (h : Loading w c C L LC) (ha : w.active = some x)
    (hx : w.ctxs[x]? = some ⟨c, false⟩) (hl : C.locked = false) (op : OpObj K) {k : OpCls} (hk : w.classes[op.cls]? = some k) {l : List Nat}
    (har : Arity.checkQubits k.ar l.length = (.ok l.length, k.ar)) (hev : ∀ v, OpParam.var v ∉ op.params) (hmem : ∀ q ∈ l, q ∈ L.items) :
    ∃ w', initOperation op (some l) w = (.ok w.ops.length, w') ∧ w'.classes = w.classes := by
  obtain ⟨op1, hop1⟩ : ∃ op1, op1 = { op with qubits := some l, numQubits := some l.length, cond := none } := ⟨_, rfl⟩
  obtain ⟨w2, hw2⟩ : ∃ w2 : World K, w2 = { w with ops := w.ops ++ [op1] } := ⟨_, rfl⟩
  have hop : w2.ops[w.ops.length]? = some op1 := by rw [hw2]; simp
  have hC2 : w2.circs[c]? = some C := by rw [hw2]; exact h.get
  have hk2 : w2.classes[op1.cls]? = some k := by rw [hw2, hop1]; exact hk
  have happ : ∃ w3, appendOp c w.ops.length w2 = (.ok (), w3) ∧ w3.classes = w.classes := by
    rcases appendOp_known hC2 hop hk2 hl with ⟨⟨-, -, h3⟩, -⟩ | ⟨-, e⟩
    · exact absurd (fun v hv => absurd (by rw [hop1] at hv; exact hv) (hev v)) h3
    · rw [e]
      obtain ⟨W, hW⟩ : ∃ W : World K, W = { w2 with ops := w2.ops.set w.ops.length { op1 with params := appendedParams w2 C (some k) op1 } } := ⟨_, rfl⟩
      rw [← hW]
      have hWC : W.circs[c]? = some C := by rw [hW]; exact hC2
      have hWop : W.ops[w.ops.length]? = some { op1 with params := appendedParams w2 C (some k) op1 } := by
        rw [hW]; exact List.getElem?_set_self (List.getElem?_eq_some_iff.1 hop).1
      obtain ⟨r, g1, -, g3⟩ := qubitsOf_eq hWC h.okq
      rcases appendTail_known hWC hWop g1 (g3 h.freshq) with ⟨⟨q, hq, hn⟩, -⟩ | ⟨-, b', -, e'⟩
      · refine absurd (Bank.obj_mem.2 (hmem q ?_)) hn
        rw [hop1] at hq
        exact hq
      · exact ⟨_, e', by rw [hW, hw2]; rfl⟩
  obtain ⟨w3, e3, hc3⟩ := happ
  refine ⟨w3, ?_, hc3⟩
  unfold initOperation
  simp only [bind_def, M.read, checkArg, checkArity_same hk har, newOp, Option.map_some]
  rw [← hop1, ← hw2, ha]
  simp only [register, bind_def, ctxObj, M.deref]
  have hx2 : w2.ctxs[x]? = some ⟨c, false⟩ := by rw [hw2]; exact hx
  simp only [hx2, M.whenever, Bool.not_false, if_true, e3]
  rfl

/-- Gates of the base profile are constructed. -/
theorem build_ok {w : World K} {c x : Nat} {C : Circ} {L LC : Layout} (h : Loading w c C L LC) (ha : w.active = some x)
    (hx : w.ctxs[x]? = some ⟨c, false⟩) (hl : C.locked = false) {lib : String → Nat} {name : String} {k : OpCls} (hk : w.classes[lib name]? = some k)
    {xs : List K} {ids : List Nat} (hg : GateClass xs.length ids.length k) (hmem : ∀ q ∈ ids, q ∈ L.items) :
    ∃ w', build lib name xs ids w = (.ok (), w') ∧ w'.classes = w.classes := by
  unfold build
  simp only [bind_def, clsObj, M.deref, hk]
  rcases hg with ⟨h1, h2, h3, h4⟩ | ⟨h1, h2, h3, h4, h5⟩ | ⟨h1, h2, h3, h4⟩
  · obtain rfl : xs = [] := List.length_eq_zero_iff.1 h1
    obtain ⟨w', e, hc⟩ := initOperation_ok h ha hx hl { cls := lib name } hk (l := ids) (by rw [h4, h2]; rfl) (by simp) hmem
    refine ⟨w', ?_, hc⟩
    simp only [h3, bindArgs, M.void, DG.construct, bind_def, clsObj, M.deref, hk, e]
  · obtain ⟨y, rfl⟩ := List.length_eq_one_iff.1 h1
    obtain ⟨w', e, hc⟩ := initOperation_ok h ha hx hl { cls := lib name, params := [.num y] } hk (l := ids) (by rw [h5, h2]; rfl) (by simp) hmem
    refine ⟨w', ?_, hc⟩
    simp only [h3, bindArgs, M.void, DG.construct, bind_def, clsObj, M.deref, hk, checkParams, h4, M.raiseIf, List.length_cons, List.length_nil]
    simp [e]
  · obtain rfl : xs = [] := List.length_eq_zero_iff.1 h1
    have hne : ids ≠ [] := by rintro rfl; simp at h2
    have har : Arity.checkQubits k.ar ids.length = (.ok ids.length, k.ar) := by
      rcases h4 with e | e <;> rw [e, h2] <;> rfl
    obtain ⟨a, l, hal⟩ := List.exists_cons_of_ne_nil hne
    have hsp : (splitQubits k.ar.numControl (.qubits (some ids))).2.2 = some ids := by
      rw [hal]
      cases k.ar.numControl <;> rfl
    obtain ⟨w', e, hc⟩ := initOperation_ok h ha hx hl
      { cls := lib name, control := (splitQubits k.ar.numControl (.qubits (some ids))).1, target := (splitQubits k.ar.numControl (.qubits (some ids))).2.1 }
      hk (l := ids) har (by simp) hmem
    refine ⟨w', ?_, hc⟩
    simp only [h3, bindArgs, M.void, DG.construct, bind_def, clsObj, M.deref, hk, hsp, e]

omit [DecidableEq K] [Zero K] in
theorem forall₂_mem {L : Layout} {ids is : List Nat} (h : List.Forall₂ (InCircuit L) ids is) : ∀ q ∈ ids, q ∈ L.items := by
  induction h with
  | nil => simp
  | cons h1 _ ih =>
    intro q hq
    rcases List.mem_cons.1 hq with rfl | hq
    · exact List.mem_of_getElem? h1
    · exact ih q hq

theorem loadGate_ok {w : World K} {c : Nat} {C : Circ} {L LC : Layout} (h : Loading w c C L LC) (ha : w.active = none) {lib : String → Nat} {name : String}
    {k : OpCls} (hk : w.classes[lib name]? = some k) {xs : List K} {is : List Nat} (hg : GateClass xs.length is.length k) :
    ∃ w', loadGate lib c name xs is w = (.ok (), w') ∧ w'.classes = w.classes := by
  obtain ⟨w1, C1, L1, x, ids, new, i1, i2, i3, i4, i5⟩ := loadGate_eq h ha lib name xs is
  obtain ⟨w2, e2, c2⟩ := build_ok i1.loading i1.active i1.ctx i1.unlocked (by rw [i1.classes]; exact hk) (xs := xs) (ids := ids)
    (by rw [i4.length_eq]; exact hg) (forall₂_mem i4)
  have hL1 : L1 ≠ [] := by
    rintro rfl
    have : Layout.items [] = [] := rfl
    rw [this, List.length_nil] at i3
    omega
  rw [i5, e2]
  dsimp only
  have e2' := e2
  unfold build at e2'
  simp only [bind_def, clsObj, M.deref] at e2'
  rw [i1.classes, hk] at e2'
  dsimp only at e2'
  cases hba : bindArgs k.kind xs with
  | none => rw [hba] at e2'; cases e2'
  | some ps =>
    rw [hba] at e2'
    dsimp only at e2'
    unfold M.void at e2'
    generalize hcon : DG.construct (lib name) ps (.qubits (some ids)) w1 = z at e2'
    obtain ⟨_ | o, w2'⟩ := z
    · cases e2'
    cases e2'
    obtain ⟨D, C2, op, -, j1, j2, j3, j4, j5⟩ := i1.loading.construct hL1 i1.target hcon
    obtain ⟨C3, w3, k1, k2, k3, k4, k5, k6, k7⟩ := j3.exit (x := x) (by rw [j2.ctxs]; exact i1.ctx)
    rw [k1]
    exact ⟨w3, rfl, by rw [k4, c2, i1.classes]⟩

omit [DecidableEq K] [Zero K] in
theorem deconstruct_known {args : List (QirArg K)} (h : KnownArgs args) : deconstruct args = .ok (doubleArgs args, qubitArgs args, resultArgs args) := by
  induction args with
  | nil => rfl
  | cons a as ih =>
    have ih := ih fun b hb => h b (by simp [hb])
    unfold deconstruct
    rw [ih]
    cases a with
    | other => exact absurd rfl (h _ (by simp))
    | dbl x => rfl
    | qubit x => rfl
    | result x => rfl

theorem base_names : ∀ g ∈ baseGates, fromQis.get? g.2.1 = some g.1 ∧ g.1 ≠ "Measurement" := by decide +kernel

theorem loadCall_ok {lib : String → Nat} {w0 w : World K} {c : Nat} {calls : List (String × List (QirArg K))} {acc : List Nat × List Nat} {C : Circ}
    {L LC : Layout} (h : State lib B w0 w c calls acc C L LC) (hl : HasLibrary lib w) {callee : String} {args : List (QirArg K)}
    (hb : ∀ call, qisCall (.call callee args) = some call → BaseProfile call) :
    ∃ acc' w', loadCall lib c callee args acc w = (.ok acc', w') ∧ w'.classes = w.classes := by
  unfold loadCall
  cases hq : isQis callee with
  | false => exact ⟨acc, w, rfl, rfl⟩
  | true =>
    have hin : "__qis__".toList <:+: callee.toList := (isQis_iff callee).1 hq
    have hc : qisCall (.call callee args) = some (callee, args) := by simp only [qisCall, if_pos hin]
    obtain ⟨h1, h2⟩ := hb _ hc
    simp only [Bool.not_true, Bool.false_eq_true, if_false]
    rcases h2 with ⟨g, hg, rfl, h3, h4⟩ | ⟨hcal, -, -⟩
    · obtain ⟨n1, n2⟩ := base_names g hg
      obtain ⟨k, k1, -, k3⟩ := hl.1 g hg
      dsimp only at h1 h3 h4
      rw [← h3, ← h4] at k3
      obtain ⟨w', e, hcl⟩ := loadGate_ok h.loading h.active k1 k3
      refine ⟨acc, w', ?_, hcl⟩
      simp only [n1, deconstruct_known h1, if_neg n2, bind_def, e]
      rfl
    · have n1 : fromQis.get? callee = some "Measurement" := by
        have : fromQis.get? "__quantum__qis__mz__body" = some "Measurement" := by decide +kernel
        rw [← this]; exact congrArg _ hcal
      refine ⟨(acc.1 ++ qubitArgs args, acc.2 ++ resultArgs args), w, ?_, rfl⟩
      simp only [n1, deconstruct_known h1, if_true]
      rfl

omit [DecidableEq K] [Zero K] in
theorem library_same {lib : String → Nat} {w w' : World K} (h : HasLibrary lib w) (e : w'.classes = w.classes) : HasLibrary lib w' := by
  unfold HasLibrary at h ⊢
  rw [e]
  exact h

theorem loadBlock_ok {lib : String → Nat} {w0 : World K} {c : Nat} {LC : Layout} (is : List (LInstr K)) {w : World K}
    {calls : List (String × List (QirArg K))} {acc : List Nat × List Nat} {C : Circ} {L : Layout} (h : State lib B w0 w c calls acc C L LC)
    (hl : HasLibrary lib w) (hb : ∀ call ∈ (is.takeWhile notRet).filterMap qisCall, BaseProfile call) :
    ∃ r w', loadBlock lib c is acc w = (.ok r, w') ∧ w'.classes = w.classes := by
  induction is generalizing w calls acc C L with
  | nil => exact ⟨_, w, rfl, rfl⟩
  | cons i is ih =>
    cases i with
    | ret => exact ⟨_, w, rfl, rfl⟩
    | other =>
      have h0 : notRet (.other : LInstr K) = true := rfl
      have h1 : qisCall (.other : LInstr K) = none := rfl
      rw [List.takeWhile_cons, if_pos h0, List.filterMap_cons_none h1] at hb
      exact ih h hl hb
    | call callee args =>
      have h0 : notRet (.call callee args) = true := rfl
      rw [List.takeWhile_cons, if_pos h0] at hb
      obtain ⟨acc1, w1, e1, c1⟩ := loadCall_ok h hl (callee := callee) (args := args) (fun call hc => hb call (by
        rw [List.filterMap_cons, hc]; simp))
      obtain ⟨C1, L1, h1⟩ := loadCall_state h e1
      obtain ⟨r, w2, e2, c2⟩ := ih h1 (library_same hl c1) (fun call hc => hb call (by
        rw [List.filterMap_cons]
        split
        · exact hc
        · exact List.mem_cons_of_mem _ hc))
      refine ⟨r, w2, ?_, c2.trans c1⟩
      unfold loadBlock
      rw [bind_def, e1]
      exact e2

theorem loadFunction_ok {lib : String → Nat} {w0 : World K} {c : Nat} {LC : Layout} (bs : List (List (LInstr K))) {w : World K}
    {calls : List (String × List (QirArg K))} {acc : List Nat × List Nat} {C : Circ} {L : Layout} (h : State lib B w0 w c calls acc C L LC)
    (hl : HasLibrary lib w) (hb : ∀ call ∈ qisCalls bs, BaseProfile call) :
    ∃ acc' w', loadFunction lib c bs acc w = (.ok acc', w') ∧ w'.classes = w.classes := by
  induction bs generalizing w calls acc C L with
  | nil => exact ⟨_, w, rfl, rfl⟩
  | cons b bs ih =>
    unfold qisCalls at hb
    rw [List.flatten_cons] at hb
    have hpre : b.takeWhile notRet <+: (b ++ bs.flatten).takeWhile notRet := by
      rw [List.takeWhile_append]
      split
      · next hlen =>
        rw [(List.takeWhile_prefix notRet (l := b)).eq_of_length hlen]
        exact List.prefix_append _ _
      · exact List.prefix_rfl
    obtain ⟨⟨r, acc1⟩, w1, e1, c1⟩ := loadBlock_ok b h hl (fun call hc => hb call ((hpre.sublist.filterMap _).subset hc))
    obtain ⟨⟨C1, L1, h1⟩, h2⟩ := loadBlock_state b h e1
    unfold loadFunction
    rw [bind_def, e1]
    dsimp only
    cases r with
    | true => exact ⟨acc1, w1, rfl, c1⟩
    | false =>
      have hall := h2.1 rfl
      have : (b ++ bs.flatten).takeWhile notRet = b ++ bs.flatten.takeWhile notRet := List.takeWhile_append_of_pos hall
      rw [this, List.filterMap_append] at hb
      obtain ⟨acc', w', e, hc⟩ := ih h1 (library_same hl c1) (fun call hcall => hb call (List.mem_append_right _ hcall))
      exact ⟨acc', w', e, hc.trans c1⟩

theorem loadFunctions_ok {lib : String → Nat} {w0 : World K} {c : Nat} {LC : Layout} (P : QirProgram K) {w : World K}
    {calls : List (String × List (QirArg K))} {acc : List Nat × List Nat} {C : Circ} {L : Layout} (h : State lib B w0 w c calls acc C L LC)
    (hl : HasLibrary lib w) (hb : ∀ call ∈ P.flatMap qisCalls, BaseProfile call) :
    ∃ acc' w', loadFunctions lib c P acc w = (.ok acc', w') ∧ w'.classes = w.classes := by
  induction P generalizing w calls acc C L with
  | nil => exact ⟨_, w, rfl, rfl⟩
  | cons f P ih =>
    rw [List.flatMap_cons] at hb
    obtain ⟨acc1, w1, e1, c1⟩ := loadFunction_ok f h hl (fun call hc => hb call (List.mem_append_left _ hc))
    obtain ⟨C1, L1, h1⟩ := loadFunction_state f h e1
    obtain ⟨acc', w', e, hc⟩ := ih h1 (library_same hl c1) (fun call hcall => hb call (List.mem_append_right _ hcall))
    refine ⟨acc', w', ?_, hc.trans c1⟩
    unfold loadFunctions
    rw [bind_def, e1]
    exact e

omit [DecidableEq K] [Zero K] in
theorem measureInto_ok {w : World K} {o n : Nat} {op : OpObj K} {k : OpCls} {bs : List Nat} (ho : w.ops[o]? = some op) (hk : w.classes[op.cls]? = some k)
    (hm : k.kind = .measurement) (hn : op.numQubits = some n) (hl : n ≤ bs.length) : ∃ w', DG.measureInto o bs w = (.ok (), w') := by
  unfold DG.measureInto
  simp only [bind_def, opObj, clsObj, M.deref, ho, hk, hm, hn, M.raiseIf]
  have : ¬ bs.length < n := by omega
  simp [this, modOp, M.write]

/-- The measurement is added. -/
theorem addMeasurements_ok {lib : String → Nat} {w0 w : World K} {c : Nat} {calls : List (String × List (QirArg K))} {acc : List Nat × List Nat} {C : Circ}
    {L LC : Layout} (h : State lib B w0 w c calls acc C L LC) (hl : HasLibrary lib w) (hne : acc.1 ≠ []) (hlen : acc.1.length ≤ acc.2.length)
    (hi : ∀ i ∈ acc.1, i < L.items.length) : ∃ w', addMeasurements lib c acc.1 acc.2 w = (.ok (), w') ∧ w'.classes = w.classes := by
  obtain ⟨w1, C1, LC1, x, i1, i2, -, i3⟩ := addMeasurements_eq h.loading h.active lib acc.1 acc.2
  obtain ⟨w3, C3, ids, bids, l3, q3, k3, x3, f1, f2, e3⟩ := applyMeasure_eq i1.loading lib acc.1 acc.2 hi (by
    intro j hj
    have := le_maxOf _ j hj
    omega)
  have hL : L ≠ [] := by
    rintro rfl
    obtain ⟨i, l, hil⟩ := List.exists_cons_of_ne_nil hne
    have := hi i (by rw [hil]; simp)
    exact absurd this (by simp [Layout.items])
  have hcls : w3.classes = w.classes := by rw [q3.classes, i1.classes]
  obtain ⟨k, k1, -, k4, k5⟩ := hl.2
  have ha3 : w3.active = some x := by rw [q3.active]; exact i1.active
  have hx3 : w3.ctxs[x]? = some ⟨c, false⟩ := by rw [x3]; exact i1.ctx
  obtain ⟨w4, e4, c4⟩ := initOperation_ok l3 ha3 hx3 (by rw [k3]; exact i1.unlocked) { cls := lib "Measurement" } (by rw [hcls]; exact k1) (l := ids)
    (by rw [k5]; rfl) (by simp) (forall₂_mem f1)
  have hcon : DG.construct (lib "Measurement") none (.qubits (some ids)) w3 = (.ok w3.ops.length, w4) := by
    simp only [DG.construct, bind_def, clsObj, M.deref, hcls, k1, k4, e4]
  obtain ⟨D, C4, op, -, j1, j2, j3, j4, j5⟩ := l3.construct hL (target_eq ha3 hx3) hcon
  have hop : op.qubits = some ids := by
    rcases j2.given with g | ⟨g, -⟩
    · exact g
    · have := j2.inside (by rw [ha3]; rfl)
      rw [g] at this; cases this
  obtain ⟨w5, e5⟩ := measureInto_ok (w := w4) (o := w3.ops.length) (op := op) (bs := bids) (n := ids.length) (by rw [j2.ops]; simp)
    (by rw [c4, hcls, j2.cls]; exact k1) k4 (by rw [j2.numQubits, hop]; rfl) (by rw [f1.length_eq, f2.length_eq]; exact hlen)
  obtain ⟨l5, op', n, o1, o2, o3, rfl⟩ := j3.measureInto e5
  obtain ⟨C6, w6, m1, -, -, m4, -⟩ := l5.exit (x := x) (by show w4.ctxs[x]? = _; rw [j2.ctxs]; exact hx3)
  refine ⟨w6, ?_, m4.trans (c4.trans hcls)⟩
  rw [i3, e3, bind_def, hcon]
  dsimp only
  rw [e5]
  dsimp only
  rw [m1]

/-- Qubits that are not used by gates cannot be measured. -/
theorem addMeasurements_index {lib : String → Nat} {w0 w : World K} {c : Nat} {calls : List (String × List (QirArg K))} {acc : List Nat × List Nat} {C : Circ}
    {L LC : Layout} (h : State lib B w0 w c calls acc C L LC) (hi : ¬ ∀ i ∈ acc.1, i < L.items.length) :
    ∃ w', addMeasurements lib c acc.1 acc.2 w = (.error .indexError, w') := by
  obtain ⟨w1, C1, LC1, x, i1, i2, -, i3⟩ := addMeasurements_eq h.loading h.active lib acc.1 acc.2
  obtain ⟨C2, w2, e2, l2, x2⟩ := applyMeasure_index i1.loading lib acc.1 acc.2 hi
  obtain ⟨C6, w6, m1, -⟩ := l2.exit (x := x) (by rw [x2]; exact i1.ctx)
  refine ⟨w6, ?_⟩
  rw [i3, e2]
  dsimp only
  rw [m1]

omit [DecidableEq K] [Zero K] in
theorem measured_length {calls : List (String × List (QirArg K))} (hb : ∀ call ∈ calls, BaseProfile call) :
    (measured calls).1.length = (measured calls).2.length := by
  unfold measured
  have : ∀ call ∈ calls.filter isMz, (qubitArgs call.2).length = 1 ∧ (resultArgs call.2).length = 1 := by
    intro call hc
    obtain ⟨h1, h2⟩ := List.mem_filter.1 hc
    rcases (hb call h1).2 with ⟨g, hg, e, -⟩ | ⟨-, -, h3, h4⟩
    · exfalso
      have : ∀ g ∈ baseGates, g.2.1 ≠ "__quantum__qis__mz__body" := by decide +kernel
      apply this g hg
      unfold isMz at h2
      rw [e]
      exact of_decide_eq_true h2
    · exact ⟨h3, h4⟩
  dsimp only
  generalize calls.filter isMz = l at this
  induction l with
  | nil => rfl
  | cons a l ih =>
    have h1 := this a (by simp)
    have h2 := ih fun b hb => this b (by simp [hb])
    simp only [List.flatMap_cons, List.length_append, h1.1, h1.2, h2]

end Qir

/-- Whether a program of the base profile is loaded into a circuit. -/
theorem loadInto_base {lib : String → Nat} {w0 w : World K} {c : Nat} {C : Circ} {L LC : Layout} (hS : Qir.State lib B w0 w c [] ([], []) C L LC)
    (hl : HasLibrary lib w) {P : QirProgram K} (hb : ∀ call ∈ P.flatMap qisCalls, BaseProfile call) :
    if ∀ i ∈ (measured (P.flatMap qisCalls)).1, i < max B.q.items.length (needed (P.flatMap qisCalls)) then
      ∃ w', Qir.loadInto lib c P w = (.ok (), w') ∧ w'.classes = w.classes
    else ∃ w', Qir.loadInto lib c P w = (.error .indexError, w') := by
  obtain ⟨acc, w2, e2, c2⟩ := Qir.loadFunctions_ok P hS hl hb
  obtain ⟨C2, L2, h2⟩ := Qir.loadFunctions_state P hS e2
  rw [List.nil_append] at h2
  have hacc := h2.acc
  have hdef : Qir.loadInto lib c P w = M.whenever (!acc.1.isEmpty) (Qir.addMeasurements lib c acc.1 acc.2) w2 := by
    unfold Qir.loadInto
    rw [bind_def, e2]
  rw [hdef, ← hacc, ← h2.count]
  unfold M.whenever
  by_cases hne : acc.1 = []
  · rw [if_pos (by simp [hne])]
    simp only [hne]
    exact ⟨_, rfl, c2⟩
  · have : (!acc.1.isEmpty) = true := by simpa using hne
    simp only [this, if_true]
    split
    · next hi =>
      obtain ⟨w', e, c3⟩ := Qir.addMeasurements_ok h2 (Qir.library_same hl c2) hne (by rw [hacc]; exact (Qir.measured_length hb).le) hi
      exact ⟨_, e, by rw [c3, c2]⟩
    · next hi =>
      obtain ⟨w', e⟩ := Qir.addMeasurements_index h2 hi
      exact ⟨_, e⟩

/-- Whether a program of the base profile is loaded. -/
theorem fromQir_base {w : World K} (hr : Refs w) (hq : QInv false false w) (hc : CInv false w) (ha : w.active = none) {lib : String → Nat}
    (hl : HasLibrary lib w) {P : QirProgram K} (hb : ∀ call ∈ P.flatMap qisCalls, BaseProfile call) :
    if ∀ i ∈ (measured (P.flatMap qisCalls)).1, i < needed (P.flatMap qisCalls) then ∃ c w', fromQir lib P w = (.ok c, w') ∧ w'.classes = w.classes
    else ∃ w', fromQir lib P w = (.error .indexError, w') := by
  obtain ⟨w1, hw1⟩ : ∃ w1 : World K, w1 = { w with circs := w.circs ++ [{ param := false }] } := ⟨_, rfl⟩
  have e0 : newCirc (K := K) false none none w = (.ok w.circs.length, w1) := by rw [hw1]; rfl
  have hS := newCirc_state hr hq hc ha lib e0
  have hl1 : HasLibrary lib w1 := Qir.library_same hl (by rw [hw1])
  have := loadInto_base hS hl1 hb
  rw [show max (Layout.items []).length (needed (P.flatMap qisCalls)) = needed (P.flatMap qisCalls) by simp [Layout.items]] at this
  have hdef : fromQir lib P w = (Qir.loadInto lib w.circs.length P >>= fun _ => pure w.circs.length) w1 := by
    unfold fromQir
    rw [bind_def, e0]
  rw [hdef, bind_def]
  split
  · next hi =>
    rw [if_pos hi] at this
    obtain ⟨w', e, c3⟩ := this
    rw [e]
    exact ⟨_, _, rfl, by rw [c3, hw1]⟩
  · next hi =>
    rw [if_neg hi] at this
    obtain ⟨w', e⟩ := this
    rw [e]
    exact ⟨_, rfl⟩

end DG
