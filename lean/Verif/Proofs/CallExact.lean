import Verif.Spec.Call
import Verif.Proofs.CallCirc
import Verif.Proofs.CircuitRegs
import Verif.Proofs.Qasm

/-! When calls of circuits succeed, and what they leave if they do not. -/

namespace DG
open Spec
variable {K : Type}

theorem lookupAll_total (d : PyDict Lbl Nat) (l : List Nat) (h : ∀ k ∈ l, ∃ y, d.get? (.obj k) = some y) (w : World K) :
    ∃ ys, lookupAll d l w = (.ok ys, w) := by
  induction l with
  | nil => exact ⟨[], rfl⟩
  | cons k l ih =>
    obtain ⟨y, hy⟩ := h k (by simp)
    obtain ⟨ys, hys⟩ := ih fun k hk => h k (by simp [hk])
    exact ⟨y :: ys, by unfold lookupAll; simp only [bind_def, lookup, hy, hys]; rfl⟩

theorem lookupAll_fails (d : PyDict Lbl Nat) (l : List Nat) (h : ∃ k ∈ l, d.get? (.obj k) = none) (w : World K) :
    lookupAll d l w = (.error .keyError, w) := by
  induction l with
  | nil => obtain ⟨k, hk, -⟩ := h; cases hk
  | cons k l ih =>
    unfold lookupAll
    cases hk : d.get? (.obj k) with
    | none => simp only [bind_def, lookup, hk]
    | some y =>
      have : ∃ k ∈ l, d.get? (.obj k) = none := by
        obtain ⟨k', h1, h2⟩ := h
        rcases List.mem_cons.1 h1 with rfl | h1
        · rw [hk] at h2; cases h2
        · exact ⟨k', h1, h2⟩
      simp only [bind_def, lookup, hk, ih this]

theorem zip_get_none {items : List Lbl} {l : List Nat} (hl : items.length = l.length) (x : Nat) :
    (PyDict.ofPairs (items.zip l)).get? (.obj x) = none ↔ Lbl.obj x ∉ items := by
  rw [PyDict.get?_eq_none_iff, PyDict.mem_keys_ofPairs]
  unfold PyDict.keys
  rw [List.map_fst_zip (by omega)]

theorem zip_get_mem {items : List Lbl} {l : List Nat} (hl : items.length = l.length) {x : Nat} (h : Lbl.obj x ∈ items) :
    ∃ y, (PyDict.ofPairs (items.zip l)).get? (.obj x) = some y := by
  cases e : (PyDict.ofPairs (items.zip l)).get? (.obj x) with
  | none => exact absurd h ((zip_get_none hl x).1 e)
  | some y => exact ⟨y, rfl⟩

theorem samePlace_unique {items : List Lbl} {l : List Nat} (hn : items.Nodup) {x y y' : Nat} (h : SamePlace items l x y) (h' : SamePlace items l x y') :
    y = y' := by
  obtain ⟨i, h1, h2⟩ := h
  obtain ⟨j, h3, h4⟩ := h'
  obtain ⟨hi, e1⟩ := List.getElem?_eq_some_iff.1 h1
  obtain ⟨hj, e2⟩ := List.getElem?_eq_some_iff.1 h3
  have : i = j := (List.Nodup.getElem_inj_iff hn).1 (e1.trans e2.symm)
  subst this
  rw [h2] at h4
  cases h4
  rfl

theorem checkQubits_stable {c : Arity.Cls} (h0 : c.numQubits ≠ some 0) (m : Nat) :
    Arity.checkQubits c m = (if c.numQubits ≠ none ∧ c.numQubits ≠ some m then .error .valueError else .ok m, c) := by
  unfold Arity.checkQubits
  rcases c with ⟨ctl, nq, nc, nt⟩
  cases nq with
  | none => simp
  | some k =>
    have hk : k ≠ 0 := fun e => h0 (by simp [e])
    have e1 : Arity.clsNumQubits ⟨ctl, some k, nc, nt⟩ = (.ok k, ⟨ctl, some k, nc, nt⟩) := by
      unfold Arity.clsNumQubits
      have : Arity.truthy (some k) = some k := by
        cases k with
        | zero => exact absurd rfl hk
        | succ k => rfl
      cases ctl <;> simp [this]
    simp only [e1]
    by_cases hm : m = k
    · subst hm; simp
    · have : ¬ k = m := fun e => hm e.symm
      simp [hm, this]

theorem checkArity_stable {w : World K} {k m : Nat} {C : OpCls} (hk : w.classes[k]? = some C) (h0 : C.ar.numQubits ≠ some 0) :
    checkArity k m w = (if C.ar.numQubits ≠ none ∧ C.ar.numQubits ≠ some m then .error .valueError else .ok (), w) := by
  unfold checkArity
  rw [hk]
  dsimp only
  rw [checkQubits_stable h0]
  obtain ⟨hlt, e⟩ := List.getElem?_eq_some_iff.1 hk
  have : w.classes.set k C = w.classes := by rw [← e, List.set_getElem_self]
  dsimp only
  have e2 : { C with ar := C.ar } = C := rfl
  rw [this]
  by_cases c : C.ar.numQubits ≠ none ∧ C.ar.numQubits ≠ some m
  · rw [if_pos c, if_pos c]
  · rw [if_neg c, if_neg c]

theorem NoneAppended.refl (w : World K) : NoneAppended w w := ⟨List.prefix_rfl, rfl, rfl, rfl, rfl, rfl, rfl, rfl, rfl⟩

theorem bare_setCirc {w : World K} {c : Nat} {C : Circ} {b : Bank} (hC : w.circs[c]? = some C) (hb : b.regs = C.q.regs) :
    (w.setCirc c { C with q := b }).circs.map bare = w.circs.map bare := by
  show (w.circs.set c _).map bare = _
  rw [List.map_set]
  have e : bare { C with q := b } = bare C := by unfold bare; simp only [hb]
  rw [e]
  obtain ⟨hlt, e⟩ := List.getElem?_eq_some_iff.1 hC
  subst e
  have := List.set_getElem_self (as := w.circs.map bare) (i := c) (by simpa using hlt)
  rwa [List.getElem_map] at this

variable [DecidableEq K] [Zero K]

/-- The state in which operations are copied to circuit `D`, which has the qubits `L`. -/
structure Inside (W : World K) (B : Nat) (D : Circ) (L : Layout) : Prop where
  target : W.target = some B
  get : W.circs[B]? = some D
  qinv : QInv true false W
  shows : Shows D.q L

open Classical in
/-- The part of `refusal` that `Operation.__init__` checks. -/
noncomputable def initRefusal (w : World K) (D : Circ) (L : List Nat) (C : OpCls) (ps : List (OpParam K)) (l : List Nat) : Option Err :=
  if C.ar.numQubits ≠ none ∧ C.ar.numQubits ≠ some l.length then some .valueError
  else if D.locked = true then some .circuitError
  else if C.kind.isParametric = true ∧ D.parametric = false ∧ ∃ v, OpParam.var v ∈ ps ∧ ¬ HasValue w v then some .valueError
  else if ∃ q ∈ l, q ∉ L then some .valueError
  else none

omit [DecidableEq K] in
theorem evaluates_iff (w : World K) (ps : List (OpParam K)) : ¬ Evaluates w.varVal ps ↔ ∃ v, OpParam.var v ∈ ps ∧ ¬ HasValue w v := by
  unfold Evaluates HasValue
  push Not
  rfl

/-- `Operation.__init__` in a context. -/
theorem initOperation_exact {W : World K} {B : Nat} {D : Circ} {L : Layout} (h : Inside W B D L) (op : OpObj K) {C : OpCls}
    (hk : W.classes[op.cls]? = some C) (h0 : C.ar.numQubits ≠ some 0) (l : List Nat) :
    match initRefusal W D L.items C op.params l with
    | some e => ∃ W', initOperation op (some l) W = (.error e, W') ∧ NoneAppended W W'
    | none => ∃ W', initOperation op (some l) W = (.ok W.ops.length, W') ∧ W'.classes = W.classes := by
  obtain ⟨x, X, hx, hX, hf, rfl⟩ : ∃ x X, W.active = some x ∧ W.ctxs[x]? = some X ∧ X.frozen = false ∧ X.circuit = B := by
    have ht := h.target
    unfold World.target at ht
    cases ha : W.active with
    | none => rw [ha] at ht; cases ht
    | some x =>
      rw [ha] at ht
      dsimp only at ht
      cases hX : W.ctxs[x]? with
      | none => rw [hX] at ht; cases ht
      | some X =>
        rw [hX] at ht
        dsimp only at ht
        cases hf : X.frozen with
        | true => rw [hf] at ht; cases ht
        | false =>
          rw [hf] at ht
          exact ⟨x, X, rfl, hX, hf, by simpa using ht⟩
  obtain ⟨op1, hop1⟩ : ∃ op1, op1 = { op with qubits := some l, numQubits := some l.length, cond := none } := ⟨_, rfl⟩
  obtain ⟨w2, hw2⟩ : ∃ w2 : World K, w2 = { W with ops := W.ops ++ [op1] } := ⟨_, rfl⟩
  have hop : w2.ops[W.ops.length]? = some op1 := by rw [hw2]; simp
  have hC2 : w2.circs[X.circuit]? = some D := by rw [hw2]; exact h.get
  have hk2 : w2.classes[op1.cls]? = some C := by rw [hw2, hop1]; exact hk
  have hX2 : w2.ctxs[x]? = some X := by rw [hw2]; exact hX
  have hv2 : w2.varVal = W.varVal := by rw [hw2]; rfl
  unfold initRefusal
  -- the number of qubits
  have hargs := checkArity_stable (m := l.length) hk h0
  by_cases c1 : C.ar.numQubits ≠ none ∧ C.ar.numQubits ≠ some l.length
  · rw [if_pos c1]
    rw [if_pos c1] at hargs
    refine ⟨W, ?_, NoneAppended.refl W⟩
    unfold initOperation
    simp only [bind_def, M.read, checkArg, hargs]
  rw [if_neg c1]
  rw [if_neg c1] at hargs
  have hinit : initOperation op (some l) W = match appendOp X.circuit W.ops.length w2 with
      | (.error e, w) => (.error e, w)
      | (.ok _, w) => (.ok W.ops.length, w) := by
    unfold initOperation
    simp only [bind_def, M.read, checkArg, hargs, newOp, Option.map_some]
    rw [← hop1, ← hw2, hx]
    simp only [register, bind_def, ctxObj, M.deref, hX2, M.whenever, hf, Bool.not_false, if_true]
    rcases appendOp X.circuit W.ops.length w2 with ⟨_ | _, _⟩ <;> rfl
  rw [hinit]
  -- the lock
  by_cases c2 : D.locked = true
  · rw [if_pos c2]
    have : appendOp X.circuit W.ops.length w2 = (.error .circuitError, w2) := by
      unfold appendOp
      simp only [bind_def, circ, M.deref, hC2, M.raiseIf, c2, if_true]
    rw [this]
    exact ⟨w2, rfl, by rw [hw2]; exact ⟨List.prefix_append .., rfl, rfl, rfl, rfl, rfl, rfl, rfl, rfl⟩⟩
  rw [if_neg c2]
  have hl : D.locked = false := by simpa using c2
  have hps : op1.params = op.params := by rw [hop1]
  rcases appendOp_known hC2 hop hk2 hl with ⟨⟨h1, h2, h3⟩, ps, e⟩ | ⟨h1, e⟩
  · rw [hv2, hps, evaluates_iff] at h3
    rw [if_pos ⟨h2, h1, h3⟩, e]
    refine ⟨_, rfl, ?_⟩
    rw [hw2]
    exact ⟨by simp, rfl, rfl, rfl, rfl, rfl, rfl, rfl, rfl⟩
  · have c3 : ¬ (C.kind.isParametric = true ∧ D.parametric = false ∧ ∃ v, OpParam.var v ∈ op.params ∧ ¬ HasValue W v) := by
      rintro ⟨g1, g2, g3⟩
      rw [← evaluates_iff, ← hv2, ← hps] at g3
      exact g3 (h1 g2 g1)
    rw [if_neg c3, e]
    obtain ⟨W2, hW2⟩ : ∃ W2 : World K, W2 = { w2 with ops := w2.ops.set W.ops.length { op1 with params := appendedParams w2 D (some C) op1 } } := ⟨_, rfl⟩
    rw [← hW2]
    have hWC : W2.circs[X.circuit]? = some D := by rw [hW2]; exact hC2
    have hWop : W2.ops[W.ops.length]? = some { op1 with params := appendedParams w2 D (some C) op1 } := by
      rw [hW2]; exact List.getElem?_set_self (List.getElem?_eq_some_iff.1 hop).1
    obtain ⟨L', g1, g2, -⟩ := h.qinv.bank D (mem_of_get? h.get)
    cases Bank.shows_unique g1.shows h.shows
    obtain ⟨r, q1, -, q3⟩ := qubitsOf_eq hWC g1
    have hops : ∃ op', W2.ops = W.ops ++ [op'] := by rw [hW2, hw2]; simp
    have hrest : W2 = { W with ops := W2.ops } := by rw [hW2, hw2]
    rcases appendTail_known hWC hWop q1 (q3 (g2 (.inl rfl))) with ⟨⟨q, hq, hn⟩, w', e', ht⟩ | ⟨hall, b', -, e'⟩
    · have c4 : ∃ q ∈ l, q ∉ L.items := ⟨q, by rw [hop1] at hq; exact hq, fun hm => hn (Bank.obj_mem.2 hm)⟩
      rw [if_pos c4, e']
      refine ⟨w', rfl, ?_⟩
      obtain ⟨op', hops⟩ := hops
      rcases ht with rfl | ⟨D', b, t1, t2, rfl⟩
      · rw [hrest, hops]
        exact ⟨List.prefix_append .., rfl, rfl, rfl, rfl, rfl, rfl, rfl, rfl⟩
      · refine ⟨?_, ?_, ?_, ?_, ?_, ?_, ?_, ?_, ?_⟩
        · show W.ops <+: W2.ops
          rw [hops]; exact List.prefix_append ..
        · rw [bare_setCirc t1 t2, hrest]
        all_goals (unfold World.setCirc; rw [hrest])
    · have c4 : ¬ ∃ q ∈ l, q ∉ L.items := by
        rintro ⟨q, h1, h2⟩
        exact h2 (Bank.obj_mem.1 (hall q (by rw [hop1]; exact h1)))
      rw [if_neg c4, e']
      exact ⟨_, rfl, by unfold World.setCirc; rw [hrest]⟩

omit [DecidableEq K] in
theorem initRefusal_plain {W : World K} {D : Circ} {L : List Nat} {C : OpCls} (h : C.kind.isParametric = false) (ps ps' : List (OpParam K)) (l : List Nat) :
    initRefusal W D L C ps l = initRefusal W D L C ps' l := by
  unfold initRefusal
  simp [h]

/-- The arguments with which the operations of the called circuit are constructed. -/
def CallArgs (C : OpCls) (ps : Option (List (OpParam K))) (args : QArgs) (mapped : List Nat) : Prop :=
  match C.kind with
  | .plain | .measurement => ps = none ∧ args = .qubits (some mapped)
  | .parametric => args = .qubits (some mapped) ∧ ∃ l, ps = some l ∧ C.numParams = some l.length
  | .controlled => ps = none ∧ ∃ a b, mapped = [a, b] ∧ args = .split (some [a]) (some [b])
  | .pcontrolled => args = .qubits (some mapped) ∧ mapped ≠ [] ∧ ∃ l, ps = some l ∧ C.numParams = some l.length

/-- The constructors in a context. -/
theorem construct_exact {W : World K} {B : Nat} {D : Circ} {L : Layout} (h : Inside W B D L) {k : Nat} {C : OpCls}
    (hk : W.classes[k]? = some C) (h0 : C.ar.numQubits ≠ some 0) {ps : Option (List (OpParam K))} {args : QArgs} {mapped : List Nat}
    (ha : CallArgs C ps args mapped) :
    match initRefusal W D L.items C (ps.getD []) mapped with
    | some e => ∃ W', construct k ps args W = (.error e, W') ∧ NoneAppended W W'
    | none => ∃ W', construct k ps args W = (.ok W.ops.length, W') ∧ W'.classes = W.classes := by
  unfold CallArgs at ha
  rcases hkind : C.kind with _ | _ | _ | _ | _ <;> rw [hkind] at ha <;> dsimp only at ha
  · obtain ⟨rfl, rfl⟩ := ha
    have := initOperation_exact h { cls := k } hk h0 mapped
    simp only [construct, bind_def, clsObj, M.deref, hk, hkind]
    exact this
  · obtain ⟨rfl, l, rfl, hn⟩ := ha
    have := initOperation_exact h { cls := k, params := l } hk h0 mapped
    simp only [construct, bind_def, clsObj, M.deref, hk, hkind, checkParams, hn, M.raiseIf, ne_eq, not_true_eq_false, decide_false, Bool.false_eq_true,
      if_false]
    exact this
  · obtain ⟨rfl, a, b, rfl, rfl⟩ := ha
    have := initOperation_exact h { cls := k, control := some [a], target := some [b] } hk h0 [a, b]
    simp only [construct, bind_def, clsObj, M.deref, hk, hkind, splitQubits, nonempty]
    exact this
  · obtain ⟨rfl, hne, l, rfl, hn⟩ := ha
    obtain ⟨z, zs, rfl⟩ := List.exists_cons_of_ne_nil hne
    obtain ⟨c, t, hs⟩ : ∃ c t, splitQubits C.ar.numControl (.qubits (some (z :: zs))) = (c, t, some (z :: zs)) := by
      unfold splitQubits
      simp only [nonempty]
      cases C.ar.numControl <;> exact ⟨_, _, rfl⟩
    have := initOperation_exact h { cls := k, control := c, target := t, params := l } hk h0 (z :: zs)
    simp only [construct, bind_def, clsObj, M.deref, hk, hkind, hs, checkParams, hn, M.raiseIf, ne_eq, not_true_eq_false, decide_false, Bool.false_eq_true,
      if_false]
    revert this
    dsimp only [Option.getD_some]
    cases initRefusal W D L.items C l (z :: zs) with
    | some e =>
      rintro ⟨W', e1, e2⟩
      rw [e1]
      exact ⟨W', rfl, e2⟩
    | none =>
      rintro ⟨W', e1, e2⟩
      rw [e1]
      rcases initOperation_cases { cls := k, control := c, target := t, params := l } (some (z :: zs)) W with ⟨e, w', f1, -⟩ | ⟨w', op', f1, -, f2⟩
      · rw [e1] at f1; cases f1
      · rw [e1] at f1
        cases f1
        have : W'.ops[W.ops.length]? = some op' := by rw [f2.ops]; simp
        simp only [modOp, M.write, this]
        exact ⟨_, rfl, e2⟩
  · obtain ⟨rfl, rfl⟩ := ha
    have := initOperation_exact h { cls := k } hk h0 mapped
    simp only [construct, bind_def, clsObj, M.deref, hk, hkind]
    exact this

/-- The keys of the dictionary of bits. -/
def BitDict (bitItems : Option (List Lbl)) (bm : Option (PyDict Lbl Nat)) : Prop :=
  match bitItems, bm with
  | .none, .none => True
  | .some l, .some m => ∀ x, m.get? (.obj x) = .none ↔ Lbl.obj x ∉ l
  | _, _ => False

/-- The dictionary of bits belongs to the relation. -/
def BitRel (bm : Option (PyDict Lbl Nat)) (R : Option (Nat → Nat → Prop)) : Prop :=
  match bm, R with
  | .none, .none => True
  | .some m, .some R => ∀ x y, m.get? (.obj x) = some y → R x y
  | _, _ => False


/-- The dictionaries of a call. -/
structure Dicts (items : List Lbl) (qs : List Nat) (bitItems : Option (List Lbl)) (qm : PyDict Lbl Nat) (bm : Option (PyDict Lbl Nat)) : Prop where
  nodup : items.Nodup
  none : ∀ x, qm.get? (.obj x) = none ↔ Lbl.obj x ∉ items
  place : ∀ x y, qm.get? (.obj x) = some y → SamePlace items qs x y
  bits : BitDict bitItems bm

theorem call_mem_left {α β : Type} {R : α → β → Prop} {l : List α} {m : List β} (h : List.Forall₂ R l m) {a : α} (ha : a ∈ l) : ∃ b ∈ m, R a b := by
  induction h with
  | nil => cases ha
  | cons h1 _ ih =>
    rcases List.mem_cons.1 ha with rfl | ha
    · exact ⟨_, by simp, h1⟩
    · obtain ⟨b, hb, h2⟩ := ih ha
      exact ⟨b, by simp [hb], h2⟩

theorem call_mem_right {α β : Type} {R : α → β → Prop} {l : List α} {m : List β} (h : List.Forall₂ R l m) {b : β} (hb : b ∈ m) : ∃ a ∈ l, R a b := by
  obtain ⟨a, ha, h1⟩ := call_mem_left (List.Forall₂.flip h) hb
  exact ⟨a, ha, h1⟩

omit [DecidableEq K] in
/-- After the first checks. -/
theorem refusal_tail {W : World K} {D : Circ} {L : List Nat} {items : List Lbl} {qs : List Nat} {bitItems : Option (List Lbl)} {C : OpCls} {op : OpObj K}
    {qm : PyDict Lbl Nat} {bm : Option (PyDict Lbl Nat)} (hd : Dicts items qs bitItems qm bm) {mapped : List Nat}
    (hm : List.Forall₂ (fun x y => qm.get? (.obj x) = some y) (op.qubits.getD []) mapped)
    (c1 : ¬ ∃ q ∈ op.qubits.getD [], Lbl.obj q ∉ items)
    (c2 : ¬ (C.kind = .measurement ∧ ∃ l, bitItems = some l ∧ ∃ b ∈ op.bits.getD [], Lbl.obj b ∉ l))
    (c3 : ¬ (C.kind = .controlled ∧ (op.qubits.getD []).length ≠ 2))
    (c4 : ¬ (C.kind.isParametric = true ∧ C.numParams ≠ some op.params.length))
    (c5 : ¬ (C.kind = .pcontrolled ∧ op.qubits.getD [] = [])) :
    refusal W D L items qs bitItems C op = initRefusal W D L C op.params mapped := by
  unfold refusal initRefusal
  dsimp only
  rw [if_neg c1, if_neg c2, if_neg c3, if_neg c4, if_neg c5, hm.length_eq]
  have key : (∃ q ∈ op.qubits.getD [], ∃ q', SamePlace items qs q q' ∧ q' ∉ L) ↔ ∃ q ∈ mapped, q ∉ L := by
    constructor
    · rintro ⟨q, h1, q', h2, h3⟩
      obtain ⟨y, hy, e⟩ := call_mem_left hm h1
      rw [samePlace_unique hd.nodup h2 (hd.place _ _ e)] at h3
      exact ⟨y, hy, h3⟩
    · rintro ⟨y, h1, h2⟩
      obtain ⟨q, hq, e⟩ := call_mem_right hm h1
      exact ⟨q, hq, y, hd.place _ _ e, h2⟩
  simp only [key]

/-- The body of the loop of `Circuit.__call__`, when the qubits have been looked up. -/
def callRest (op : OpObj K) (C : OpCls) (mapped : List Nat) (bm : Option (PyDict Lbl Nat)) : M K Unit :=
  match C.kind, bm with
  | .measurement, some bm => do
    let mb ← lookupAll bm (op.bits.getD [])
    let o' ← construct op.cls none (.qubits (some mapped))
    measureInto o' mb
  | .measurement, none => construct op.cls none (.qubits (some mapped)) >>= fun _ => pure ()
  | .parametric, _ => construct op.cls (some op.params) (.qubits (some mapped)) >>= fun _ => pure ()
  | .pcontrolled, _ => construct op.cls (some op.params) (.qubits (some mapped)) >>= fun _ => pure ()
  | .controlled, _ =>
    match starArgs mapped with
    | some a => construct op.cls none a >>= fun _ => pure ()
    | none => M.raise .typeError
  | .plain, _ => construct op.cls none (.qubits (some mapped)) >>= fun _ => pure ()

theorem callOne_rest {W : World K} {qm : PyDict Lbl Nat} (bm : Option (PyDict Lbl Nat)) {o : Nat} {op : OpObj K} {C : OpCls} {mapped : List Nat}
    (ho : W.ops[o]? = some op) (hk : W.classes[op.cls]? = some C) (hmap : lookupAll qm (op.qubits.getD []) W = (.ok mapped, W)) :
    callOne qm bm o W = callRest op C mapped bm W := by
  unfold callOne callRest
  simp only [bind_def, opObj, clsObj, M.deref, ho, hk, hmap]
  rcases C.kind with _ | _ | _ | _ | _ <;> rcases bm with _ | bm <;> try rfl
  all_goals (dsimp only; cases starArgs mapped <;> rfl)

/-- One operation of the called circuit. -/
theorem callOne_exact {W : World K} {B : Nat} {D : Circ} {L : Layout} (h : Inside W B D L) {items : List Lbl} {qs : List Nat}
    {bitItems : Option (List Lbl)} {qm : PyDict Lbl Nat} {bm : Option (PyDict Lbl Nat)} (hd : Dicts items qs bitItems qm bm) {o : Nat} {op : OpObj K}
    {C : OpCls} (ho : W.ops[o]? = some op) (hk : W.classes[op.cls]? = some C) (h0 : C.ar.numQubits ≠ some 0) :
    match refusal W D L.items items qs bitItems C op with
    | some e => ∃ W', callOne qm bm o W = (.error e, W') ∧ NoneAppended W W'
    | none =>
      (LacksBits bitItems C op → ∃ W' op', callOne qm bm o W = (.error .valueError, W') ∧ Grown W W' B D [op'] ∧
        CopyOf W C (D.parametric = false) (fun x y => qm.get? (.obj x) = some y) none op op') ∧
      (¬ LacksBits bitItems C op → ∃ W', callOne qm bm o W = (.ok (), W') ∧ W'.classes = W.classes) := by
  -- the qubits
  by_cases c1 : ∃ q ∈ op.qubits.getD [], Lbl.obj q ∉ items
  · have e : refusal W D L.items items qs bitItems C op = some .keyError := by unfold refusal; dsimp only; rw [if_pos c1]
    rw [e]
    refine ⟨W, ?_, NoneAppended.refl W⟩
    unfold callOne
    simp only [bind_def, opObj, clsObj, M.deref, ho, hk]
    rw [lookupAll_fails]
    obtain ⟨q, h1, h2⟩ := c1
    exact ⟨q, h1, (hd.none q).2 h2⟩
  obtain ⟨mapped, hmap⟩ := lookupAll_total qm (op.qubits.getD []) (by
    intro q hq
    cases e : qm.get? (.obj q) with
    | none => exact absurd ⟨q, hq, (hd.none q).1 e⟩ c1
    | some y => exact ⟨y, rfl⟩) W
  have hm := (lookupAll_ok _ _ _ _ _ hmap).2
  -- kinds that only call the constructor
  have one : ∀ ps args, callOne qm bm o W = (construct op.cls ps args >>= fun _ => pure ()) W → CallArgs C ps args mapped →
      (C.kind.isParametric = true → ps.getD [] = op.params) → (C.kind = .measurement → bitItems = none) →
      match refusal W D L.items items qs bitItems C op with
      | some e => ∃ W', callOne qm bm o W = (.error e, W') ∧ NoneAppended W W'
      | none =>
        (LacksBits bitItems C op → ∃ W' op', callOne qm bm o W = (.error .valueError, W') ∧ Grown W W' B D [op'] ∧
          CopyOf W C (D.parametric = false) (fun x y => qm.get? (.obj x) = some y) none op op') ∧
        (¬ LacksBits bitItems C op → ∃ W', callOne qm bm o W = (.ok (), W') ∧ W'.classes = W.classes) := by
    intro ps args hc ha hps hbi
    have ha' := ha
    unfold CallArgs at ha'
    rw [refusal_tail hd hm c1]
    · have hx := construct_exact h hk h0 ha
      have he : initRefusal W D L.items C (ps.getD []) mapped = initRefusal W D L.items C op.params mapped := by
        cases hp : C.kind.isParametric with
        | true => rw [hps hp]
        | false => exact initRefusal_plain hp _ _ _
      rw [he] at hx
      rw [hc, bind_def]
      revert hx
      cases initRefusal W D L.items C op.params mapped with
      | some e =>
        rintro ⟨W', e1, e2⟩
        rw [e1]
        exact ⟨W', rfl, e2⟩
      | none =>
        rintro ⟨W', e1, e2⟩
        rw [e1]
        refine ⟨?_, fun _ => ⟨W', rfl, e2⟩⟩
        rintro ⟨g1, g2, -⟩
        rw [hbi g1] at g2
        cases g2
    · rintro ⟨g1, l, g2, -⟩
      rw [hbi g1] at g2
      cases g2
    · rintro ⟨g1, g2⟩
      rw [g1] at ha'
      obtain ⟨-, a, b, rfl, -⟩ := ha'
      exact g2 hm.length_eq
    · rintro ⟨g1, g2⟩
      have hps' := hps g1
      rcases hkind : C.kind with _ | _ | _ | _ | _ <;> rw [hkind] at g1 ha' <;> dsimp only [OpKind.isParametric] at g1 ha'
      · cases g1
      · obtain ⟨-, l, rfl, hl⟩ := ha'
        exact g2 (by rw [hl, ← hps']; rfl)
      · cases g1
      · obtain ⟨-, -, l, rfl, hl⟩ := ha'
        exact g2 (by rw [hl, ← hps']; rfl)
      · cases g1
    · rintro ⟨g1, g2⟩
      rw [g1] at ha'
      obtain ⟨-, hne, -⟩ := ha'
      rw [g2] at hm
      cases hm
      exact hne rfl
  have hdef := callOne_rest bm ho hk hmap
  unfold callRest at hdef
  -- constructors that raise because of the number of parameters
  have params : C.kind.isParametric = true → C.numParams ≠ some op.params.length →
      construct op.cls (some op.params) (.qubits (some mapped)) W = (.error .valueError, W) := by
    intro g1 g2
    unfold construct
    simp only [bind_def, clsObj, M.deref, hk]
    have g3 : decide (some op.params.length ≠ C.numParams) = true := by simpa using fun e => g2 (Eq.symm e)
    rcases hkind : C.kind with _ | _ | _ | _ | _ <;> rw [hkind] at g1 <;> dsimp only [OpKind.isParametric] at g1
    · cases g1
    · simp only [bind_def, checkParams, M.raiseIf, g3, if_true]
    · cases g1
    · simp only [bind_def, checkParams, M.raiseIf, g3, if_true]
    · cases g1
  have refuse : ∀ e, callOne qm bm o W = (.error e, W) → refusal W D L.items items qs bitItems C op = some e →
      match refusal W D L.items items qs bitItems C op with
      | some e => ∃ W', callOne qm bm o W = (.error e, W') ∧ NoneAppended W W'
      | none =>
        (LacksBits bitItems C op → ∃ W' op', callOne qm bm o W = (.error .valueError, W') ∧ Grown W W' B D [op'] ∧
          CopyOf W C (D.parametric = false) (fun x y => qm.get? (.obj x) = some y) none op op') ∧
        (¬ LacksBits bitItems C op → ∃ W', callOne qm bm o W = (.ok (), W') ∧ W'.classes = W.classes) := by
    intro e h1 h2
    rw [h2]
    exact ⟨W, h1, NoneAppended.refl W⟩
  rcases hkind : C.kind with _ | _ | _ | _ | _
  · refine one none _ ?_ (by unfold CallArgs; rw [hkind]; exact ⟨rfl, rfl⟩) (by simp [hkind, OpKind.isParametric]) (by simp [hkind])
    rw [hdef, hkind]
  · have hc : callOne qm bm o W = (construct op.cls (some op.params) (.qubits (some mapped)) >>= fun _ => pure ()) W := by
      rw [hdef, hkind]
    by_cases c4 : C.numParams = some op.params.length
    · exact one _ _ hc (by unfold CallArgs; rw [hkind]; exact ⟨rfl, _, rfl, c4⟩) (fun _ => rfl) (by simp [hkind])
    · refine refuse .valueError ?_ ?_
      · rw [hc, bind_def, params (by rw [hkind]; rfl) c4]
      · unfold refusal
        dsimp only
        rw [if_neg c1, if_neg (by simp [hkind]), if_neg (by simp [hkind]), if_pos ⟨by rw [hkind]; rfl, c4⟩]
  · by_cases c3 : (op.qubits.getD []).length = 2
    · rw [hm.length_eq] at c3
      obtain ⟨a, b, rfl⟩ := List.length_eq_two.1 c3
      refine one none (.split (some [a]) (some [b])) ?_ (by unfold CallArgs; rw [hkind]; exact ⟨rfl, a, b, rfl, rfl⟩) (by simp [hkind, OpKind.isParametric]) (by simp [hkind])
      rw [hdef, hkind]
      cases bm <;> rfl
    · refine refuse .typeError ?_ ?_
      · rw [hm.length_eq] at c3
        rw [hdef, hkind]
        have hact : W.active.isSome = true := World.target_active h.target
        have hraise : ∀ args, (splitQubits C.ar.numControl args).2.2 = none → construct op.cls none args W = (.error .typeError, W) := by
          intro args hs
          unfold construct
          simp only [bind_def, clsObj, M.deref, hk, hkind, hs, initOperation, M.read, checkArg, M.raiseIf, hact, if_true]
        match mapped, c3 with
        | [], _ => cases bm <;> (simp only [starArgs, bind_def]; rw [hraise _ rfl])
        | [a], _ => cases bm <;> (simp only [starArgs, bind_def]; rw [hraise _ rfl])
        | [a, b], c3 => exact absurd rfl c3
        | _ :: _ :: _ :: _, _ => cases bm <;> rfl
      · unfold refusal
        dsimp only
        rw [if_neg c1, if_neg (by simp [hkind]), if_pos ⟨hkind, c3⟩]
  · have hc : callOne qm bm o W = (construct op.cls (some op.params) (.qubits (some mapped)) >>= fun _ => pure ()) W := by
      rw [hdef, hkind]
    by_cases c4 : C.numParams = some op.params.length
    · by_cases c5 : op.qubits.getD [] = []
      · refine refuse .typeError ?_ ?_
        · rw [c5] at hm
          cases hm
          have hact : W.active.isSome = true := World.target_active h.target
          rw [hc, bind_def]
          unfold construct
          simp [bind_def, clsObj, M.deref, hk, hkind, splitQubits, nonempty, initOperation, M.read, checkArg, M.raiseIf, hact, checkParams, c4]
        · unfold refusal
          dsimp only
          rw [if_neg c1, if_neg (by simp [hkind]), if_neg (by simp [hkind]), if_neg (by simp [c4]), if_pos ⟨hkind, c5⟩]
      · have hne : mapped ≠ [] := by
          rintro rfl
          exact c5 (List.length_eq_zero_iff.1 hm.length_eq)
        exact one _ _ hc (by unfold CallArgs; rw [hkind]; exact ⟨rfl, hne, _, rfl, c4⟩) (fun _ => rfl) (by simp [hkind])
    · refine refuse .valueError ?_ ?_
      · rw [hc, bind_def, params (by rw [hkind]; rfl) c4]
      · unfold refusal
        dsimp only
        rw [if_neg c1, if_neg (by simp [hkind]), if_neg (by simp [hkind]), if_pos ⟨by rw [hkind]; rfl, c4⟩]
  · have hb := hd.bits
    rcases hbi : bitItems with _ | l <;> rcases hbm : bm with _ | m <;> rw [hbi, hbm] at hb
    · have := one none (.qubits (some mapped)) (by rw [hdef, hkind, hbm]) (by unfold CallArgs; rw [hkind]; exact ⟨rfl, rfl⟩) (by simp [hkind, OpKind.isParametric]) (fun _ => hbi)
      rw [hbi, hbm] at this
      exact this
    · exact hb.elim
    · exact hb.elim
    · dsimp only [BitDict] at hb
      subst hbi hbm
      rw [hkind] at hdef
      simp only [bind_def] at hdef
      by_cases c2 : ∃ b ∈ op.bits.getD [], Lbl.obj b ∉ l
      · refine refuse .keyError ?_ ?_
        · rw [hdef, lookupAll_fails]
          obtain ⟨b, h1, h2⟩ := c2
          exact ⟨b, h1, (hb b).2 h2⟩
        · unfold refusal
          dsimp only
          rw [if_neg c1, if_pos ⟨hkind, l, rfl, c2⟩]
      obtain ⟨mb, hmb⟩ := lookupAll_total m (op.bits.getD []) (by
        intro b hb'
        cases e : m.get? (.obj b) with
        | none => exact absurd ⟨b, hb', (hb b).1 e⟩ c2
        | some y => exact ⟨y, rfl⟩) W
      have hlen := (lookupAll_ok _ _ _ _ _ hmb).2.length_eq
      rw [hmb] at hdef
      dsimp only at hdef
      have ha : CallArgs (K := K) C none (.qubits (some mapped)) mapped := by unfold CallArgs; rw [hkind]; exact ⟨rfl, rfl⟩
      rw [refusal_tail hd hm c1 (by rintro ⟨-, l', e, g⟩; cases e; exact c2 g) (by simp [hkind]) (by simp [hkind, OpKind.isParametric]) (by simp [hkind])]
      have hx := construct_exact h hk h0 ha
      rw [initRefusal_plain (ps' := op.params) (by rw [hkind]; rfl)] at hx
      rw [hdef]
      revert hx
      cases initRefusal W D L.items C op.params mapped with
      | some e =>
        rintro ⟨W', e1, e2⟩
        rw [e1]
        exact ⟨W', rfl, e2⟩
      | none =>
        rintro ⟨W', e1, e2⟩
        rw [e1]
        dsimp only
        rcases construct_cases op.cls none (.qubits (some mapped)) W with ⟨e, w', f1, -⟩ | ⟨C', w', op', f1, f2, f3⟩
        · rw [e1] at f1; cases f1
        rw [e1] at f2
        cases f2
        rw [hk] at f1
        cases f1
        obtain ⟨cp, hq⟩ := f3.copy h.target h.get hm (.inl rfl) (by simp [hkind]) (by simp [hkind, OpKind.isParametric]) (fun _ => rfl) none (by simp)
        have hn : op'.numQubits = some mapped.length := by rw [f3.numQubits, hq]; rfl
        have hget : W'.ops[W.ops.length]? = some op' := by rw [f3.ops]; simp
        have hk' : W'.classes[op'.cls]? = some C := by rw [e2, f3.cls]; exact hk
        have hmi : (mb.length < mapped.length → measureInto W.ops.length mb W' = (.error .valueError, W')) ∧
            (¬ mb.length < mapped.length → ∃ W'', measureInto W.ops.length mb W' = (.ok (), W'') ∧ W''.classes = W'.classes) := by
          unfold measureInto
          simp only [bind_def, opObj, clsObj, M.deref, hget, hk', hkind, hn, M.raiseIf, modOp, M.write, decide_eq_true_eq]
          constructor
          · intro c
            rw [if_pos c]
          · intro c
            rw [if_neg c]
            simp only [hget]
            exact ⟨_, rfl, rfl⟩
        rw [← hlen, ← hm.length_eq] at hmi
        constructor
        · rintro ⟨-, -, g⟩
          rw [hmi.1 g]
          exact ⟨W', op', rfl, f3.grown h.target h.get, cp⟩
        · intro g
          obtain ⟨W'', e3, e4⟩ := hmi.2 fun g' => g ⟨hkind, rfl, g'⟩
          rw [e3]
          exact ⟨_, rfl, e4.trans e2⟩

omit [DecidableEq K] in
theorem refusal_world {W W' : World K} {D D' : Circ} (hv : W'.vars = W.vars) (h1 : D'.locked = D.locked) (h2 : D'.parametric = D.parametric)
    (L : List Nat) (items : List Lbl) (qs : List Nat) (bitItems : Option (List Lbl)) (C : OpCls) (op : OpObj K) :
    refusal W' D' L items qs bitItems C op = refusal W D L items qs bitItems C op := by
  have : HasValue W' = HasValue W := by funext v; unfold HasValue World.varVal; rw [hv]
  unfold refusal
  rw [h1, h2, this]

/-- The state after operations have been copied. -/
theorem Inside.grown {W W' : World K} {B : Nat} {D : Circ} {L : Layout} (h : Inside W B D L) {new : List (OpObj K)} (hg : Grown W W' B D new)
    (hq : QInv true false W') :
    ∃ b', b'.regs = D.q.regs ∧ Inside W' B { D with ops := D.ops ++ List.range' W.ops.length new.length, q := b' } L := by
  obtain ⟨b', e1, e2⟩ := hg.get h.get
  exact ⟨b', e1, hg.target.trans h.target, e2, hq, by have := h.shows; unfold Shows at this ⊢; dsimp only; rw [e1]; exact this⟩

theorem pres_callLoop (qm : PyDict Lbl Nat) (bm : Option (PyDict Lbl Nat)) (os : List Nat) : Pres (QInv (K := K) true false) (M.each os (callOne qm bm)) :=
  pres_each fun o => (QInv.prims (s := true) (u := false) (by simp)).to0.callOne qm bm o

/-- Operations that can be copied are. -/
theorem callLoop_exact {items : List Lbl} {qs : List Nat} {bitItems : Option (List Lbl)} {qm : PyDict Lbl Nat} {bm : Option (PyDict Lbl Nat)}
    (hd : Dicts items qs bitItems qm bm) (pre rest : List Nat) {W : World K} {B : Nat} {D : Circ} {L : Layout} (h : Inside W B D L)
    (hp : ∀ o ∈ pre, Copyable W D L.items items qs bitItems o) :
    ∃ W1, M.each pre (callOne qm bm) W = (.ok (), W1) ∧ W1.classes = W.classes ∧
      M.each (pre ++ rest) (callOne qm bm) W = M.each rest (callOne qm bm) W1 := by
  induction pre generalizing W D with
  | nil => exact ⟨W, rfl, rfl, rfl⟩
  | cons o pre ih =>
    obtain ⟨op, C, h1, h2, h3⟩ := hp o (by simp)
    have := callOne_exact h hd h1.object h1.cls h1.some_qubits
    rw [h2] at this
    obtain ⟨W1, e1, e2⟩ := this.2 h3
    obtain ⟨op1, C1, op', g1, g2, g3, g4⟩ := callOne_ok e1 h.target h.get
    have hq := (QInv.prims (K := K) (s := true) (u := false) (by simp)).to0.callOne qm bm o W h.qinv
    rw [e1] at hq
    obtain ⟨b', k1, k2⟩ := h.grown g3 hq
    obtain ⟨W2, f1, f2, f3⟩ := ih k2 (by
      intro o' ho'
      obtain ⟨op, C, h1, h2, h3⟩ := hp o' (by simp [ho'])
      refine ⟨op, C, ⟨?_, by rw [e2]; exact h1.cls, h1.some_qubits⟩, ?_, h3⟩
      · rw [g3.ops, List.getElem?_append_left (List.getElem?_eq_some_iff.1 h1.object).1]; exact h1.object
      · rw [← h2]; exact refusal_world g3.vars rfl rfl _ _ _ _ _ _)
    refine ⟨W2, ?_, f2.trans e2, ?_⟩
    · unfold M.each
      rw [bind_def, e1]
      exact f1
    · rw [List.cons_append]
      conv_lhs => unfold M.each
      rw [bind_def, e1]
      exact f3

omit [DecidableEq K] [Zero K] in
theorem bitMap_total {a : Nat} {bits : Option (List Nat)} {w : World K} {A : Circ} (hA : w.circs[a]? = some A) {bitItems : Option (List Lbl)}
    (hb : BitsFor w a bits bitItems) :
    ∃ bm w', bitMap a bits w = (.ok bm, w') ∧ BitDict bitItems bm := by
  unfold bitMap
  unfold BitsFor at hb
  rcases bits with _ | (_ | ⟨b, bs⟩)
  · dsimp only at hb
    subst hb
    exact ⟨none, w, rfl, trivial⟩
  · dsimp only at hb
    subst hb
    exact ⟨none, w, rfl, trivial⟩
  · obtain ⟨items, h1, h2, rfl⟩ := hb
    dsimp only [nonempty]
    rw [bind_def]
    obtain ⟨r, w1, hz⟩ : ∃ r w1, bitsOf a w = (r, w1) := ⟨_, _, rfl⟩
    rw [hz] at h1 h2 ⊢
    cases r with
    | error e => cases h1
    | ok r =>
      dsimp only [seen, count] at h1 h2
      simp only [Except.ok.injEq] at h2
      have hn : ¬ decide ((b :: bs).length ≠ r.cy.stop) = true := by simp [h2]
      simp only [bind_def, M.raiseIf, if_neg hn, zipMap, h1]
      exact ⟨_, _, rfl, zip_get_none (by rw [iter_length h1, h2])⟩

/-- What `circuit.qubits` returns is a register. -/
theorem qinv_rep {w : World K} (h : QInv true false w) {c : Nat} {C : Circ} (hC : w.circs[c]? = some C) :
    ∃ r items, qubitsOf c w = (.ok r, w.setCirc c { C with q := { C.q with cache := some r } }) ∧ CyReg.Rep r.cy items := by
  obtain ⟨L, h1, h2, h3, h4, h5⟩ := h.bank C (mem_of_get? hC)
  obtain ⟨r, g1, g2, g3⟩ := qubitsOf_eq hC h1
  rcases g2 with g2 | g2
  · exact ⟨r, _, g1, g3 fun r' hr' => by rw [g2] at hr'; cases hr'⟩
  · obtain ⟨A, hA⟩ := h5 r g2
    exact ⟨r, A, g1, hA⟩

/-- Calls of circuits are the loop over their operations. -/
theorem callCirc_loop {w : World K} (hq : QInv true false w) (hov : OpsInv w) {a : Nat} {A : Circ}
    (hA : w.circs[a]? = some A) {qs : List Nat} {bits : Option (List Nat)} {B : Nat} {D : Circ} {L : Layout} {items : List Lbl} {bitItems : Option (List Lbl)}
    (h : Called w a qs bits B D L items bitItems) :
    ∃ qm bm A', bare A' = bare A ∧ callCirc a qs bits w = M.each A.ops (callOne qm bm) (w.setCirc a A') ∧ Inside (w.setCirc a A') B D L ∧
      Dicts items qs bitItems qm bm ∧ ∃ R, BitsGiven w a bits R ∧ BitRel bm R := by
  obtain ⟨r, its, g1, g2⟩ := qinv_rep hq hA
  have hi := h.qubits
  rw [g1] at hi
  dsimp only [seen] at hi
  have e := g2.iter_eq
  rw [hi] at e
  cases e
  have hst := iter_length hi
  unfold callCirc
  simp only [bind_def, M.read]
  have ht := h.target
  unfold World.target at ht
  cases ha : w.active with
  | none => rw [ha] at ht; cases ht
  | some x =>
    rw [ha] at ht
    dsimp only at ht
    cases hX : w.ctxs[x]? with
    | none => rw [hX] at ht; cases ht
    | some X =>
      rw [hX] at ht
      have hf : X.frozen = false := by
        cases hf : X.frozen with
        | true => simp [hf] at ht
        | false => rfl
      simp only [hf, Bool.false_eq_true, if_false, Option.some.injEq] at ht
      have hxa : ¬ decide (X.circuit = a) = true := by simp [ht, h.other]
      have hn : ¬ decide (qs.length ≠ r.cy.stop) = true := by simp [← hst, h.count]
      simp only [bind_def, ctxObj, M.deref, hX, M.raiseIf, if_neg hxa, g1, if_neg hn]
      have hb : BitsFor (w.setCirc a { A with q := { A.q with cache := some r } }) a bits bitItems := by
        have := h.bits
        unfold BitsFor at this ⊢
        rw [bitsOf_setQ hA]
        exact this
      obtain ⟨bm, w2, k1, k2⟩ := bitMap_total (setCirc_get hA) hb
      rw [k1]
      dsimp only
      obtain ⟨cc, rfl, R, hR, hRbm⟩ := bitMap_ok k1 (setCirc_get hA)
      simp only [setCirc_setCirc]
      have hq' := qubitsOf_again (c := a) (r := r) (C := { A with c := { A.c with cache := cc } }) (w := w.setCirc a { A with c := { A.c with cache := cc } })
        (setCirc_get hA)
      rw [setCirc_setCirc] at hq'
      rw [hq']
      simp only [zipMap, hi, circ, M.deref]
      rw [setCirc_get hA]
      have hRbm' : BitRel bm R := by
        unfold BitRel
        rcases bm with _ | _ <;> rcases R with _ | _ <;> exact hRbm
      refine ⟨_, bm, { A with q := { A.q with cache := some r }, c := { A.c with cache := cc } }, rfl, rfl, ⟨?_, ?_, ?_, h.registers⟩, ⟨g2.nodup, zip_get_none h.count, fun x y e => zip_get e, k2⟩, R, ?_, hRbm'⟩
      · exact h.target
      · show (w.circs.set a _)[B]? = _
        rw [List.getElem?_set_ne (fun e => h.other e.symm)]
        exact h.circuit
      · have h1 := QInv.qubitsOf (s := true) (u := false) a w hq
        rw [g1] at h1
        have h2 := h1.setCirc (c := a) (C' := { A with q := { A.q with cache := some r }, c := { A.c with cache := cc } }) (setCirc_get hA) rfl
          (h1.bank _ (mem_of_get? (setCirc_get hA)))
        rwa [setCirc_setCirc] at h2
      · revert hR
        unfold BitsGiven
        rw [bitsOf_setQ hA]
        exact id

/-- What a loop that appended operations to circuit `B` did, seen from before the registers were read. -/
theorem Grown.appended {w W' : World K} {a : Nat} {A A' : Circ} (hA : w.circs[a]? = some A) (hb : bare A' = bare A) {B : Nat} {D : Circ}
    (hD : w.circs[B]? = some D) {new : List (OpObj K)} (hg : Grown (w.setCirc a A') W' B D new) : Appended w W' B new := by
  refine ⟨hg.ops, ⟨D, hD, ?_⟩, hg.qubits, hg.bits, hg.vars, hg.active, hg.ctxs, hg.onExit, hg.classes⟩
  obtain ⟨b', e1, e2⟩ := hg.circs
  rw [e2]
  show ((w.circs.set a _).set B _).map bare = _
  rw [List.map_set, List.map_set, List.map_set, hb]
  have e4 : (w.circs.map bare).set a (bare A) = w.circs.map bare := by
    obtain ⟨hlt, e⟩ := List.getElem?_eq_some_iff.1 hA
    subst e
    have := List.set_getElem_self (as := w.circs.map bare) (i := a) (by simpa using hlt)
    rwa [List.getElem_map] at this
  rw [e4]
  congr 1
  unfold bare
  simp only [e1]
  rfl

/-- Part of a template has been copied. -/
theorem callCirc_part {w : World K} (hq : QInv true false w) (hov : OpsInv w) {a : Nat} {A : Circ}
    (hA : w.circs[a]? = some A) {qs : List Nat} {bits : Option (List Nat)} {B : Nat} {D : Circ} {L : Layout} {items : List Lbl} {bitItems : Option (List Lbl)}
    (h : Called w a qs bits B D L items bitItems) {pre rest : List Nat} (hops : A.ops = pre ++ rest)
    (hp : ∀ o ∈ pre, Copyable w D L.items items qs bitItems o) :
    ∃ R w1 new D1 qm bm, BitsGiven w a bits R ∧ Appended w w1 B new ∧ w1.classes = w.classes ∧
      List.Forall₂ (fun o op' => ∃ op C, w.ops[o]? = some op ∧ w.classes[op.cls]? = some C ∧
        CopyOf w C (D.parametric = false) (SamePlace items qs) R op op') pre new ∧
      callCirc a qs bits w = M.each rest (callOne qm bm) w1 ∧ Inside w1 B D1 L ∧ Dicts items qs bitItems qm bm ∧
      D1.locked = D.locked ∧ D1.parametric = D.parametric := by
  obtain ⟨qm, bm, A', hb, hc, hI, hd, R, hR, hRbm⟩ := callCirc_loop hq hov hA h
  obtain ⟨W1, e1, e2, e3⟩ := callLoop_exact hd pre rest hI (by
    intro o ho
    obtain ⟨op, C, h1, h2, h3⟩ := hp o ho
    exact ⟨op, C, ⟨h1.object, h1.cls, h1.some_qubits⟩, by rw [← h2]; exact refusal_world rfl rfl rfl _ _ _ _ _ _, h3⟩)
  obtain ⟨new, hg, hcopy⟩ := callLoop_ok pre e1 hI.target hI.get fun o ho => hov.ops A (List.mem_of_getElem? hA) o (by rw [hops]; simp [ho])
  have hq' := pres_callLoop (K := K) qm bm pre _ hI.qinv
  rw [e1] at hq'
  obtain ⟨b', k1, k2⟩ := hI.grown hg hq'
  refine ⟨R, W1, new, _, qm, bm, hR, hg.appended hA hb h.circuit, e2, ?_, ?_, k2, hd, rfl, rfl⟩
  · refine hcopy.imp ?_
    rintro o op' ⟨op, C, g1, g2, g3⟩
    refine ⟨op, C, g1, g2, copyOf_mono (copyOf_world g3 rfl rfl rfl) (fun x y e => hd.place x y e) ?_⟩
    unfold BitRel at hRbm
    rcases bm with _ | bm <;> rcases R with _ | R
    · trivial
    · exact hRbm.elim
    · exact hRbm.elim
    · exact hRbm
  · rw [hc, hops]
    exact e3

/-- The exact outcome of a call. -/
theorem callCirc_exact {w : World K} (hq : QInv true false w) (hov : OpsInv w) {a : Nat} {A : Circ}
    (hA : w.circs[a]? = some A) {qs : List Nat} {bits : Option (List Nat)} {B : Nat} {D : Circ} {L : Layout} {items : List Lbl} {bitItems : Option (List Lbl)}
    (h : Called w a qs bits B D L items bitItems) :
    ((∀ o ∈ A.ops, Copyable w D L.items items qs bitItems o) → ∃ w', callCirc a qs bits w = (.ok (), w')) ∧
    ∀ pre o post op C, A.ops = pre ++ o :: post → (∀ o ∈ pre, Copyable w D L.items items qs bitItems o) → IsOp w o op C →
      ∃ R w1 new, BitsGiven w a bits R ∧ Appended w w1 B new ∧
        List.Forall₂ (fun o op' => ∃ op C, w.ops[o]? = some op ∧ w.classes[op.cls]? = some C ∧
          CopyOf w C (D.parametric = false) (SamePlace items qs) R op op') pre new ∧
        (∀ e, refusal w D L.items items qs bitItems C op = some e → ∃ w', callCirc a qs bits w = (.error e, w') ∧ NoneAppended w1 w') ∧
        (refusal w D L.items items qs bitItems C op = none → LacksBits bitItems C op →
          ∃ w' op', callCirc a qs bits w = (.error .valueError, w') ∧ Appended w w' B (new ++ [op']) ∧
            CopyOf w C (D.parametric = false) (SamePlace items qs) none op op') := by
  constructor
  · intro hp
    obtain ⟨R, w1, new, D1, qm, bm, -, -, -, -, hc, -⟩ := callCirc_part hq hov hA h (pre := A.ops) (rest := []) (by simp) hp
    exact ⟨w1, hc⟩
  · intro pre o post op C hops hp ho
    obtain ⟨R, w1, new, D1, qm, bm, hR, happ, hcl, hcopy, hc, hI, hd, hl, hpar⟩ := callCirc_part hq hov hA h hops hp
    have ho1 : w1.ops[o]? = some op := by
      rw [happ.ops, List.getElem?_append_left (List.getElem?_eq_some_iff.1 ho.object).1]; exact ho.object
    have hx := callOne_exact hI hd ho1 (by rw [hcl]; exact ho.cls) ho.some_qubits
    rw [refusal_world happ.vars hl hpar] at hx
    unfold M.each at hc
    rw [bind_def] at hc
    refine ⟨R, w1, new, hR, happ, hcopy, ?_, ?_⟩
    · intro e he
      rw [he] at hx
      obtain ⟨w', e1, e2⟩ := hx
      rw [hc, e1]
      exact ⟨w', rfl, e2⟩
    · intro he hb
      rw [he] at hx
      obtain ⟨w', op', e1, e2, e3⟩ := hx.1 hb
      rw [hc, e1]
      refine ⟨w', op', rfl, ?_, ?_⟩
      · obtain ⟨D', g1, g2⟩ := happ.circs
        have hD1 := hI.get
        refine ⟨by rw [e2.ops, happ.ops, List.append_assoc], ⟨D', g1, ?_⟩, e2.qubits.trans happ.qubits, e2.bits.trans happ.bits, e2.vars.trans happ.vars,
          e2.active.trans happ.active, e2.ctxs.trans happ.ctxs, e2.onExit.trans happ.onExit, ?_⟩
        · obtain ⟨b', k1, k2⟩ := e2.circs
          have hB : B < w.circs.length := (List.getElem?_eq_some_iff.1 g1).1
          have hD2 : bare D1 = bare { D' with ops := D'.ops ++ List.range' w.ops.length new.length } := by
            have h1 : (w1.circs.map bare)[B]? = some (bare D1) := by rw [List.getElem?_map, hD1]; rfl
            rw [g2, List.getElem?_map, List.getElem?_set_self hB] at h1
            exact (Option.some.inj h1).symm
          rw [k2, List.map_set, g2, List.map_set, List.map_set, List.set_set]
          congr 1
          have e4 : bare { D1 with ops := D1.ops ++ List.range' w1.ops.length [op'].length, q := b' } =
              { bare D1 with ops := (bare D1).ops ++ List.range' w1.ops.length 1 } := by
            unfold bare
            simp only [k1]
            rfl
          rw [e4, hD2, happ.ops, List.length_append, List.length_append]
          unfold bare
          have e5 := List.range'_append_1 (s := w.ops.length) (m := new.length) (n := 1)
          simp only [List.append_assoc, List.length_singleton]
          rw [e5]
        · rw [← happ.classes]
          exact e2.classes
      · rw [hpar] at e3
        exact copyOf_mono (R := none) (copyOf_world e3 happ.vars.symm rfl rfl) (fun x y e => hd.place x y e) trivial

end DG
