import Verif.Proofs.Construct
import Verif.Proofs.OpsInv

/-! What calling a circuit does. -/

namespace DG
open Spec
variable {K : Type}

theorem lookupAll_ok (d : PyDict Lbl Nat) (l ys : List Nat) (w w' : World K) (h : lookupAll d l w = (.ok ys, w')) :
    w' = w ∧ List.Forall₂ (fun x y => d.get? (.obj x) = some y) l ys := by
  induction l generalizing ys w' with
  | nil => unfold lookupAll at h; cases h; exact ⟨rfl, .nil⟩
  | cons k l ih =>
    unfold lookupAll at h
    simp only [bind_def, lookup] at h
    cases hk : d.get? (.obj k) with
    | none => simp only [hk] at h; cases h
    | some x =>
      simp only [hk] at h
      generalize hz : lookupAll d l w = z at h
      obtain ⟨r, w1⟩ := z
      cases r with
      | error e => cases h
      | ok xs =>
        cases h
        obtain ⟨h1, h2⟩ := ih xs _ hz
        exact ⟨h1, .cons hk h2⟩

theorem get?_mem {V : Type} (d : PyDict Lbl V) {k : Lbl} {v : V} (h : d.get? k = some v) : (k, v) ∈ d := by
  induction d with
  | nil => simp [PyDict.get?] at h
  | cons p d ih =>
    obtain ⟨k', v'⟩ := p
    unfold PyDict.get? at h
    split at h
    · next e => cases h; subst e; simp
    · exact List.mem_cons_of_mem _ (ih h)

theorem set_mem {V : Type} (d : PyDict Lbl V) (k : Lbl) (v : V) {p : Lbl × V} (h : p ∈ d.set k v) : p ∈ d ∨ p = (k, v) := by
  induction d with
  | nil => simp [PyDict.set] at h; exact .inr h
  | cons q d ih =>
    obtain ⟨k', v'⟩ := q
    unfold PyDict.set at h
    split at h
    · next e =>
      rcases List.mem_cons.1 h with h | h
      · subst e; exact .inr h
      · exact .inl (List.mem_cons_of_mem _ h)
    · rcases List.mem_cons.1 h with h | h
      · subst h; exact .inl (by simp)
      · rcases ih h with h | h
        · exact .inl (List.mem_cons_of_mem _ h)
        · exact .inr h

theorem ofPairs_mem {V : Type} (ps : List (Lbl × V)) {p : Lbl × V} (h : p ∈ PyDict.ofPairs ps) : p ∈ ps := by
  have : ∀ (ps : List (Lbl × V)) (d : PyDict Lbl V), p ∈ ps.foldl (fun d p => d.set p.1 p.2) d → p ∈ d ∨ p ∈ ps := by
    intro ps
    induction ps with
    | nil => intro d h; exact .inl h
    | cons q ps ih =>
      intro d h
      rcases ih _ h with h | h
      · rcases set_mem d _ _ h with h | h
        · exact .inl h
        · exact .inr (by subst h; simp)
      · exact .inr (List.mem_cons_of_mem _ h)
  rcases this ps [] h with h | h
  · cases h
  · exact h

theorem zip_get {items : List Lbl} {l : List Nat} {x y : Nat} (h : (PyDict.ofPairs (items.zip l)).get? (.obj x) = some y) :
    SamePlace items l x y := by
  have := ofPairs_mem _ (get?_mem _ h)
  obtain ⟨j, hj⟩ := List.getElem?_of_mem this
  rw [List.getElem?_zip_eq_some] at hj
  exact ⟨j, hj.1, hj.2⟩

variable [DecidableEq K] [Zero K]

/-- New operations were appended to circuit `B`, which was `D`. -/
structure Grown (W W' : World K) (B : Nat) (D : Circ) (new : List (OpObj K)) : Prop where
  ops : W'.ops = W.ops ++ new
  classes : SameClasses W.classes W'.classes
  qubits : W'.qubits = W.qubits
  bits : W'.bits = W.bits
  vars : W'.vars = W.vars
  active : W'.active = W.active
  ctxs : W'.ctxs = W.ctxs
  onExit : W'.onExit = W.onExit
  circs : ∃ b', b'.regs = D.q.regs ∧ W'.circs = W.circs.set B { D with ops := D.ops ++ List.range' W.ops.length new.length, q := b' }

omit [DecidableEq K] [Zero K] in
theorem Grown.target {W W' : World K} {B : Nat} {D : Circ} {new : List (OpObj K)} (h : Grown W W' B D new) : W'.target = W.target := by
  unfold World.target
  rw [h.active, h.ctxs]

omit [DecidableEq K] [Zero K] in
theorem Grown.get {W W' : World K} {B : Nat} {D : Circ} {new : List (OpObj K)} (h : Grown W W' B D new) (hD : W.circs[B]? = some D) :
    ∃ b', b'.regs = D.q.regs ∧ W'.circs[B]? = some { D with ops := D.ops ++ List.range' W.ops.length new.length, q := b' } := by
  obtain ⟨b', h1, h2⟩ := h.circs
  refine ⟨b', h1, ?_⟩
  rw [h2, List.getElem?_set_self (List.getElem?_eq_some_iff.1 hD).1]

omit [DecidableEq K] [Zero K] in
theorem Grown.trans {W W1 W' : World K} {B : Nat} {D : Circ} {a b : List (OpObj K)} {b1 : Bank} (h1 : Grown W W1 B D a)
    (hb : b1.regs = D.q.regs) (h2 : Grown W1 W' B { D with ops := D.ops ++ List.range' W.ops.length a.length, q := b1 } b) :
    Grown W W' B D (a ++ b) := by
  refine ⟨by rw [h2.ops, h1.ops, List.append_assoc], h1.classes.trans h2.classes, h2.qubits.trans h1.qubits, h2.bits.trans h1.bits,
    h2.vars.trans h1.vars, h2.active.trans h1.active, h2.ctxs.trans h1.ctxs, h2.onExit.trans h1.onExit, ?_⟩
  obtain ⟨b', e1, e2⟩ := h1.circs
  obtain ⟨b'', e3, e4⟩ := h2.circs
  refine ⟨b'', e3.trans hb, ?_⟩
  rw [e4, e2, List.set_set, h1.ops]
  simp only [List.append_assoc, List.length_append, List.range'_append_1]

omit [DecidableEq K] [Zero K] in
theorem World.concrete_of {W : World K} {B : Nat} {D : Circ} (ht : W.target = some B) (hD : W.circs[B]? = some D) :
    W.concrete = !D.parametric := by
  unfold World.concrete
  rw [ht]
  dsimp only
  rw [hD]

omit [DecidableEq K] in
theorem evaluates_replaced {val : Nat → Option K} {ps : List (OpParam K)} (h : Evaluates val ps) :
    Replaced val none ps (ps.map (OpParam.subst val)) := by
  refine ⟨by simp, fun i p hp => ?_⟩
  cases p with
  | num x => simp [hp, OpParam.subst]
  | var v =>
    obtain ⟨x, h1, h2⟩ := h v (List.mem_of_getElem? hp)
    exact ⟨x, h1, by simp [hp, OpParam.subst, h1]⟩

omit [DecidableEq K] in
theorem Constructed.grown {W W' : World K} {k : Nat} {ps : Option (List (OpParam K))} {args : QArgs} {C : OpCls} {op' : OpObj K}
    (h : Constructed W W' k ps args C op') {B : Nat} {D : Circ} (ht : W.target = some B) (hD : W.circs[B]? = some D) :
    Grown W W' B D [op'] := by
  refine ⟨h.ops, h.classes, h.wqubits, h.wbits, h.vars, h.active, h.ctxs, h.onExit, ?_⟩
  have := h.circs
  rw [ht] at this
  obtain ⟨D', b', h1, h2, h3, h4⟩ := this
  rw [hD] at h1
  cases h1
  exact ⟨b', h3, by simpa using h4⟩


omit [DecidableEq K] [Zero K] in
theorem World.target_active {W : World K} {B : Nat} (ht : W.target = some B) : W.active.isSome = true := by
  unfold World.target at ht
  cases ha : W.active with
  | none => rw [ha] at ht; simp at ht
  | some x => rfl

omit [DecidableEq K] in
/-- The object that the constructor makes for one operation of the called circuit. -/
theorem Constructed.copy {W W' : World K} {ps : Option (List (OpParam K))} {args : QArgs} {C : OpCls} {op op' : OpObj K}
    (h : Constructed W W' op.cls ps args C op') {B : Nat} {D : Circ} (ht : W.target = some B) (hD : W.circs[B]? = some D)
    {Q : Nat → Nat → Prop} {mapped : List Nat} (hQ : List.Forall₂ Q (op.qubits.getD []) mapped)
    (ha : args = .qubits (some mapped) ∨ (C.kind = .controlled ∧ starArgs mapped = some args))
    (hctl : C.kind = .controlled → starArgs mapped = some args)
    (hps : C.kind.isParametric = true → ps = some op.params) (hpn : C.kind.isParametric = false → ps = none) (R : Option (Nat → Nat → Prop)) (hR : C.kind = .measurement → R = none) :
    CopyOf W C (D.parametric = false) Q R op op' ∧ op'.qubits = some mapped := by
  have hin := h.inside (World.target_active ht)
  have hall : op'.qubits = args.all := by
    rcases h.given with e | ⟨e, -⟩
    · exact e
    · rw [e] at hin; simp at hin
  have hm : args.all = some mapped ∧ (C.kind = .controlled → ∃ a b, mapped = [a, b] ∧ args = .split (some [a]) (some [b])) := by
    have star : starArgs mapped = some args → ∃ a b, mapped = [a, b] ∧ args = .split (some [a]) (some [b]) := by
      intro e
      match mapped, e with
      | [], e => cases e; rw [hall] at hin; simp [QArgs.all, nonempty] at hin
      | [a], e => cases e; rw [hall] at hin; simp [QArgs.all, nonempty] at hin
      | [a, b], e => cases e; exact ⟨a, b, rfl, rfl⟩
      | _ :: _ :: _ :: _, e => cases e
    refine ⟨?_, fun hk => star (hctl hk)⟩
    rcases ha with rfl | ⟨-, e⟩
    · rfl
    · obtain ⟨a, b, rfl, rfl⟩ := star e
      rfl
  have hcon : W.concrete = !D.parametric := World.concrete_of ht hD
  have hq : op'.qubits = some mapped := hall.trans hm.1
  refine ⟨⟨h.cls, ⟨mapped, hq, hQ⟩, h.numQubits, ?_, ?_, ?_, ?_, fun _ => h.cond, ?_⟩, hq⟩
  · intro hk cs ts h1 h2 h3 h4 h5 h6
    rw [h5] at hQ
    have hs := h.split
    unfold splitOf at hs
    rw [if_pos hk] at hs
    rcases hk with hk | hk
    · obtain ⟨a, b, rfl, rfl⟩ := hm.2 hk
      have hlen := hQ.length_eq
      simp only [Option.getD_some, List.length_append, List.length_cons, List.length_nil] at hlen
      obtain ⟨x, xs, rfl⟩ := List.exists_cons_of_ne_nil h3
      obtain ⟨y, ys, rfl⟩ := List.exists_cons_of_ne_nil h4
      simp only [List.length_cons] at hlen
      have e1 : xs = [] := List.length_eq_zero_iff.1 (by omega)
      have e2 : ys = [] := List.length_eq_zero_iff.1 (by omega)
      subst e1 e2
      simp only [Option.getD_some, List.cons_append, List.nil_append] at hQ
      cases hQ with
      | cons q1 hQ => cases hQ with
        | cons q2 _ =>
          simp only [splitQubits, nonempty, Prod.mk.injEq] at hs
          exact ⟨[a], [b], hs.1, hs.2, .cons q1 .nil, .cons q2 .nil⟩
    · have ha' : args = .qubits (some mapped) := by
        rcases ha with e | ⟨e, -⟩
        · exact e
        · rw [e] at hk; simp at hk
      subst ha'
      simp only [Option.getD_some] at hQ
      have hne : mapped ≠ [] := by
        rintro rfl
        have := hQ.length_eq
        simp at this
        exact h3 this.1
      obtain ⟨z, zs, rfl⟩ := List.exists_cons_of_ne_nil hne
      simp only [splitQubits, nonempty, h6, Prod.mk.injEq] at hs
      exact ⟨_, _, hs.1, hs.2, by simpa using List.forall₂_take cs.length hQ, by simpa using List.forall₂_drop cs.length hQ⟩
  · intro hk hD'
    have hpk : C.kind.isParametric = true := by rw [hk]; rfl
    have := h.params
    rw [hps hpk, if_pos ⟨hk, by rw [hcon, hD']; rfl⟩] at this
    rw [this]
    have := h.evaluates hpk (by rw [hcon, hD']; rfl)
    rw [hps hpk] at this
    exact evaluates_replaced this
  · intro hpk hn
    have := h.params
    rw [hps hpk, if_neg (fun e => hn ⟨e.1, by have := e.2; rw [hcon] at this; simpa using this⟩)] at this
    exact this
  · intro hk
    rw [h.params, hpn hk]
    simp
  · intro hk
    rw [hR hk]
    exact h.bits

theorem callOne_ok {qm : PyDict Lbl Nat} {bm : Option (PyDict Lbl Nat)} {o : Nat} {W W' : World K} (h : callOne qm bm o W = (.ok (), W'))
    {B : Nat} {D : Circ} (ht : W.target = some B) (hD : W.circs[B]? = some D) :
    ∃ op C op', W.ops[o]? = some op ∧ W.classes[op.cls]? = some C ∧ Grown W W' B D [op'] ∧
      CopyOf W C (D.parametric = false) (fun x y => qm.get? (.obj x) = some y) (bm.map fun m x y => m.get? (.obj x) = some y) op op' := by
  unfold callOne at h
  simp only [bind_def, opObj, clsObj, M.deref] at h
  cases ho : W.ops[o]? with
  | none => simp only [ho] at h; cases h
  | some op =>
    simp only [ho] at h
    cases hk : W.classes[op.cls]? with
    | none => simp only [hk] at h; cases h
    | some C =>
      simp only [hk] at h
      generalize hz : lookupAll qm (op.qubits.getD []) W = z at h
      obtain ⟨r, W1⟩ := z
      cases r with
      | error e => cases h
      | ok mapped =>
        dsimp only at h
        obtain ⟨rfl, hQ⟩ := lookupAll_ok _ _ _ _ _ hz
        -- the branches with one call of the constructor
        have one : ∀ ps args (R : Option (Nat → Nat → Prop)),
            (construct op.cls ps args >>= fun _ => pure ()) W1 = ((.ok (), W') : Except Err Unit × World K) →
            (args = .qubits (some mapped) ∨ (C.kind = .controlled ∧ starArgs mapped = some args)) →
            (C.kind = .controlled → starArgs mapped = some args) →
            (C.kind.isParametric = true → ps = some op.params) → (C.kind.isParametric = false → ps = none) → (C.kind = .measurement → R = none) →
            ∃ op1 C1 op', some op = some op1 ∧ W1.classes[op1.cls]? = some C1 ∧ Grown W1 W' B D [op'] ∧
              CopyOf W1 C1 (D.parametric = false) (fun x y => qm.get? (.obj x) = some y) R op1 op' := by
          intro ps args R h1 ha hctl hps hpn hR
          rw [bind_def] at h1
          rcases construct_cases op.cls ps args W1 with ⟨e, w', h2, -⟩ | ⟨C', w', op', h2, h3, h4⟩
          · rw [h2] at h1; cases h1
          · rw [h3] at h1
            cases h1
            rw [hk] at h2
            cases h2
            exact ⟨op, C, op', rfl, hk, h4.grown ht hD, (h4.copy ht hD hQ ha hctl hps hpn R hR).1⟩
        rcases hkind : C.kind with _ | _ | _ | _ | _ <;> rcases hbm : bm with _ | bm' <;> simp only [hkind, hbm] at h
        · exact one none _ _ h (.inl rfl) (by simp [hkind]) (by simp [hkind, OpKind.isParametric]) (fun _ => rfl) (by simp)
        · exact one none _ _ h (.inl rfl) (by simp [hkind]) (by simp [hkind, OpKind.isParametric]) (fun _ => rfl) (by simp [hkind])
        · exact one (some op.params) _ _ h (.inl rfl) (by simp [hkind]) (by simp) (by simp [hkind, OpKind.isParametric]) (by simp)
        · exact one (some op.params) _ _ h (.inl rfl) (by simp [hkind]) (by simp) (by simp [hkind, OpKind.isParametric]) (by simp [hkind])
        · cases hs : starArgs mapped with
          | none => simp only [hs] at h; cases h
          | some a =>
            simp only [hs] at h
            exact one none a _ h (.inr ⟨hkind, hs⟩) (fun _ => hs) (by simp [hkind, OpKind.isParametric]) (fun _ => rfl) (by simp)
        · cases hs : starArgs mapped with
          | none => simp only [hs] at h; cases h
          | some a =>
            simp only [hs] at h
            exact one none a _ h (.inr ⟨hkind, hs⟩) (fun _ => hs) (by simp [hkind, OpKind.isParametric]) (fun _ => rfl) (by simp [hkind])
        · exact one (some op.params) _ _ h (.inl rfl) (by simp [hkind]) (by simp) (by simp [hkind, OpKind.isParametric]) (by simp)
        · exact one (some op.params) _ _ h (.inl rfl) (by simp [hkind]) (by simp) (by simp [hkind, OpKind.isParametric]) (by simp [hkind])
        · exact one none _ _ h (.inl rfl) (by simp [hkind]) (by simp [hkind, OpKind.isParametric]) (fun _ => rfl) (by simp)
        · simp only [bind_def] at h
          generalize hz2 : lookupAll bm' (op.bits.getD []) W1 = z at h
          obtain ⟨r, W2⟩ := z
          cases r with
          | error e => cases h
          | ok mb =>
            dsimp only at h
            obtain ⟨rfl, hR⟩ := lookupAll_ok _ _ _ _ _ hz2
            rcases construct_cases op.cls none (.qubits (some mapped)) W2 with ⟨e, w', h2, -⟩ | ⟨C', w', op', h2, h3, h4⟩
            · rw [h2] at h; cases h
            · rw [h3] at h
              rw [hk] at h2
              cases h2
              dsimp only at h
              have hget : w'.ops[W2.ops.length]? = some op' := by rw [h4.ops]; simp
              obtain ⟨C2, k1, k2, k3, -, -⟩ := h4.classes.get hk
              rw [← h4.cls] at k1
              obtain ⟨cp, hq⟩ := h4.copy ht hD hQ (.inl rfl) (by simp [hkind]) (by simp [hkind, OpKind.isParametric]) (fun _ => rfl) none (by simp)
              have hn : op'.numQubits = some mapped.length := by rw [h4.numQubits, hq]; rfl
              unfold measureInto at h
              simp only [bind_def, opObj, clsObj, M.deref, hget, k1, k3, hkind, hn, M.raiseIf] at h
              by_cases hl : decide (mb.length < mapped.length) = true
              · rw [if_pos hl] at h; cases h
              · rw [if_neg hl] at h
                simp only [modOp, M.write, hget] at h
                cases h
                have g := h4.grown ht hD
                refine ⟨op, C, { op' with bits := some (mb.take mapped.length) }, rfl, hk, ?_, ?_⟩
                · refine ⟨?_, g.classes, g.qubits, g.bits, g.vars, g.active, g.ctxs, g.onExit, g.circs⟩
                  show w'.ops.set _ _ = _
                  rw [h4.ops]; simp
                · refine ⟨cp.cls, cp.qubits, cp.number, cp.split, cp.values, cp.params, cp.plain, cp.cond, fun _ => ?_⟩
                  exact ⟨mb.take mapped.length, mapped.length, rfl, hn, List.forall₂_take _ hR⟩


omit [DecidableEq K] [Zero K] in
theorem copyOf_world {W W1 : World K} {C C1 : OpCls} {P : Prop} {Q : Nat → Nat → Prop} {R : Option (Nat → Nat → Prop)} {op op' : OpObj K}
    (h : CopyOf W C P Q R op op') (hv : W1.vars = W.vars) (hk : C1.kind = C.kind) (hn : C1.ar.numControl = C.ar.numControl) :
    CopyOf W1 C1 P Q R op op' := by
  have e : W1.varVal = W.varVal := by unfold World.varVal; rw [hv]
  exact ⟨h.cls, h.qubits, h.number, by rw [hk, hn]; exact h.split, by rw [hk, e]; exact h.values, by rw [hk]; exact h.params, by rw [hk]; exact h.plain, h.cond,
    by rw [hk]; exact h.bits⟩

/-- The loop of a call. -/
theorem callLoop_ok {qm : PyDict Lbl Nat} {bm : Option (PyDict Lbl Nat)} (os : List Nat) {W W' : World K}
    (h : M.each os (callOne qm bm) W = (.ok (), W')) {B : Nat} {D : Circ} (ht : W.target = some B) (hD : W.circs[B]? = some D)
    (hos : ∀ o ∈ os, o < W.ops.length) :
    ∃ new, Grown W W' B D new ∧ List.Forall₂ (fun o op' => ∃ op C, W.ops[o]? = some op ∧ W.classes[op.cls]? = some C ∧
      CopyOf W C (D.parametric = false) (fun x y => qm.get? (.obj x) = some y) (bm.map fun m x y => m.get? (.obj x) = some y) op op') os new := by
  induction os generalizing W D with
  | nil =>
    unfold M.each at h
    cases h
    refine ⟨[], ⟨by simp, rfl, rfl, rfl, rfl, rfl, rfl, rfl, D.q, rfl, ?_⟩, .nil⟩
    obtain ⟨hlt, e⟩ := List.getElem?_eq_some_iff.1 hD
    subst e
    have : ({ W'.circs[B] with ops := W'.circs[B].ops ++ List.range' W'.ops.length 0, q := W'.circs[B].q } : Circ) = W'.circs[B] := by simp
    rw [List.length_nil, this]
    simp
  | cons o os ih =>
    unfold M.each at h
    rw [bind_def] at h
    generalize hz : callOne qm bm o W = z at h
    obtain ⟨r, W1⟩ := z
    cases r with
    | error e => cases h
    | ok u =>
      cases u
      dsimp only at h
      obtain ⟨op, C, op', h1, h2, h3, h4⟩ := callOne_ok hz ht hD
      obtain ⟨b1, hb, hD1⟩ := h3.get hD
      obtain ⟨new, h5, h6⟩ := ih h (h3.target.trans ht) hD1 (by
        intro o' ho'
        rw [h3.ops, List.length_append]
        exact Nat.lt_add_right _ (hos o' (by simp [ho'])))
      refine ⟨op' :: new, h3.trans hb h5, .cons ⟨op, C, h1, h2, h4⟩ ?_⟩
      have hmem : ∀ o' ∈ os, o' < W.ops.length := fun o' ho' => hos o' (by simp [ho'])
      have step : ∀ (o' : Nat) (x : OpObj K), o' < W.ops.length → (∃ op C, W1.ops[o']? = some op ∧ W1.classes[op.cls]? = some C ∧
          CopyOf W1 C (D.parametric = false) (fun x y => qm.get? (.obj x) = some y) (bm.map fun m x y => m.get? (.obj x) = some y) op x) →
          ∃ op C, W.ops[o']? = some op ∧ W.classes[op.cls]? = some C ∧
          CopyOf W C (D.parametric = false) (fun x y => qm.get? (.obj x) = some y) (bm.map fun m x y => m.get? (.obj x) = some y) op x := by
        rintro o' x hlt ⟨op2, C2, g1, g2, g3⟩
        rw [h3.ops, List.getElem?_append_left hlt] at g1
        have hcl : SameClasses W1.classes W.classes := Eq.symm h3.classes
        obtain ⟨C3, e1, e2, e3, e4, e5⟩ := hcl.get g2
        exact ⟨op2, C3, g1, e1, copyOf_world g3 h3.vars.symm e3 e5⟩
      clear ih h h5
      induction h6 with
      | nil => exact .nil
      | cons hx _ ihx =>
        refine .cons (step _ _ (hmem _ (by simp)) hx) (ihx ?_ fun o' ho' => hmem o' (by simp [ho']))
        intro o' ho'
        rcases List.mem_cons.1 ho' with rfl | ho'
        · exact hos _ (by simp)
        · exact hos _ (by simp [ho'])

omit [DecidableEq K] [Zero K] in
theorem qubitsOf_inv {a : Nat} {w w' : World K} {r : Reg} (h : qubitsOf a w = (.ok r, w')) :
    ∃ A, w.circs[a]? = some A ∧ w' = w.setCirc a { A with q := { A.q with cache := some r } } := by
  unfold qubitsOf at h
  cases hA : w.circs[a]? with
  | none => rw [hA] at h; cases h
  | some A =>
    rw [hA] at h
    dsimp only at h
    refine ⟨A, rfl, ?_⟩
    unfold Bank.flat at h
    cases hc : A.q.cache with
    | some r' =>
      rw [hc] at h
      cases h
      congr 2
      rcases A with ⟨_, _, _, ⟨_, _⟩, _, _, _⟩
      cases hc
      rfl
    | none =>
      rw [hc] at h
      dsimp only at h
      split at h
      · cases h
      · cases h
        rfl

omit [DecidableEq K] [Zero K] in
theorem bitsOf_inv {a : Nat} {w w' : World K} {r : Reg} (h : bitsOf a w = (.ok r, w')) :
    ∃ A, w.circs[a]? = some A ∧ w' = w.setCirc a { A with c := { A.c with cache := some r } } := by
  unfold bitsOf at h
  cases hA : w.circs[a]? with
  | none => rw [hA] at h; cases h
  | some A =>
    rw [hA] at h
    dsimp only at h
    refine ⟨A, rfl, ?_⟩
    unfold Bank.flat at h
    cases hc : A.c.cache with
    | some r' =>
      rw [hc] at h
      cases h
      congr 2
      rcases A with ⟨_, _, _, _, ⟨_, _⟩, _, _⟩
      cases hc
      rfl
    | none =>
      rw [hc] at h
      dsimp only at h
      split at h
      · cases h
      · cases h
        rfl

omit [DecidableEq K] [Zero K] in
theorem bitsOf_setQ {a : Nat} {w : World K} {A : Circ} (hA : w.circs[a]? = some A) (b : Bank) :
    (bitsOf a (w.setCirc a { A with q := b })).1 = (bitsOf a w).1 := by
  unfold bitsOf
  rw [setCirc_get hA, hA]
  rfl

omit [DecidableEq K] [Zero K] in
theorem bitMap_ok {a : Nat} {bits : Option (List Nat)} {w w' : World K} {bm : Option (PyDict Lbl Nat)} (h : bitMap a bits w = (.ok bm, w'))
    {A : Circ} (hA : w.circs[a]? = some A) :
    ∃ cc, w' = w.setCirc a { A with c := { A.c with cache := cc } } ∧
    ∃ R, BitsGiven w a bits R ∧ (match bm, R with
      | none, none => True
      | some m, some R => ∀ x y, m.get? (.obj x) = some y → R x y
      | _, _ => False) := by
  have idem : w = w.setCirc a { A with c := { A.c with cache := A.c.cache } } := by
    obtain ⟨hlt, e⟩ := List.getElem?_eq_some_iff.1 hA
    subst e
    unfold World.setCirc
    have : ({ w.circs[a] with c := { w.circs[a].c with cache := w.circs[a].c.cache } } : Circ) = w.circs[a] := rfl
    rw [this, List.set_getElem_self]
  unfold bitMap at h
  rcases bits with _ | (_ | ⟨b, bs⟩)
  · cases h
    exact ⟨A.c.cache, idem, none, rfl, trivial⟩
  · cases h
    exact ⟨A.c.cache, idem, none, rfl, trivial⟩
  · dsimp only [nonempty] at h
    rw [bind_def] at h
    obtain ⟨r, w1, hz⟩ : ∃ r w1, bitsOf a w = (r, w1) := ⟨_, _, rfl⟩
    rw [hz] at h
    cases r with
    | error e => cases h
    | ok r =>
      simp only [bind_def, M.raiseIf] at h
      by_cases hn : decide ((b :: bs).length ≠ r.cy.stop) = true
      · rw [if_pos hn] at h; cases h
      · simp only [if_neg hn, zipMap] at h
        cases hi : r.cy.iter with
        | error e => rw [hi] at h; cases h
        | ok items =>
          rw [hi] at h
          cases h
          obtain ⟨A', h1, h2⟩ := bitsOf_inv hz
          rw [hA] at h1
          cases h1
          refine ⟨some r, h2, some (SamePlace items (b :: bs)), ⟨items, ?_, ?_, rfl⟩, fun x y e => zip_get e⟩
          · rw [hz]; exact hi
          · rw [hz]
            have : (b :: bs).length = r.cy.stop := by simpa using hn
            simp [count, this]

omit [DecidableEq K] [Zero K] in
theorem copyOf_mono {W : World K} {C : OpCls} {P : Prop} {Q Q' : Nat → Nat → Prop} {R R' : Option (Nat → Nat → Prop)} {op op' : OpObj K}
    (h : CopyOf W C P Q R op op') (hQ : ∀ x y, Q x y → Q' x y) (hR : match R, R' with
      | none, none => True
      | some m, some R => ∀ x y, m x y → R x y
      | _, _ => False) : CopyOf W C P Q' R' op op' := by
  refine ⟨h.cls, ?_, h.number, ?_, h.values, h.params, h.plain, h.cond, ?_⟩
  · obtain ⟨qs, h1, h2⟩ := h.qubits
    exact ⟨qs, h1, h2.imp hQ⟩
  · intro hk cs ts h1 h2 h3 h4 h5 h6
    obtain ⟨cs', ts', g1, g2, g3, g4⟩ := h.split hk cs ts h1 h2 h3 h4 h5 h6
    exact ⟨cs', ts', g1, g2, g3.imp hQ, g4.imp hQ⟩
  · intro hk
    have := h.bits hk
    rcases R with _ | R <;> rcases R' with _ | R'
    · exact this
    · exact hR.elim
    · exact hR.elim
    · obtain ⟨bs, n, g1, g2, g3⟩ := this
      exact ⟨bs, n, g1, g2, g3.imp hR⟩

/-- A successful call. -/
theorem callCirc_ok {w w' : World K} (hr : Refs w) (ho : OpsInv w) {a : Nat} {qs : List Nat} {bits : Option (List Nat)}
    (h : callCirc a qs bits w = (.ok (), w')) {B : Nat} (ht : w.target = some B) :
    ∃ A D items R new, w.circs[a]? = some A ∧ w.circs[B]? = some D ∧ B ≠ a ∧ seen (qubitsOf a w).1 = .ok items ∧
      count (qubitsOf a w).1 = .ok qs.length ∧ BitsGiven w a bits R ∧ Appended w w' B new ∧
      List.Forall₂ (fun o op' => ∃ op C, w.ops[o]? = some op ∧ w.classes[op.cls]? = some C ∧
        CopyOf w C (D.parametric = false) (SamePlace items qs) R op op') A.ops new := by
  unfold callCirc at h
  simp only [bind_def, M.read] at h
  unfold World.target at ht
  cases ha : w.active with
  | none => rw [ha] at ht; cases ht
  | some x =>
    rw [ha] at ht h
    dsimp only at ht h
    cases hX : w.ctxs[x]? with
    | none => rw [hX] at ht; cases ht
    | some X =>
      rw [hX] at ht
      simp only [bind_def, ctxObj, M.deref, hX, M.raiseIf] at h ht
      have hf : X.frozen = false := by
        cases hf : X.frozen with
        | true => rw [hf] at ht; cases ht
        | false => rfl
      rw [hf] at ht
      simp only [Bool.false_eq_true, if_false, Option.some.injEq] at ht
      subst ht
      by_cases hxa : decide (X.circuit = a) = true
      · rw [if_pos hxa] at h; cases h
      · simp only [if_neg hxa] at h
        have hne : X.circuit ≠ a := by simpa using hxa
        generalize hz : qubitsOf a w = z at h
        obtain ⟨r, w1⟩ := z
        cases r with
        | error e => cases h
        | ok r =>
          dsimp only at h
          by_cases hn : decide (qs.length ≠ r.cy.stop) = true
          · rw [if_pos hn] at h; cases h
          · simp only [if_neg hn] at h
            obtain ⟨A, hA, rfl⟩ := qubitsOf_inv hz
            generalize hb : bitMap a bits _ = z at h
            obtain ⟨bm, w2⟩ := z
            cases bm with
            | error e => cases h
            | ok bm =>
              dsimp only at h
              obtain ⟨cc, rfl, R, hR, hRbm⟩ := bitMap_ok hb (setCirc_get hA)
              simp only [setCirc_setCirc] at h
              have hq := qubitsOf_again (c := a) (r := r) (C := { A with c := { A.c with cache := cc } }) (w := w.setCirc a { A with c := { A.c with cache := cc } })
                (setCirc_get hA)
              rw [setCirc_setCirc] at hq
              rw [hq] at h
              dsimp only at h
              simp only [zipMap] at h
              cases hi : r.cy.iter with
              | error e => rw [hi] at h; cases h
              | ok its =>
                rw [hi] at h
                simp only [circ, M.deref] at h
                rw [setCirc_get hA] at h
                dsimp only at h
                set W := w.setCirc a { A with q := { A.q with cache := some r }, c := { A.c with cache := cc } } with hW
                have hBlt : X.circuit < w.circs.length := hr.circuit x X hX
                obtain ⟨D, hD⟩ : ∃ D, w.circs[X.circuit]? = some D := ⟨_, List.getElem?_eq_getElem hBlt⟩
                have hDW : W.circs[X.circuit]? = some D := by
                  rw [hW]
                  show (w.circs.set a _)[X.circuit]? = _
                  rw [List.getElem?_set_ne (fun e => hne e.symm)]
                  exact hD
                have htW : W.target = some X.circuit := by
                  show (match w.active with
                    | none => none
                    | some x => match w.ctxs[x]? with
                      | none => none
                      | some X => if X.frozen then none else some X.circuit) = _
                  rw [ha]; dsimp only; rw [hX]; simp [hf]
                obtain ⟨new, hg, hcopy⟩ := callLoop_ok A.ops h htW hDW (ho.ops A (List.mem_of_getElem? hA))
                refine ⟨A, D, its, R, new, hA, hD, hne, hi, ?_, ?_, ?_, ?_⟩
                · have : qs.length = r.cy.stop := by simpa using hn
                  simp [count, this]
                · revert hR
                  unfold BitsGiven
                  rw [bitsOf_setQ hA]
                  exact id
                · refine ⟨hg.ops, ⟨D, hD, ?_⟩, hg.qubits, hg.bits, hg.vars, hg.active, hg.ctxs, hg.onExit, hg.classes⟩
                  obtain ⟨b', e1, e2⟩ := hg.circs
                  rw [e2, hW]
                  show ((w.circs.set a _).set X.circuit _).map bare = _
                  rw [List.map_set, List.map_set, List.map_set]
                  have e3 : bare { A with q := { A.q with cache := some r }, c := { A.c with cache := cc } } = bare A := rfl
                  have e4 : (w.circs.map bare).set a (bare A) = w.circs.map bare := by
                    obtain ⟨hlt, e⟩ := List.getElem?_eq_some_iff.1 hA
                    subst e
                    have := List.set_getElem_self (as := w.circs.map bare) (i := a) (by simpa using hlt)
                    rwa [List.getElem_map] at this
                  rw [e3, e4]
                  congr 1
                  unfold bare
                  simp only [e1]
                  rfl
                · refine hcopy.imp ?_
                  rintro o op' ⟨op, C, g1, g2, g3⟩
                  refine ⟨op, C, g1, g2, copyOf_mono (copyOf_world g3 rfl rfl rfl) (fun x y e => zip_get e) ?_⟩
                  rcases bm with _ | bm <;> rcases R with _ | R
                  · trivial
                  · exact hRbm.elim
                  · exact hRbm.elim
                  · exact hRbm

end DG
