import Verif.Proofs.Enter
import Verif.Proofs.Qir
import Mathlib.Data.List.TakeWhile

/-! The loader of QIR programs. -/

namespace DG
open Spec
variable {K : Type} [DecidableEq K] [Zero K]

namespace Qir

/-- The state between two steps of the loader: the circuit `c` is not parametric and has at most one register of each kind, whose contents are
`L.items` and `LC.items`. -/
structure Loading (w : World K) (c : Nat) (C : Circ) (L LC : Layout) : Prop where
  refs : Refs w
  qinv : QInv false false w
  cinv : CInv false w
  get : w.circs[c]? = some C
  param : C.param = false
  okq : Bank.Ok C.q L
  okc : Bank.Ok C.c LC
  freshq : Bank.Fresh C.q L
  freshc : Bank.Fresh C.c LC
  oneq : L.length ≤ 1
  onec : LC.length ≤ 1
  ctx : ∀ x, C.ctx = some x → w.ctxs[x]? = some ⟨c, false⟩

/-- Nothing but the registers, the lock and the context of circuit `c` has changed. -/
structure Quiet (c : Nat) (C C' : Circ) (w w' : World K) : Prop where
  ops : w'.ops = w.ops
  classes : w'.classes = w.classes
  vars : w'.vars = w.vars
  active : w'.active = w.active
  onExit : w'.onExit = w.onExit
  frame : ∀ d, d ≠ c → w'.circs[d]? = w.circs[d]?
  circOps : C'.ops = C.ops

theorem Quiet.refl (c : Nat) (C : Circ) (w : World K) : Quiet c C C w w := ⟨rfl, rfl, rfl, rfl, rfl, fun _ _ => rfl, rfl⟩

theorem Quiet.trans {c : Nat} {C C' C'' : Circ} {w w' w'' : World K} (h : Quiet c C C' w w') (h' : Quiet c C' C'' w' w'') :
    Quiet c C C'' w w'' :=
  ⟨h'.ops.trans h.ops, h'.classes.trans h.classes, h'.vars.trans h.vars, h'.active.trans h.active, h'.onExit.trans h.onExit,
    fun d hd => (h'.frame d hd).trans (h.frame d hd), h'.circOps.trans h.circOps⟩

omit [DecidableEq K] [Zero K] in
theorem setCirc_frame {w : World K} {c : Nat} {C : Circ} {d : Nat} (hd : d ≠ c) : (w.setCirc c C).circs[d]? = w.circs[d]? := by
  unfold World.setCirc
  exact List.getElem?_set_ne (Ne.symm hd)

theorem Loading.ltq {w : World K} {c : Nat} {C : Circ} {L LC : Layout} (h : Loading w c C L LC) : ∀ k ∈ L.items, k < w.qubits.length := by
  obtain ⟨L', h1, -, h3, -⟩ := h.qinv.bank C (mem_of_get? h.get)
  cases Bank.shows_unique h1.shows h.okq.shows
  exact h3

theorem Loading.ltc {w : World K} {c : Nat} {C : Circ} {L LC : Layout} (h : Loading w c C L LC) : ∀ k ∈ LC.items, k < w.bits.length := by
  obtain ⟨L', h1, -, h3, -⟩ := h.cinv.bank C (mem_of_get? h.get)
  cases Bank.shows_unique h1.shows h.okc.shows
  exact h3

/-- Reading `circuit.qubits`. -/
theorem Loading.qubits {w : World K} {c : Nat} {C : Circ} {L LC : Layout} (h : Loading w c C L LC) :
    ∃ r C' w', qubitsOf c w = (.ok r, w') ∧ CyReg.Rep r.cy (L.items.map Lbl.obj) ∧ Loading w' c C' L LC ∧ Quiet c C C' w w' ∧
      C'.locked = C.locked ∧ C'.ctx = C.ctx ∧ w'.ctxs = w.ctxs := by
  obtain ⟨r, g1, -, g3⟩ := qubitsOf_eq h.get h.okq
  have g3 := g3 h.freshq
  have p1 := Refs.qubitsOf c w h.refs
  have p2 := QInv.qubitsOf c w h.qinv
  have p3 := CInv.qubitsOf c w h.cinv
  rw [g1] at p1 p2 p3
  refine ⟨r, { C with q := { C.q with cache := some r } }, _, g1, g3, ?_, ?_, rfl, rfl, rfl⟩
  · exact ⟨p1, p2, p3, setCirc_get h.get, h.param, Bank.ok_of_regs h.okq rfl, h.okc, fun r' hr => (by cases hr; exact g3), h.freshc, h.oneq, h.onec, h.ctx⟩
  · exact ⟨rfl, rfl, rfl, rfl, rfl, fun d hd => setCirc_frame hd, rfl⟩

/-- Reading `circuit.bits`. -/
theorem Loading.bits {w : World K} {c : Nat} {C : Circ} {L LC : Layout} (h : Loading w c C L LC) :
    ∃ r C' w', bitsOf c w = (.ok r, w') ∧ CyReg.Rep r.cy (LC.items.map Lbl.obj) ∧ Loading w' c C' L LC ∧ Quiet c C C' w w' ∧
      C'.locked = C.locked ∧ C'.ctx = C.ctx ∧ w'.ctxs = w.ctxs := by
  obtain ⟨r, b', g1, g2, g3, g4, -⟩ := Bank.flat_ok (inert_bitEnv h.cinv.unset) h.okc
  have g4 := g4 h.freshc
  have e : bitsOf c w = (.ok r, w.setCirc c { C with c := b' }) := by
    unfold bitsOf; rw [h.get]; dsimp only; rw [g1]
  have p1 := Refs.bitsOf c w h.refs
  have p2 := (QInv.prims (by simp)).bitsOf c w h.qinv
  have p3 := CInv.bitsOf c w h.cinv
  rw [e] at p1 p2 p3
  refine ⟨r, { C with c := b' }, _, e, g4, ?_, ?_, rfl, rfl, rfl⟩
  · exact ⟨p1, p2, p3, setCirc_get h.get, h.param, h.okq, Bank.ok_of_regs h.okc g2, h.freshq, fun r' hr => (by rw [g3] at hr; cases hr; exact g4), h.oneq, h.onec, h.ctx⟩
  · exact ⟨rfl, rfl, rfl, rfl, rfl, fun d hd => setCirc_frame hd, rfl⟩

theorem one_register {L : Layout} (h : L.length ≤ 1) (pre : String) (k : Nat) :
    ((L.withRegister pre none).2.addTo (L.withRegister pre none).1 k).length = 1 ∧
    Layout.items ((L.withRegister pre none).2.addTo (L.withRegister pre none).1 k) = L.items ++ [k] := by
  match L, h with
  | [], _ => simp [Layout.withRegister, Layout.addTo, Layout.items]
  | [p], _ => simp [Layout.withRegister, Layout.addTo, Layout.items]

/-- Adding a new qubit. -/
theorem Loading.addQubit {w : World K} {c : Nat} {C : Circ} {L LC : Layout} (h : Loading w c C L LC) :
    ∃ C' w' L', DG.addQubit c .none none w = (.ok (), w') ∧ Loading w' c C' L' LC ∧ Quiet c C C' w w' ∧
      L'.items = L.items ++ [w.qubits.length] := by
  obtain ⟨created, b', item, g1, g2, g3, g4⟩ := Bank.addItem_ok inert_qubitEnv h.okq (fun _ => h.freshq) "qreg" none none w.qubits.length h.ltq (by simp)
  rcases g4 with ⟨k, e1, -, -⟩ | ⟨-, e2, e3⟩
  · cases e1
  subst e2 e3
  have e : DG.addQubit c .none none w = (.ok (), { w.setCirc c { C with q := b' } with qubits := w.qubits ++ [.str (toString L.items.length)] }) := by
    unfold DG.addQubit; rw [h.get]; dsimp only; rw [g1]
  obtain ⟨o1, o2⟩ := one_register h.oneq "qreg" w.qubits.length
  have p1 := Refs.prims.addQubit c .none none w h.refs
  have p2 := QInv.addQubit c .none none w h.qinv
  have p3 := CInv.prims.addQubit c .none none w h.cinv
  rw [e] at p1 p2 p3
  refine ⟨{ C with q := b' }, _, _, e, ?_, ?_, o2⟩
  · exact ⟨p1, p2, p3, setCirc_get h.get, h.param, g2, h.okc, fun r' hr => (by rw [g3] at hr; cases hr), h.freshc, by omega, h.onec, h.ctx⟩
  · exact ⟨rfl, rfl, rfl, rfl, rfl, fun d hd => setCirc_frame hd, rfl⟩

/-- Adding a new bit. -/
theorem Loading.addBit {w : World K} {c : Nat} {C : Circ} {L LC : Layout} (h : Loading w c C L LC) :
    ∃ C' w' LC', DG.addBit c .none none w = (.ok (), w') ∧ Loading w' c C' L LC' ∧ Quiet c C C' w w' ∧
      LC'.items = LC.items ++ [w.bits.length] := by
  obtain ⟨created, b', item, g1, g2, g3, g4⟩ := Bank.addItem_ok (inert_bitEnv h.cinv.unset) h.okc (fun _ => h.freshc) "creg" none none w.bits.length h.ltc (by simp)
  rcases g4 with ⟨k, e1, -, -⟩ | ⟨-, e2, e3⟩
  · cases e1
  subst e2 e3
  have e : ∃ bl, DG.addBit c .none none w = (.ok (), { w.setCirc c { C with c := b' } with bits := bl }) := by
    refine ⟨w.bits ++ [⟨.str (toString LC.items.length), none⟩], ?_⟩
    unfold DG.addBit; rw [h.get]; dsimp only; rw [g1]; rfl
  obtain ⟨bl, e⟩ := e
  obtain ⟨o1, o2⟩ := one_register h.onec "creg" w.bits.length
  have p1 := Refs.prims.addBit c .none none w h.refs
  have p2 := (QInv.prims (by simp)).addBit c .none none w h.qinv
  have p3 := CInv.prims.addBit c .none none w h.cinv
  rw [e] at p1 p2 p3
  refine ⟨{ C with c := b' }, _, _, e, ?_, ?_, o2⟩
  · exact ⟨p1, p2, p3, setCirc_get h.get, h.param, h.okq, g2, h.freshq, fun r' hr => (by rw [g3] at hr; cases hr), h.oneq, by omega, h.ctx⟩
  · exact ⟨rfl, rfl, rfl, rfl, rfl, fun d hd => setCirc_frame hd, rfl⟩

theorem Loading.addQubits {w : World K} {c : Nat} {C : Circ} {L LC : Layout} (h : Loading w c C L LC) (l : List Nat) :
    ∃ C' w' L', M.each l (fun _ => DG.addQubit c .none none) w = (.ok (), w') ∧ Loading w' c C' L' LC ∧ Quiet c C C' w w' ∧
      ∃ new, L'.items = L.items ++ new ∧ new.length = l.length := by
  induction l generalizing w C L with
  | nil => exact ⟨C, w, L, rfl, h, Quiet.refl .., [], by simp, rfl⟩
  | cons a l ih =>
    obtain ⟨C1, w1, L1, e1, h1, q1, i1⟩ := h.addQubit
    obtain ⟨C2, w2, L2, e2, h2, q2, new, i2, i3⟩ := ih h1
    refine ⟨C2, w2, L2, ?_, h2, q1.trans q2, w.qubits.length :: new, by rw [i2, i1]; simp, by simp [i3]⟩
    unfold M.each
    rw [bind_def, e1]
    exact e2

theorem Loading.addBits {w : World K} {c : Nat} {C : Circ} {L LC : Layout} (h : Loading w c C L LC) (l : List Nat) :
    ∃ C' w' LC', M.each l (fun _ => DG.addBit c .none none) w = (.ok (), w') ∧ Loading w' c C' L LC' ∧ Quiet c C C' w w' ∧
      ∃ new, LC'.items = LC.items ++ new ∧ new.length = l.length := by
  induction l generalizing w C LC with
  | nil => exact ⟨C, w, LC, rfl, h, Quiet.refl .., [], by simp, rfl⟩
  | cons a l ih =>
    obtain ⟨C1, w1, L1, e1, h1, q1, i1⟩ := h.addBit
    obtain ⟨C2, w2, L2, e2, h2, q2, new, i2, i3⟩ := ih h1
    refine ⟨C2, w2, L2, ?_, h2, q1.trans q2, w.bits.length :: new, by rw [i2, i1]; simp, by simp [i3]⟩
    unfold M.each
    rw [bind_def, e1]
    exact e2

/-- `unlock()`. -/
theorem Loading.unlock {w : World K} {c : Nat} {C : Circ} {L LC : Layout} (h : Loading w c C L LC) :
    ∃ C' w', unlockCirc c w = (.ok (), w') ∧ Loading w' c C' L LC ∧ Quiet c C C' w w' ∧ C'.locked = false := by
  have e : unlockCirc c w = (.ok (), w.setCirc c { C with locked := false }) := by
    unfold unlockCirc modCirc M.write
    dsimp only
    rw [h.get]
    simp [h.param]
  have p1 := Refs.prims.unlock c w h.refs
  have p2 := (QInv.prims (by simp)).unlock c w h.qinv
  have p3 := CInv.prims.unlock c w h.cinv
  rw [e] at p1 p2 p3
  refine ⟨{ C with locked := false }, _, e, ?_, ?_, rfl⟩
  · exact ⟨p1, p2, p3, setCirc_get h.get, h.param, h.okq, h.okc, h.freshq, h.freshc, h.oneq, h.onec, h.ctx⟩
  · exact ⟨rfl, rfl, rfl, rfl, rfl, fun d hd => setCirc_frame hd, rfl⟩

/-- Entering the context of an unlocked circuit. -/
theorem Loading.open {w : World K} {c : Nat} {C : Circ} {L LC : Layout} (h : Loading w c C L LC) (hl : C.locked = false) (ha : w.active = none) :
    ∃ x C' w', openCtx c w = (.ok x, w') ∧ Loading w' c C' L LC ∧ w'.active = some x ∧ w'.ctxs[x]? = some ⟨c, false⟩ ∧ C'.locked = false ∧
      C'.ctx = some x ∧ Quiet c C C' { w with active := some x } w' := by
  obtain ⟨x, w1, h1, h2, h3, h4⟩ : ∃ x w1, contextOf c w = (.ok x, w1) ∧ w1.circs[c]? = some { C with ctx := some x } ∧ w1.ctxs[x]? = some ⟨c, false⟩ ∧
      Quiet c C { C with ctx := some x } w w1 := by
    unfold contextOf
    rw [h.get]
    dsimp only
    cases hx : C.ctx with
    | some x =>
      have e : { C with ctx := some x } = C := by cases C; simp_all
      exact ⟨x, w, rfl, by rw [e]; exact h.get, h.ctx x hx, by rw [e]; exact Quiet.refl ..⟩
    | none =>
      exact ⟨w.ctxs.length, _, rfl, setCirc_get h.get, by simp, ⟨rfl, rfl, rfl, rfl, rfl, fun d hd => setCirc_frame hd, rfl⟩⟩
  have p1 := Refs.contextOf c w h.refs
  have p2 := (QInv.ctxPrims).contextOf c w h.qinv
  have p3 := CInv.ctxPrims.contextOf c w h.cinv
  rw [h1] at p1 p2 p3
  have p1' : Refs { w1 with active := some x } := p1.setActive fun y hy => (by cases hy; exact (List.getElem?_eq_some_iff.1 h3).1)
  have hL : Loading { w1 with active := some x } c { C with ctx := some x } L LC :=
    ⟨p1', QInv.ctxPrims.setActive _ _ p2, CInv.ctxPrims.setActive _ _ p3, h2, h.param, h.okq, h.okc, h.freshq, h.freshc, h.oneq, h.onec,
      fun y hy => (by cases hy; exact h3)⟩
  obtain ⟨r, C2, w2, e2, -, l2, q2, k2, x2, c2⟩ := hL.qubits
  obtain ⟨r', C3, w3, e3, -, l3, q3, k3, x3, c3⟩ := l2.bits
  refine ⟨x, C3, w3, ?_, l3, by rw [q3.active, q2.active], by rw [c3, c2]; exact h3, by rw [k3, k2]; exact hl, by rw [x3, x2], ?_⟩
  · unfold openCtx enterCtx
    rw [bind_def, h1]
    simp only [bind_def, ctxObj, M.deref, h3, circ, h2, M.raiseIf, M.read, M.write, hl, h4.active, ha, Option.isSome_none, Bool.false_eq_true, if_false]
    rw [e2]
    dsimp only
    rw [e3]
    rfl
  · refine Quiet.trans (w' := { w1 with active := some x }) ?_ (q2.trans q3)
    exact ⟨h4.ops, h4.classes, h4.vars, rfl, h4.onExit, h4.frame, h4.circOps⟩

theorem target_eq {w : World K} {x c : Nat} (ha : w.active = some x) (hX : w.ctxs[x]? = some ⟨c, false⟩) : w.target = some c := by
  simp [World.target, ha, hX]

/-- An operation is constructed in the context of the circuit. -/
theorem Loading.construct {w w' : World K} {c : Nat} {C : Circ} {L LC : Layout} (h : Loading w c C L LC) (hL : L ≠ []) (ht : w.target = some c)
    {k o : Nat} {ps : Option (List (OpParam K))} {args : QArgs} (e : construct k ps args w = (.ok o, w')) :
    ∃ D C' op, o = w.ops.length ∧ w.classes[k]? = some D ∧ Constructed w w' k ps args D op ∧ Loading w' c C' L LC ∧ C'.ops = C.ops ++ [w.ops.length] ∧
      ∀ d, d ≠ c → w'.circs[d]? = w.circs[d]? := by
  rcases construct_cases k ps args w with ⟨e', w'', h1, -⟩ | ⟨D, w'', op, h1, h2, h3⟩
  · rw [h1] at e; cases e
  rw [h2] at e; cases e
  have hc := h3.circs
  rw [ht] at hc
  obtain ⟨C0, b', g1, g2, g3, g4⟩ := hc
  rw [h.get] at g1; cases g1
  have p1 := Refs.prims.to0.construct k ps args w h.refs
  have p2 := (QInv.prims (by simp)).to0.construct k ps args w h.qinv
  have p3 := CInv.prims.to0.construct k ps args w h.cinv
  rw [h2] at p1 p2 p3
  have hget : w'.circs[c]? = some { C with ops := C.ops ++ [w.ops.length], q := b' } := by
    rw [g4, List.getElem?_set_self (List.getElem?_eq_some_iff.1 h.get).1]
  have okq := Bank.ok_of_regs h.okq g3
  refine ⟨D, _, op, rfl, h1, h3, ⟨p1, p2, p3, hget, h.param, okq, h.okc, ?_, h.freshc, h.oneq, h.onec, ?_⟩, rfl, ?_⟩
  · obtain ⟨L', i1, i2, -⟩ := p2.bank _ (mem_of_get? hget)
    cases Bank.shows_unique i1.shows okq.shows
    exact i2 (.inr hL)
  · rw [h3.ctxs]; exact h.ctx
  · intro d hd
    rw [g4]
    exact List.getElem?_set_ne (Ne.symm hd)

/-- Leaving the context. -/
theorem Loading.exit {w : World K} {c x : Nat} {C : Circ} {L LC : Layout} (h : Loading w c C L LC) (hx : w.ctxs[x]? = some ⟨c, false⟩) :
    ∃ C' w', exitCtx x w = (.ok (), w') ∧ Loading w' c C' L LC ∧ w'.ops = w.ops ∧ w'.classes = w.classes ∧ w'.active = none ∧
      C'.ops = C.ops ∧ ∀ d, d ≠ c → w'.circs[d]? = w.circs[d]? := by
  obtain ⟨vars, D, g1, -, g3⟩ := exitCtx_ok h.refs hx
  dsimp only at g1 g3
  rw [h.get] at g1; cases g1
  have p1 := Refs.exitCtx x w h.refs
  have p2 := QInv.ctxPrims.exitCtx (QInv.prims (by simp)).toA x w h.qinv
  have p3 := CInv.ctxPrims.exitCtx CInv.prims.toA x w h.cinv
  rw [g3] at p1 p2 p3
  refine ⟨_, _, g3, ⟨p1, p2, p3, setCirc_get h.get, h.param, h.okq, h.okc, h.freshq, h.freshc, h.oneq, h.onec, h.ctx⟩, rfl, rfl, rfl, rfl, ?_⟩
  intro d hd
  exact List.getElem?_set_ne (Ne.symm hd)

omit [DecidableEq K] [Zero K] in
theorem pick_ok {r : Reg} {L : Layout} (h : CyReg.Rep r.cy (L.items.map Lbl.obj)) {is : List Nat} (hi : ∀ i ∈ is, i < L.items.length) :
    ∃ ids, pick r is = .ok ids ∧ List.Forall₂ (InCircuit L) ids is := by
  induction is with
  | nil => exact ⟨[], rfl, .nil⟩
  | cons i is ih =>
    obtain ⟨ids, e, hf⟩ := ih fun j hj => hi j (by simp [hj])
    have hlt := hi i (by simp)
    have := h.at_nat i (by simpa using hlt)
    refine ⟨L.items[i] :: ids, ?_, .cons (by simp [InCircuit, hlt]) hf⟩
    unfold pick
    rw [this]
    simp [e]

omit [DecidableEq K] [Zero K] in
theorem pick_inv {r : Reg} {L : Layout} (h : CyReg.Rep r.cy (L.items.map Lbl.obj)) {is ids : List Nat} (e : pick r is = .ok ids) :
    List.Forall₂ (InCircuit L) ids is := by
  induction is generalizing ids with
  | nil => cases e; exact .nil
  | cons i is ih =>
    unfold pick at e
    by_cases hlt : i < L.items.length
    · have := h.at_nat i (by simpa using hlt)
      rw [this] at e
      simp only [List.getElem_map] at e
      cases hp : pick r is with
      | error e' => rw [hp] at e; cases e
      | ok l =>
        rw [hp] at e
        cases e
        exact .cons (by simp [InCircuit, hlt]) (ih hp)
    · have : r.cy.at i = .error .indexError := by
        rw [h.at_eq]
        unfold Spec.getItem
        simp at hlt
        simp [hlt]
      rw [this] at e
      cases e

omit [DecidableEq K] [Zero K] in
theorem le_maxOf (l : List Nat) : ∀ i ∈ l, i ≤ maxOf l := by
  unfold maxOf
  have key : ∀ (l : List Nat) (a : Nat), a ≤ l.foldl max a ∧ ∀ i ∈ l, i ≤ l.foldl max a := by
    intro l
    induction l with
    | nil => intro a; simp
    | cons b l ih =>
      intro a
      obtain ⟨h1, h2⟩ := ih (max a b)
      simp only [List.foldl_cons]
      refine ⟨by omega, ?_⟩
      intro i hi
      rcases List.mem_cons.1 hi with rfl | hi
      · omega
      · exact h2 i hi
  exact (key l 0).2

/-- Building an operation of the loader, the qubits being given. -/
def build (lib : String → Nat) (name : String) (params : List K) (ids : List Nat) : M K Unit := do
  let k ← clsObj (lib name)
  match bindArgs k.kind params with
  | none => M.raise .typeError
  | some ps => (DG.construct (lib name) ps (.qubits (some ids))).void

/-- The state in which the operation for a call is built. -/
structure Inside (w w1 : World K) (c x : Nat) (C C1 : Circ) (L LC : Layout) : Prop where
  loading : Loading w1 c C1 L LC
  active : w1.active = some x
  ctx : w1.ctxs[x]? = some ⟨c, false⟩
  unlocked : C1.locked = false
  ops : w1.ops = w.ops
  classes : w1.classes = w.classes
  circOps : C1.ops = C.ops
  frame : ∀ d, d ≠ c → w1.circs[d]? = w.circs[d]?

theorem Inside.target {w w1 : World K} {c x : Nat} {C C1 : Circ} {L LC : Layout} (h : Inside w w1 c x C C1 L LC) : w1.target = some c :=
  target_eq h.active h.ctx

/-- A gate: qubits are added such that all indices exist, and the operation is built in the context of the circuit. -/
theorem loadGate_eq {w : World K} {c : Nat} {C : Circ} {L LC : Layout} (h : Loading w c C L LC) (ha : w.active = none) (lib : String → Nat) (name : String)
    (params : List K) (is : List Nat) :
    ∃ w1 C1 L1 x ids new, Inside w w1 c x C C1 L1 LC ∧ L1.items = L.items ++ new ∧ L1.items.length = max L.items.length (maxOf is + 1) ∧
      List.Forall₂ (InCircuit L1) ids is ∧
      loadGate lib c name params is w = (match exitCtx x (build lib name params ids w1).2 with
        | (.error e, w3) => (.error e, w3)
        | (.ok _, w3) => ((build lib name params ids w1).1, w3)) := by
  obtain ⟨r, C1, w1, e1, hr, l1, q1, -⟩ := h.qubits
  have hstop : r.cy.stop = L.items.length := by rw [hr.stop]; simp
  obtain ⟨C2, w2, L2, e2, l2, q2, new, i2, i3⟩ := l1.addQubits (List.range (maxOf is + 1 - r.cy.stop))
  obtain ⟨C3, w3, e3, l3, q3, k3⟩ := l2.unlock
  have q := q1.trans (q2.trans q3)
  obtain ⟨x, C4, w4, e4, l4, a4, x4, k4, -, q4⟩ := l3.open k3 (by rw [q.active]; exact ha)
  obtain ⟨r5, C5, w5, e5, hr5, l5, q5, k5, -, x5⟩ := l4.qubits
  have hlen : L2.items.length = max L.items.length (maxOf is + 1) := by
    rw [i2, List.length_append, i3, List.length_range, hstop]
    omega
  obtain ⟨ids, p1, p2⟩ := pick_ok hr5 (is := is) (by
    intro i hi
    have := le_maxOf is i hi
    omega)
  refine ⟨w5, C5, L2, x, ids, new, ⟨l5, by rw [q5.active, a4], by rw [x5, x4], by rw [k5, k4], ?_, ?_, ?_, ?_⟩, i2, hlen, p2, ?_⟩
  · rw [q5.ops, q4.ops]; exact q.ops
  · rw [q5.classes, q4.classes]; exact q.classes
  · rw [q5.circOps, q4.circOps]; exact q.circOps
  · intro d hd
    rw [q5.frame d hd, q4.frame d hd]
    exact q.frame d hd
  · have hb : apply lib c name params is w4 = build lib name params ids w5 := by
      unfold apply build
      simp only [bind_def, e5, lift, p1]
      rfl
    unfold loadGate
    simp only [bind_def, e1, e2, e3]
    unfold withStmt
    simp only [e4, hb]
    rfl

omit [DecidableEq K] [Zero K] in
theorem deconstruct_ok {args : List (QirArg K)} {r : List K × List Nat × List Nat} (h : deconstruct args = .ok r) :
    r = (doubleArgs args, qubitArgs args, resultArgs args) := by
  induction args generalizing r with
  | nil => cases h; rfl
  | cons a as ih =>
    unfold deconstruct at h
    cases a with
    | other => cases h
    | dbl x =>
      cases hd : deconstruct as with
      | error e => rw [hd] at h; cases h
      | ok r' => rw [hd] at h; obtain ⟨a, b, c⟩ := r'; cases h; cases ih hd; rfl
    | qubit x =>
      cases hd : deconstruct as with
      | error e => rw [hd] at h; cases h
      | ok r' => rw [hd] at h; obtain ⟨a, b, c⟩ := r'; cases h; cases ih hd; rfl
    | result x =>
      cases hd : deconstruct as with
      | error e => rw [hd] at h; cases h
      | ok r' => rw [hd] at h; obtain ⟨a, b, c⟩ := r'; cases h; cases ih hd; rfl

theorem fromQis_name {f s : String} (h : fromQis.get? f = some s) :
    (s = "Measurement" ∧ f = "__quantum__qis__mz__body") ∨ (s ≠ "Measurement" ∧ f ≠ "__quantum__qis__mz__body" ∧ (s, f) ∈ gateFunctions) := by
  have : ∀ p ∈ fromQis, (p.2 = "Measurement" ∧ p.1 = "__quantum__qis__mz__body") ∨
      (p.2 ≠ "Measurement" ∧ p.1 ≠ "__quantum__qis__mz__body" ∧ (p.2, p.1) ∈ gateFunctions) := by decide +kernel
  exact this _ (PyDict.get?_mem h)

theorem maxOf_eq (l : List Nat) : maxOf l = l.foldr max 0 := by
  have key : ∀ (l : List Nat) (a : Nat), l.foldl max a = max a (l.foldr max 0) := by
    intro l
    induction l with
    | nil => intro a; simp
    | cons b l ih => intro a; simp only [List.foldl_cons, List.foldr_cons, ih]; omega
  unfold maxOf
  rw [key]; omega

omit [DecidableEq K] [Zero K] in
theorem bindArgs_ok {kind : OpKind} {xs : List K} {ps : Option (List (OpParam K))} (h : bindArgs kind xs = some ps) :
    ps.getD [] <+: xs.map OpParam.num ∧ (kind ≠ .controlled → kind ≠ .pcontrolled → ps.getD [] = xs.map OpParam.num) ∧
      (kind.isParametric = false → ps.getD [] = []) ∧ ∀ val : Nat → Option K, (ps.getD []).map (OpParam.subst val) = ps.getD [] := by
  unfold bindArgs at h
  split at h <;> cases h <;> simp [OpKind.isParametric, OpParam.subst]

theorem GateOf.mono {lib : String → Nat} {w w' : World K} {L L' : Layout} {new : List Nat} {o : Nat} {call : String × List (QirArg K)}
    (h : GateOf lib w L o call) (h1 : w.ops <+: w'.ops) (h2 : SameClasses w.classes w'.classes) (h3 : L'.items = L.items ++ new) :
    GateOf lib w' L' o call := by
  obtain ⟨name, op, k, qs, a1, a2, a3, a4, a5, a6, a7, a8, a9, a10⟩ := h
  obtain ⟨k', g1, -, g3, -⟩ := h2.get a4
  refine ⟨name, op, k', qs, a1, ?_, a3, g1, a5, ?_, a7, a8, a9, by rw [g3]; exact a10⟩
  · obtain ⟨t, ht⟩ := h1
    rw [← ht, List.getElem?_append_left (List.getElem?_eq_some_iff.1 a2).1]
    exact a2
  · refine a6.imp ?_
    intro q i hq
    unfold InCircuit at hq ⊢
    rw [h3, List.getElem?_append_left (List.getElem?_eq_some_iff.1 hq).1]
    exact hq

/-- The circuit before loading: operations, qubits and bits. -/
structure Before where
  ops : List Nat := []
  q : Layout := []
  c : Layout := []

variable {B : Before}

/-- What has been loaded: the calls so far. -/
structure State (lib : String → Nat) (B : Before) (w0 w : World K) (c : Nat) (calls : List (String × List (QirArg K))) (acc : List Nat × List Nat) (C : Circ)
    (L LC : Layout) : Prop where
  loading : Loading w c C L LC
  active : w.active = none
  gates : ∃ gates, C.ops = B.ops ++ gates ∧ List.Forall₂ (GateOf lib w L) gates (gateCalls calls)
  count : L.items.length = max B.q.items.length (needed calls)
  qubits : B.q.items <+: L.items
  bits : LC = B.c
  acc : acc = measured calls
  ops : w0.ops <+: w.ops
  classes : SameClasses w0.classes w.classes
  frame : ∀ d, d ≠ c → w.circs[d]? = w0.circs[d]?

omit [DecidableEq K] [Zero K] in
theorem needed_append (a b : List (String × List (QirArg K))) : needed (a ++ b) = max (needed a) (needed b) := by
  unfold needed gateCalls
  rw [List.filter_append, List.map_append, List.foldr_append]
  generalize (List.filter (fun c => !isMz c) b).map (fun c => (qubitArgs c.2).foldr max 0 + 1) = B
  generalize (List.filter (fun c => !isMz c) a).map (fun c => (qubitArgs c.2).foldr max 0 + 1) = A
  generalize B.foldr max 0 = m
  induction A with
  | nil => simp
  | cons x A ih => simp only [List.foldr_cons, ih]; omega

/-- A gate that has been loaded. -/
theorem loadGate_state {lib : String → Nat} {w0 w w' : World K} {c : Nat} {calls : List (String × List (QirArg K))} {acc : List Nat × List Nat} {C : Circ}
    {L LC : Layout} (h : State lib B w0 w c calls acc C L LC) {name callee : String} {args : List (QirArg K)} (hn : (name, callee) ∈ gateFunctions)
    (hm : callee ≠ "__quantum__qis__mz__body")
    (e : loadGate lib c name (doubleArgs args) (qubitArgs args) w = (.ok (), w')) :
    ∃ C' L', State lib B w0 w' c (calls ++ [(callee, args)]) acc C' L' LC := by
  obtain ⟨w1, C1, L1, x, ids, new, i1, i2, i3, i4, i5⟩ := loadGate_eq h.loading h.active lib name (doubleArgs args) (qubitArgs args)
  have hmz : isMz (callee, args) = false := by simpa [isMz] using hm
  have hg1 : gateCalls (calls ++ [(callee, args)]) = gateCalls calls ++ [(callee, args)] := by
    unfold gateCalls; rw [List.filter_append]; simp [hmz]
  have hneed : needed (calls ++ [(callee, args)]) = max (needed calls) (maxOf (qubitArgs args) + 1) := by
    rw [needed_append, maxOf_eq]
    congr 1
    unfold needed gateCalls
    simp [hmz]
  have hmeas : measured (calls ++ [(callee, args)]) = measured calls := by
    unfold measured; rw [List.filter_append]; simp [hmz]
  have hL1 : L1 ≠ [] := by
    rintro rfl
    have : Layout.items [] = [] := rfl
    rw [this, List.length_nil] at i3
    omega
  rw [i5] at e
  -- the operation was built
  obtain ⟨w2, hb⟩ : ∃ w2, build lib name (doubleArgs args) ids w1 = (.ok (), w2) := by
    generalize build lib name (doubleArgs args) ids w1 = z at e
    obtain ⟨r, w2⟩ := z
    dsimp only at e
    generalize exitCtx x w2 = y at e
    obtain ⟨_ | _, w3⟩ := y
    · cases e
    · dsimp only at e
      cases r with
      | error e' => cases e
      | ok u => exact ⟨w2, rfl⟩
  rw [hb] at e
  dsimp only at e
  unfold build at hb
  simp only [bind_def, clsObj, M.deref] at hb
  cases hk : w1.classes[lib name]? with
  | none => rw [hk] at hb; cases hb
  | some k =>
    rw [hk] at hb
    dsimp only at hb
    cases hba : bindArgs k.kind (doubleArgs args) with
    | none => rw [hba] at hb; cases hb
    | some ps =>
      rw [hba] at hb
      dsimp only at hb
      unfold M.void at hb
      generalize hcon : DG.construct (lib name) ps (.qubits (some ids)) w1 = z at hb
      obtain ⟨_ | o, w2'⟩ := z
      · cases hb
      cases hb
      obtain ⟨D, C2, op, -, j1, j2, j3, j4, j5⟩ := i1.loading.construct hL1 i1.target hcon
      rw [hk] at j1; cases j1
      obtain ⟨C3, w3, k1, k2, k3, k4, k5, k6, k7⟩ := j3.exit (x := x) (by rw [j2.ctxs]; exact i1.ctx)
      rw [k1] at e
      cases e
      obtain ⟨b1, b2, b3, b4⟩ := bindArgs_ok hba
      have hparams : op.params = ps.getD [] := by
        rw [j2.params]; split
        · exact b4 _
        · rfl
      have hops : w'.ops = w.ops ++ [op] := by rw [k3, j2.ops, i1.ops]
      have hsame : SameClasses w.classes w'.classes := by rw [k4, ← i1.classes]; exact j2.classes
      have hop : op.qubits = some ids := by
        rcases j2.given with g | ⟨g, -⟩
        · exact g
        · have := j2.inside (by rw [i1.active]; rfl)
          rw [g] at this; cases this
      obtain ⟨gates, hgo, hgates⟩ := h.gates
      refine ⟨C3, L1, ⟨k2, k5, ⟨gates ++ [w1.ops.length], ?_, ?_⟩, by rw [hneed, i3, h.count, Nat.max_assoc], ?_, h.bits, by rw [hmeas]; exact h.acc, ?_,
        h.classes.trans hsame, ?_⟩⟩
      · rw [k6, j4, i1.circOps, hgo, List.append_assoc]
      · rw [hg1]
        refine List.rel_append (hgates.imp fun o call ho => GateOf.mono ho ⟨[op], by rw [hops]⟩ hsame i2) (.cons ?_ .nil)
        obtain ⟨k', g1, -, g3, -⟩ := hsame.get (i := lib name) (k := k) (by rw [← i1.classes]; exact hk)
        refine ⟨name, op, k', ids, hn, ?_, j2.cls, by rw [j2.cls]; exact g1, hop, i4, j2.bits, j2.cond, by rw [hparams]; exact b1, by rw [hparams, g3]; exact b2⟩
        rw [hops, i1.ops]; simp
      · rw [i2]; exact h.qubits.trans (List.prefix_append _ _)
      · rw [hops]; exact h.ops.trans (List.prefix_append _ _)
      · intro d hd
        rw [k7 d hd, j5 d hd, i1.frame d hd, h.frame d hd]

theorem isQis_iff (f : String) : isQis f = true ↔ "__qis__".toList <:+: f.toList := by
  unfold isQis
  exact ⟨fun h => @of_decide_eq_true _ (List.instDecidableIsInfixOfDecidableEq _ _) h, fun h => @decide_eq_true _ (List.instDecidableIsInfixOfDecidableEq _ _) h⟩

theorem loadCall_state {lib : String → Nat} {w0 w w' : World K} {c : Nat} {calls : List (String × List (QirArg K))} {acc acc' : List Nat × List Nat} {C : Circ}
    {L LC : Layout} (h : State lib B w0 w c calls acc C L LC) {callee : String} {args : List (QirArg K)}
    (e : loadCall lib c callee args acc w = (.ok acc', w')) :
    ∃ C' L', State lib B w0 w' c (calls ++ (qisCall (.call callee args)).toList) acc' C' L' LC := by
  unfold loadCall at e
  cases hq : isQis callee with
  | false =>
    have hin : ¬ ("__qis__".toList <:+: callee.toList) := fun hin => by rw [(isQis_iff callee).2 hin] at hq; cases hq
    have hc : qisCall (.call callee args) = none := by simp only [qisCall, if_neg hin]
    rw [hc]
    simp only [hq, Bool.not_false, if_true] at e
    cases e
    exact ⟨C, L, by rw [Option.toList_none, List.append_nil]; exact h⟩
  | true =>
    have hin : "__qis__".toList <:+: callee.toList := (isQis_iff callee).1 hq
    have hc : qisCall (.call callee args) = some (callee, args) := by simp only [qisCall, if_pos hin]
    rw [hc]
    rw [Option.toList_some]
    simp only [hq, Bool.not_true, Bool.false_eq_true, if_false] at e
    cases hf : fromQis.get? callee with
    | none => rw [hf] at e; cases e
    | some name =>
      rw [hf] at e
      dsimp only at e
      cases hd : deconstruct args with
      | error e' => rw [hd] at e; cases e
      | ok r =>
        rw [hd, deconstruct_ok hd] at e
        dsimp only at e
        rcases fromQis_name hf with ⟨rfl, rfl⟩ | ⟨h1, h2, h3⟩
        · rw [if_pos rfl] at e
          cases e
          refine ⟨C, L, ⟨h.loading, h.active, ?_, ?_, h.qubits, h.bits, ?_, h.ops, h.classes, h.frame⟩⟩
          · have : gateCalls (calls ++ [("__quantum__qis__mz__body", args)]) = gateCalls calls := by
              unfold gateCalls; rw [List.filter_append]; simp [isMz]
            simpa [this] using h.gates
          · have : needed (calls ++ [("__quantum__qis__mz__body", args)]) = needed calls := by
              rw [needed_append, show needed [("__quantum__qis__mz__body", args)] = 0 by simp [needed, gateCalls, isMz], Nat.max_zero]
            rw [this]
            exact h.count
          · rw [h.acc]; unfold measured; simp [isMz]
        · rw [if_neg h1, bind_def] at e
          generalize hg : loadGate lib c name (doubleArgs args) (qubitArgs args) w = z at e
          obtain ⟨_ | u, w2⟩ := z
          · cases e
          · cases e
            exact loadGate_state h h3 h2 hg

theorem loadBlock_state {lib : String → Nat} {w0 : World K} {c : Nat} {LC : Layout} (is : List (LInstr K)) {w w' : World K}
    {calls : List (String × List (QirArg K))} {acc acc' : List Nat × List Nat} {C : Circ} {L : Layout} {b : Bool}
    (h : State lib B w0 w c calls acc C L LC) (e : loadBlock lib c is acc w = (.ok (b, acc'), w')) :
    (∃ C' L', State lib B w0 w' c (calls ++ (is.takeWhile notRet).filterMap qisCall) acc' C' L' LC) ∧ (b = false ↔ ∀ i ∈ is, notRet i = true) := by
  induction is generalizing w calls acc C L with
  | nil => cases e; exact ⟨⟨C, L, by simpa using h⟩, by simp⟩
  | cons i is ih =>
    cases i with
    | ret =>
      cases e
      exact ⟨⟨C, L, by simpa [notRet, List.takeWhile_cons] using h⟩, by simp [notRet]⟩
    | other =>
      obtain ⟨h1, h2⟩ := ih h e
      exact ⟨by simpa [notRet, qisCall, List.takeWhile_cons, List.filterMap_cons] using h1, by simpa [notRet] using h2⟩
    | call callee args =>
      unfold loadBlock at e
      rw [bind_def] at e
      generalize hg : loadCall lib c callee args acc w = z at e
      obtain ⟨_ | acc1, w1⟩ := z
      · cases e
      · dsimp only at e
        obtain ⟨C1, L1, h1⟩ := loadCall_state h hg
        obtain ⟨h2, h3⟩ := ih h1 e
        refine ⟨?_, by simpa [notRet] using h3⟩
        rw [List.append_assoc] at h2
        have : (qisCall (.call callee args)).toList ++ (is.takeWhile notRet).filterMap qisCall =
            ((LInstr.call callee args :: is).takeWhile notRet).filterMap qisCall := by
          have h0 : notRet (.call callee args) = true := rfl
          rw [List.takeWhile_cons, if_pos h0, List.filterMap_cons]
          cases qisCall (.call callee args) <;> rfl
        rw [this] at h2
        exact h2

theorem loadFunction_state {lib : String → Nat} {w0 : World K} {c : Nat} {LC : Layout} (bs : List (List (LInstr K))) {w w' : World K}
    {calls : List (String × List (QirArg K))} {acc acc' : List Nat × List Nat} {C : Circ} {L : Layout}
    (h : State lib B w0 w c calls acc C L LC) (e : loadFunction lib c bs acc w = (.ok acc', w')) :
    ∃ C' L', State lib B w0 w' c (calls ++ qisCalls bs) acc' C' L' LC := by
  induction bs generalizing w calls acc C L with
  | nil => cases e; exact ⟨C, L, by simpa [qisCalls] using h⟩
  | cons b bs ih =>
    unfold loadFunction at e
    rw [bind_def] at e
    generalize hg : loadBlock lib c b acc w = z at e
    obtain ⟨_ | ⟨r, acc1⟩, w1⟩ := z
    · cases e
    dsimp only at e
    obtain ⟨⟨C1, L1, h1⟩, h2⟩ := loadBlock_state b h hg
    cases r with
    | true =>
      cases e
      refine ⟨C1, L1, ?_⟩
      have hne : ¬ ∀ i ∈ b, notRet i = true := fun hh => by simpa using h2.2 hh
      have : (b ++ bs.flatten).takeWhile notRet = b.takeWhile notRet := by
        rw [List.takeWhile_append, if_neg]
        intro hlen
        exact hne fun i hi => by
          have := (List.takeWhile_prefix notRet (l := b)).eq_of_length hlen
          rw [← this] at hi
          exact List.mem_takeWhile_imp hi
      unfold qisCalls
      rw [List.flatten_cons, this]
      exact h1
    | false =>
      have hall := h2.1 rfl
      have e1 : b.takeWhile notRet = b := List.takeWhile_eq_self_iff.2 hall
      obtain ⟨C2, L2, h3⟩ := ih h1 e
      refine ⟨C2, L2, ?_⟩
      have : (b ++ bs.flatten).takeWhile notRet = b ++ bs.flatten.takeWhile notRet := List.takeWhile_append_of_pos hall
      unfold qisCalls
      rw [List.flatten_cons, this, List.filterMap_append, ← List.append_assoc]
      rw [e1] at h3
      exact h3

theorem loadFunctions_state {lib : String → Nat} {w0 : World K} {c : Nat} {LC : Layout} (P : QirProgram K) {w w' : World K}
    {calls : List (String × List (QirArg K))} {acc acc' : List Nat × List Nat} {C : Circ} {L : Layout}
    (h : State lib B w0 w c calls acc C L LC) (e : loadFunctions lib c P acc w = (.ok acc', w')) :
    ∃ C' L', State lib B w0 w' c (calls ++ P.flatMap qisCalls) acc' C' L' LC := by
  induction P generalizing w calls acc C L with
  | nil => cases e; exact ⟨C, L, by simpa using h⟩
  | cons f P ih =>
    unfold loadFunctions at e
    rw [bind_def] at e
    generalize hg : loadFunction lib c f acc w = z at e
    obtain ⟨_ | acc1, w1⟩ := z
    · cases e
    dsimp only at e
    obtain ⟨C1, L1, h1⟩ := loadFunction_state f h hg
    obtain ⟨C2, L2, h2⟩ := ih h1 e
    exact ⟨C2, L2, by simpa using h2⟩

/-- `| bits` for the last operation. -/
theorem Loading.measureInto {w w' : World K} {c : Nat} {C : Circ} {L LC : Layout} (h : Loading w c C L LC) {o : Nat} {bs : List Nat}
    (e : DG.measureInto o bs w = (.ok (), w')) :
    Loading w' c C L LC ∧ ∃ op n, w.ops[o]? = some op ∧ op.numQubits = some n ∧ n ≤ bs.length ∧ w' = { w with ops := w.ops.set o { op with bits := some (bs.take n) } } := by
  have p1 := Refs.prims.to0.measureInto o bs w h.refs
  have p2 := (QInv.prims (by simp)).to0.measureInto o bs w h.qinv
  have p3 := CInv.prims.to0.measureInto o bs w h.cinv
  rw [e] at p1 p2 p3
  have key : ∃ op n, w.ops[o]? = some op ∧ op.numQubits = some n ∧ n ≤ bs.length ∧ w' = { w with ops := w.ops.set o { op with bits := some (bs.take n) } } := by
    unfold DG.measureInto at e
    simp only [bind_def, opObj, clsObj, M.deref] at e
    cases ho : w.ops[o]? with
    | none => rw [ho] at e; cases e
    | some op =>
      rw [ho] at e
      dsimp only at e
      cases hk : w.classes[op.cls]? with
      | none => rw [hk] at e; cases e
      | some k =>
        rw [hk] at e
        dsimp only at e
        generalize k.kind = kind at e
        generalize hn : op.numQubits = nq at e
        rcases nq with _ | n <;> rcases kind <;> try (cases e; done)
        simp only [bind_def, M.raiseIf] at e
        by_cases hl : bs.length < n
        · simp [hl] at e
        · simp only [hl, decide_false, Bool.false_eq_true, if_false, modOp, M.write, ho] at e
          cases e
          exact ⟨op, n, rfl, hn, by omega, rfl⟩
  refine ⟨?_, key⟩
  obtain ⟨op, n, h1, h2, h3, rfl⟩ := key
  exact ⟨p1, p2, p3, h.get, h.param, h.okq, h.okc, h.freshq, h.freshc, h.oneq, h.onec, h.ctx⟩

omit [DecidableEq K] [Zero K] in
theorem pick_error {r : Reg} {L : Layout} (h : CyReg.Rep r.cy (L.items.map Lbl.obj)) {is : List Nat} (hi : ¬ ∀ i ∈ is, i < L.items.length) :
    pick r is = .error .indexError := by
  induction is with
  | nil => exact absurd (by simp) hi
  | cons i is ih =>
    unfold pick
    by_cases hlt : i < L.items.length
    · have := h.at_nat i (by simpa using hlt)
      rw [this]
      simp only [List.getElem_map]
      rw [ih]
      intro hall
      exact hi fun j hj => by
        rcases List.mem_cons.1 hj with rfl | hj
        · exact hlt
        · exact hall j hj
    · have : r.cy.at i = .error .indexError := by
        rw [h.at_eq]
        unfold Spec.getItem
        simp at hlt
        simp [hlt]
      rw [this]

/-- Indices that do not exist. -/
theorem applyMeasure_index {w : World K} {c : Nat} {C : Circ} {L LC : Layout} (h : Loading w c C L LC) (lib : String → Nat) (is js : List Nat)
    (hi : ¬ ∀ i ∈ is, i < L.items.length) :
    ∃ C' w', applyMeasure lib c is js w = (.error .indexError, w') ∧ Loading w' c C' L LC ∧ w'.ctxs = w.ctxs := by
  obtain ⟨r, C1, w1, e1, hr, l1, q1, -, -, x1⟩ := h.qubits
  unfold applyMeasure
  simp only [bind_def, e1, lift, pick_error hr hi]
  exact ⟨_, _, rfl, l1, x1⟩

/-- The body of the `with` statement. -/
theorem applyMeasure_eq {w : World K} {c : Nat} {C : Circ} {L LC : Layout} (h : Loading w c C L LC) (lib : String → Nat) (is js : List Nat)
    (hi : ∀ i ∈ is, i < L.items.length) (hj : ∀ j ∈ js, j < LC.items.length) :
    ∃ w1 C1 ids bids, Loading w1 c C1 L LC ∧ Quiet c C C1 w w1 ∧ C1.locked = C.locked ∧ w1.ctxs = w.ctxs ∧
      List.Forall₂ (InCircuit L) ids is ∧ List.Forall₂ (InCircuit LC) bids js ∧
      applyMeasure lib c is js w = (do let o ← DG.construct (lib "Measurement") none (.qubits (some ids)); DG.measureInto o bids) w1 := by
  obtain ⟨r, C1, w1, e1, hr, l1, q1, k1, -, x1⟩ := h.qubits
  obtain ⟨s, C2, w2, e2, hs, l2, q2, k2, -, x2⟩ := l1.bits
  obtain ⟨ids, p1, p2⟩ := pick_ok hr hi
  obtain ⟨bids, p3, p4⟩ := pick_ok hs hj
  refine ⟨w2, C2, ids, bids, l2, q1.trans q2, by rw [k2, k1], by rw [x2, x1], p2, p4, ?_⟩
  unfold applyMeasure
  simp only [bind_def, e1, lift, p1, e2, p3]

/-- The state in which the measurement is built. -/
theorem addMeasurements_eq {w : World K} {c : Nat} {C : Circ} {L LC : Layout} (h : Loading w c C L LC) (ha : w.active = none) (lib : String → Nat)
    (is js : List Nat) :
    ∃ w1 C1 LC1 x, Inside w w1 c x C C1 L LC1 ∧ LC1.items.length = max LC.items.length (maxOf js + 1) ∧ LC.items <+: LC1.items ∧
      addMeasurements lib c is js w = (match exitCtx x (applyMeasure lib c is js w1).2 with
        | (.error e, w3) => (.error e, w3)
        | (.ok _, w3) => ((applyMeasure lib c is js w1).1, w3)) := by
  obtain ⟨r, C1, w1, e1, hr, l1, q1, -⟩ := h.bits
  have hstop : r.cy.stop = LC.items.length := by rw [hr.stop]; simp
  obtain ⟨C2, w2, L2, e2, l2, q2, new, i2, i3⟩ := l1.addBits (List.range (maxOf js + 1 - r.cy.stop))
  obtain ⟨C3, w3, e3, l3, q3, k3⟩ := l2.unlock
  have q := q1.trans (q2.trans q3)
  obtain ⟨x, C4, w4, e4, l4, a4, x4, k4, -, q4⟩ := l3.open k3 (by rw [q.active]; exact ha)
  have hlen : L2.items.length = max LC.items.length (maxOf js + 1) := by
    rw [i2, List.length_append, i3, List.length_range, hstop]
    omega
  refine ⟨w4, C4, L2, x, ⟨l4, a4, x4, k4, ?_, ?_, ?_, ?_⟩, hlen, ⟨new, i2.symm⟩, ?_⟩
  · rw [q4.ops]; exact q.ops
  · rw [q4.classes]; exact q.classes
  · rw [q4.circOps]; exact q.circOps
  · intro d hd
    rw [q4.frame d hd]
    exact q.frame d hd
  · unfold addMeasurements
    simp only [bind_def, e1, e2, e3]
    unfold withStmt
    simp only [e4]
    rfl

/-- The measurement that has been loaded. -/
theorem addMeasurements_loaded {lib : String → Nat} {w0 w w' : World K} {c : Nat} {calls : List (String × List (QirArg K))} {acc : List Nat × List Nat} {C : Circ}
    {L LC : Layout} (h : State lib B w0 w c calls acc C L LC) (hne : acc.1 ≠ []) (e : addMeasurements lib c acc.1 acc.2 w = (.ok (), w')) :
    LoadedInto lib w' c B.ops B.q B.c calls ∧ w0.ops <+: w'.ops ∧ (∀ d, d ≠ c → w'.circs[d]? = w0.circs[d]?) ∧ w'.active = none ∧ SameClasses w0.classes w'.classes := by
  obtain ⟨w1, C1, LC1, x, i1, i2, i4, i3⟩ := addMeasurements_eq h.loading h.active lib acc.1 acc.2
  have hacc := h.acc
  subst hacc
  rw [i3] at e
  obtain ⟨w2, hb⟩ : ∃ w2, applyMeasure lib c (measured calls).1 (measured calls).2 w1 = (.ok (), w2) := by
    generalize applyMeasure lib c (measured calls).1 (measured calls).2 w1 = z at e
    obtain ⟨r, w2⟩ := z
    dsimp only at e
    generalize exitCtx x w2 = y at e
    obtain ⟨_ | _, w3⟩ := y
    · cases e
    · dsimp only at e
      cases r with
      | error e' => cases e
      | ok u => exact ⟨w2, rfl⟩
  rw [hb] at e
  dsimp only at e
  have hi : ∀ i ∈ (measured calls).1, i < L.items.length := by
    by_contra hcon
    obtain ⟨-, w'', he, -⟩ := applyMeasure_index i1.loading lib _ (measured calls).2 hcon
    rw [he] at hb; cases hb
  obtain ⟨w3, C3, ids, bids, l3, q3, k3, x3, f1, f2, e3⟩ := applyMeasure_eq i1.loading lib (measured calls).1 (measured calls).2 hi (by
    intro j hj
    have := le_maxOf _ j hj
    omega)
  rw [e3, bind_def] at hb
  have hL : L ≠ [] := by
    rintro rfl
    obtain ⟨i, l, hil⟩ := List.exists_cons_of_ne_nil hne
    have := hi i (by rw [hil]; simp)
    exact absurd this (by simp [Layout.items])
  generalize hcon : DG.construct (lib "Measurement") none (.qubits (some ids)) w3 = z at hb
  obtain ⟨_ | o, w4⟩ := z
  · cases hb
  dsimp only at hb
  have ht : w3.target = some c := target_eq (x := x) (by rw [q3.active]; exact i1.active) (by rw [x3]; exact i1.ctx)
  obtain ⟨D, C4, op, rfl, j1, j2, j3, j4, j5⟩ := l3.construct hL ht hcon
  obtain ⟨l5, op', n, o1, o2, o3, rfl⟩ := j3.measureInto hb
  obtain ⟨C6, w6, m1, m2, m3, m4, m5, m6, m7⟩ := l5.exit (x := x) (by show w4.ctxs[x]? = _; rw [j2.ctxs, x3]; exact i1.ctx)
  rw [m1] at e
  cases e
  have hops3 : w3.ops = w.ops := by rw [q3.ops, i1.ops]
  have hcls3 : w3.classes = w.classes := by rw [q3.classes, i1.classes]
  rw [j2.ops, List.getElem?_append_right (Nat.le_refl _)] at o1
  simp only [Nat.sub_self, List.getElem?_cons_zero, Option.some.injEq] at o1
  subst o1
  have hops : w'.ops = w.ops ++ [{ op with bits := some (bids.take n) }] := by
    rw [m3]; show w4.ops.set w3.ops.length _ = _
    rw [j2.ops, hops3]; simp
  have hop : op.qubits = some ids := by
    rcases j2.given with g | ⟨g, -⟩
    · exact g
    · have := j2.inside (by rw [q3.active, i1.active]; rfl)
      rw [g] at this; cases this
  have hn : n = (measured calls).1.length := by
    have := j2.numQubits
    rw [o2, hop] at this
    simp only [Option.map_some, Option.some.injEq] at this
    rw [this, f1.length_eq]
  subst hn
  have hsame : SameClasses w.classes w'.classes := by rw [m4, ← hcls3]; exact j2.classes
  obtain ⟨gates, hgo, hgates⟩ := h.gates
  refine ⟨⟨C6, L, LC1, gates, [w.ops.length], m2.get, m2.param, m2.okq.shows, m2.okc.shows, ?_, m2.oneq, m2.onec, h.qubits, h.count, ?_, ?_,
    .inr ⟨hne, ?_, _, rfl, ?_⟩⟩, ?_, ?_, m5, h.classes.trans hsame⟩
  · rw [m6, j4, q3.circOps, i1.circOps, hops3, hgo]
  · rw [← h.bits]; exact i4
  · exact hgates.imp fun o call ho => GateOf.mono (new := []) ho ⟨_, hops.symm⟩ hsame (by simp)
  · rw [i2, maxOf_eq, h.bits]
  · refine ⟨{ op with bits := some (bids.take (measured calls).1.length) }, ids, bids.take (measured calls).1.length, by rw [hops]; simp, j2.cls, hop, rfl, j2.cond, f1, ?_, ?_⟩
    · rw [← f2.length_eq]; exact o3
    · exact List.forall₂_take _ f2
  · rw [hops]; exact h.ops.trans (List.prefix_append _ _)
  · intro d hd
    rw [m7 d hd]
    show w4.circs[d]? = _
    rw [j5 d hd, q3.frame d hd, i1.frame d hd, h.frame d hd]

end Qir

/-- A new circuit. -/
theorem newCirc_state {w w1 : World K} (hr : Refs w) (hq : QInv false false w) (hc : CInv false w) (ha : w.active = none) (lib : String → Nat)
    (e0 : newCirc (K := K) false none none w = (.ok w.circs.length, w1)) :
    Qir.State lib {} w w1 w.circs.length [] ([], []) { param := false } [] [] := by
  have hw1 : w1 = { w with circs := w.circs ++ [{ param := false }] } := by
    have e1 : newCirc (K := K) false none none w = (.ok w.circs.length, { w with circs := w.circs ++ [{ param := false }] }) := rfl
    rw [e1] at e0; cases e0; rfl
  have p1 := Refs.prims.to0.newCirc false none none w hr
  have p2 := (QInv.prims (by simp)).to0.newCirc false none none w hq
  have p3 := CInv.prims.to0.newCirc false none none w hc
  rw [e0] at p1 p2 p3
  refine ⟨⟨p1, p2, p3, by rw [hw1]; simp, rfl, ?_, ?_, ?_, ?_, by simp, by simp, by simp⟩, by rw [hw1]; exact ha, ⟨[], rfl, .nil⟩, rfl, List.prefix_rfl, rfl, rfl,
    by rw [hw1], by rw [hw1]; rfl, ?_⟩
  · exact ⟨.nil, by simp [Layout.labels], by simp [Layout.items]⟩
  · exact ⟨.nil, by simp [Layout.labels], by simp [Layout.items]⟩
  · intro r hr; cases hr
  · intro r hr; cases hr
  · intro d hd
    rw [hw1]
    dsimp only
    by_cases h : d < w.circs.length
    · exact List.getElem?_append_left h
    · rw [List.getElem?_eq_none (by simp; omega), List.getElem?_eq_none (by omega)]

/-- Loading into a circuit. -/
theorem loadInto_loaded {B : Qir.Before} {lib : String → Nat} {w0 w w' : World K} {c : Nat} {C : Circ} {L LC : Layout} (hS : Qir.State lib B w0 w c [] ([], []) C L LC)
    {P : QirProgram K} (e : Qir.loadInto lib c P w = (.ok (), w')) :
    LoadedInto lib w' c B.ops B.q B.c (P.flatMap qisCalls) ∧ w0.ops <+: w'.ops ∧ (∀ d, d ≠ c → w'.circs[d]? = w0.circs[d]?) ∧ w'.active = none ∧
      SameClasses w0.classes w'.classes := by
  unfold Qir.loadInto at e
  rw [bind_def] at e
  generalize hg : Qir.loadFunctions lib c P ([], []) w = z at e
  obtain ⟨_ | acc, w2⟩ := z
  · cases e
  dsimp only at e
  obtain ⟨C2, L2, h2⟩ := Qir.loadFunctions_state P hS hg
  rw [List.nil_append] at h2
  unfold M.whenever at e
  cases hacc : acc.1 with
  | nil =>
    rw [hacc] at e
    cases e
    have hm : (measured (P.flatMap qisCalls)).1 = [] := by rw [← h2.acc]; exact hacc
    obtain ⟨gates, hgo, hgates⟩ := h2.gates
    exact ⟨⟨C2, L2, LC, gates, [], h2.loading.get, h2.loading.param, h2.loading.okq.shows, h2.loading.okc.shows, by simp [hgo], h2.loading.oneq, h2.loading.onec,
      h2.qubits, h2.count, by rw [h2.bits], hgates, .inl ⟨hm, rfl, h2.bits⟩⟩, h2.ops, h2.frame, h2.active, h2.classes⟩
  | cons a l =>
    have hne : acc.1 ≠ [] := by rw [hacc]; simp
    have : (!acc.1.isEmpty) = true := by rw [hacc]; rfl
    simp only [this, if_true] at e
    exact Qir.addMeasurements_loaded h2 hne e

/-- What `from_qir` returns. -/
theorem fromQir_loaded {w w' : World K} (hr : Refs w) (hq : QInv false false w) (hc : CInv false w) (ha : w.active = none) {lib : String → Nat}
    {P : QirProgram K} {c : Nat} (e : fromQir lib P w = (.ok c, w')) :
    c = w.circs.length ∧ Loaded lib w' c (P.flatMap qisCalls) ∧ Unaffected w w' ∧ w'.active = none := by
  obtain ⟨w1, hw1⟩ : ∃ w1 : World K, w1 = { w with circs := w.circs ++ [{ param := false }] } := ⟨_, rfl⟩
  have e0 : newCirc (K := K) false none none w = (.ok w.circs.length, w1) := by rw [hw1]; rfl
  have hS := newCirc_state hr hq hc ha lib e0
  unfold fromQir at e
  rw [bind_def, e0] at e
  dsimp only at e
  rw [bind_def] at e
  generalize hg : Qir.loadInto lib w.circs.length P w1 = z at e
  obtain ⟨_ | u, w2⟩ := z
  · cases e
  cases e
  obtain ⟨⟨C, L, LC, gates, meas, g1, g2, g3, g4, g5, g6, g7, -, g8, -, g9, g10⟩, k1, k2, k3, -⟩ := loadInto_loaded hS hg
  refine ⟨rfl, ⟨C, L, LC, gates, meas, g1, g2, g3, g4, by simpa using g5, g6, by simpa [Layout.items] using g8, g9, ?_⟩, ⟨k1, fun d hd => k2 d (by omega)⟩, k3⟩
  refine g10.imp id fun ⟨h1, h2, h3⟩ => ⟨h1, ?_, by simpa [Layout.items] using h2, h3⟩
  cases LC with
  | nil => simp [Layout.items] at h2
  | cons a l => simp at g7 ⊢; omega

end DG
