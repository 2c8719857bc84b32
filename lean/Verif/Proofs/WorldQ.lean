import Verif.Proofs.Pres
import Verif.Proofs.Bank

/-! The quantum registers of all circuits of a program. -/

namespace DG
open Spec
variable {K : Type}

namespace Bank

/-- The bank represents some layout of items below `n` that contains `S`; the cache is right (`s`: even if there are no registers). -/
def Inv (s : Bool) (n : Nat) (S : List Nat) (b : Bank) : Prop :=
  ∃ L : Layout, Ok b L ∧ ((s = true ∨ L ≠ []) → Fresh b L) ∧ (∀ k ∈ L.items, k < n) ∧ (∀ k ∈ S, k ∈ L.items) ∧
    ∀ r, b.cache = some r → ∃ A, CyReg.Rep r.cy A

theorem Inv.empty (s : Bool) (n : Nat) : Inv s n [] {} :=
  ⟨[], ⟨.nil, by simp [Layout.labels], by simp [Layout.items]⟩, fun _ r hr => (by cases hr), by simp [Layout.items], by simp, fun r hr => (by cases hr)⟩

theorem Inv.mono {s : Bool} {n m : Nat} {S T : List Nat} {b : Bank} (h : Inv s n S b) (hn : n ≤ m) (hS : ∀ k ∈ T, k ∈ S) : Inv s m T b := by
  obtain ⟨L, h1, h2, h3, h4, h5⟩ := h
  exact ⟨L, h1, h2, fun k hk => lt_of_lt_of_le (h3 k hk) hn, fun k hk => h4 k (hS k hk), h5⟩

theorem Inv.flat {ev : EqEnv} (hev : Inert ev) {s : Bool} {n : Nat} {S : List Nat} {b : Bank} (h : Inv s n S b) : Inv s n S (b.flat ev).2 := by
  obtain ⟨L, h1, h2, h3, h4, h5⟩ := h
  obtain ⟨r, b', g1, g2, g3, g4, g5⟩ := flat_ok hev h1
  rw [g1]
  refine ⟨L, ok_of_regs h1 g2, fun hs r' hr' => by rw [g3] at hr'; cases hr'; exact g4 (h2 hs), h3, h4, ?_⟩
  intro r' hr'
  rw [g3] at hr'
  cases hr'
  cases hc : b.cache with
  | none => exact ⟨_, g5 hc⟩
  | some r' => unfold Bank.flat at g1; rw [hc] at g1; simp at g1; rw [← g1.1]; exact h5 r' hc

theorem Inv.addRegister {ev : EqEnv} (hev : Inert ev) {s : Bool} {n : Nat} {S : List Nat} {b : Bank} (h : Inv s n S b) (pre : String)
    (m : Int) (label : Option RLabel) :
    (∃ created b', b.addRegister ev pre m label n = (.ok created, b') ∧ Inv s (n + created.length) S b') ∨
    b.addRegister ev pre m label n = (.error .valueError, b) := by
  obtain ⟨L, h1, h2, h3, h4, h5⟩ := h
  by_cases hl : newLabel b pre label ∈ L.labels
  · exact .inr (addRegister_dup h1 pre m label n hl)
  · obtain ⟨created, b', g1, g2, g3, r, b'', g4, g5⟩ := addRegister_ok hev h1 pre m label n hl h3
    refine .inl ⟨created, b', g1, _, g3, fun _ r hr => (by rw [g2] at hr; cases hr), ?_, ?_, fun r hr => (by rw [g2] at hr; cases hr)⟩
    · intro k hk
      rw [items_append, List.mem_append] at hk
      rcases hk with hk | hk
      · have := h3 k hk; omega
      · simp [Layout.items] at hk
        subst g5; simp; omega
    · intro k hk
      rw [items_append, List.mem_append]
      exact .inl (h4 k hk)

theorem Inv.addItem {ev : EqEnv} (hev : Inert ev) {s : Bool} {n : Nat} {S : List Nat} {b : Bank} (h : Inv s n S b) (pre : String)
    (given : Option (Nat × Bool)) (hg : ∀ k t, given = some (k, t) → k < n) (label : Option RLabel) :
    (∃ created b', b.addItem ev pre given label n = (.ok created, b') ∧ Inv s (n + created.length) S b') ∨
    (∃ b', b.addItem ev pre given label n = (.error .valueError, b') ∧ Inv s n S b') := by
  obtain ⟨L, h1, h2, h3, h4, h5⟩ := h
  by_cases hk : ∀ k t, given = some (k, t) → k ∉ L.items
  · obtain ⟨created, b', item, g1, g2, g3, g4⟩ := addItem_ok hev h1 (fun hL => h2 (.inr hL)) pre given label n h3 hk
    obtain ⟨P, S', e1, e2⟩ := addTo_items (by
        have := g2.labels; rwa [addTo_labels] at this) (withRegister_mem L pre label) item
    rw [withRegister_items] at e1
    refine .inl ⟨created, b', g1, _, g2, fun _ r hr => (by rw [g3] at hr; cases hr), ?_, ?_, fun r hr => (by rw [g3] at hr; cases hr)⟩
    · intro k hk
      rw [e2] at hk
      have hk' : k = item ∨ k ∈ L.items := by
        rw [e1]; simp at hk ⊢; tauto
      rcases hk' with rfl | hk'
      · rcases g4 with ⟨k, q1, q2, q3⟩ | ⟨q1, q2, q3⟩
        · have := hg _ _ q1; omega
        · subst q2 q3; simp
      · have := h3 k hk'; omega
    · intro k hk
      have := h4 k hk
      rw [e1] at this
      rw [e2]; simp at this ⊢; tauto
  · push Not at hk
    obtain ⟨k, t, rfl, hk⟩ := hk
    obtain ⟨b', g1, g2, g3⟩ := addItem_dup hev h1 (fun hL => h2 (.inr hL)) pre k t label n h3 hk
    refine .inr ⟨b', g1, _, g2, fun _ => g3, ?_, ?_, fun r hr => ⟨_, g3 r hr⟩⟩ <;> rw [withRegister_items] <;> assumption

theorem Inv.clear {n : Nat} {S : List Nat} {b : Bank} (h : Inv false n S b) : Inv false n [] b.clear :=
  ⟨[], ⟨.nil, by simp [Layout.labels], by simp [Layout.items]⟩, fun h => by simp at h, by simp [Layout.items], by simp, h.choose_spec.2.2.2.2⟩

end Bank

/-- The qubits used by the operations of a circuit. -/
def World.used (w : World K) (C : Circ) : List Nat :=
  C.ops.flatMap fun o => match w.ops[o]? with
    | some op => op.qubits.getD []
    | none => []

/-- The qubits the invariant speaks about. -/
def World.usedIf (u : Bool) (w : World K) (C : Circ) : List Nat := if u then w.used C else []

/-- Invariant of the quantum registers of all circuits. `s`: circuits have never been reset with `keep_registers=False`;
`u`: operations only use qubits of their circuit. -/
structure QInv (s u : Bool) (w : World K) : Prop where
  bank : ∀ C ∈ w.circs, Bank.Inv s w.qubits.length (w.usedIf u C) C.q
  ops : u = true → ∀ C ∈ w.circs, ∀ o ∈ C.ops, o < w.ops.length

theorem forall_set {α : Type} {R : α → Prop} {l : List α} (h : ∀ a ∈ l, R a) {a : α} (ha : R a) (i : Nat) : ∀ b ∈ l.set i a, R b := by
  intro b hb
  rcases List.mem_or_eq_of_mem_set hb with hb | rfl
  · exact h b hb
  · exact ha

theorem mem_of_get? {α : Type} {l : List α} {i : Nat} {a : α} (h : l[i]? = some a) : a ∈ l := List.mem_of_getElem? h

section
variable {s u : Bool}

/-- Replacing a circuit by one with the same operations and an invariant bank. -/
theorem QInv.setCirc {w : World K} (h : QInv s u w) {c : Nat} {C C' : Circ} (hC : w.circs[c]? = some C) (ho : C'.ops = C.ops)
    (hb : Bank.Inv s w.qubits.length (w.usedIf u C) C'.q) : QInv s u (w.setCirc c C') := by
  refine ⟨forall_set h.bank ?_ c, fun hu => forall_set (h.ops hu) ?_ c⟩
  · unfold World.usedIf World.used at hb ⊢; rw [ho]; exact hb
  · rw [ho]; exact h.ops hu C (mem_of_get? hC)

theorem QInv.qubits {w : World K} (h : QInv s u w) {ql : List RLabel} (hl : w.qubits.length ≤ ql.length) : QInv s u { w with qubits := ql } :=
  ⟨fun C hC => (h.bank C hC).mono hl fun _ => id, h.ops⟩

/-- Replacing operation objects without changing their qubits. -/
theorem QInv.setOps {w : World K} (h : QInv s u w) {ops : List (OpObj K)} (hl : w.ops.length ≤ ops.length)
    (hq : ∀ (o : Nat) (op : OpObj K), w.ops[o]? = some op → ∃ op' : OpObj K, ops[o]? = some op' ∧ op'.qubits = op.qubits) : QInv s u { w with ops := ops } := by
  refine ⟨fun C hC => (h.bank C hC).mono le_rfl ?_, fun hu C hC o ho => lt_of_lt_of_le (h.ops hu C hC o ho) hl⟩
  cases u
  · intro k hk; exact hk
  · intro k hk
    simp only [World.usedIf, World.used, if_true, List.mem_flatMap] at hk ⊢
    obtain ⟨o, ho, hk⟩ := hk
    have hlt := h.ops rfl C hC o ho
    obtain ⟨op', e1, e2⟩ := hq o _ (List.getElem?_eq_getElem hlt)
    refine ⟨o, ho, ?_⟩
    rw [e1] at hk
    rw [List.getElem?_eq_getElem hlt]
    dsimp only at hk ⊢
    rwa [e2] at hk

theorem QInv.modCirc {c : Nat} {f : Circ → Circ} (hf : ∀ C, (f C).ops = C.ops ∧ (f C).q = C.q) : Pres (QInv (K := K) s u) (modCirc c f) := by
  intro w h
  unfold DG.modCirc M.write
  dsimp only
  split
  · next C hC => exact h.setCirc hC (hf C).1 (by rw [(hf C).2]; exact h.bank C (mem_of_get? hC))
  · exact h

theorem QInv.modOp {o : Nat} {f : OpObj K → OpObj K} (hf : ∀ op, (f op).qubits = op.qubits) : Pres (QInv (K := K) s u) (modOp o f) := by
  intro w h
  unfold DG.modOp M.write
  dsimp only
  split
  · next op hop =>
    refine h.setOps (by simp) ?_
    intro o' op' ho'
    by_cases e : o = o'
    · subst e
      rw [hop] at ho'; cases ho'
      refine ⟨f op, ?_, hf op⟩
      rw [List.getElem?_set_self (List.getElem?_eq_some_iff.1 hop).1]
    · exact ⟨op', by rw [List.getElem?_set_ne e]; exact ho', rfl⟩
  · exact h

theorem QInv.qubitsOf (c : Nat) : Pres (QInv (K := K) s u) (qubitsOf c) := by
  intro w h
  unfold DG.qubitsOf
  split
  · exact h
  · next C hC => exact h.setCirc hC rfl ((h.bank C (mem_of_get? hC)).flat inert_qubitEnv)

theorem QInv.addQReg (c : Nat) (n : Int) (l : Option RLabel) : Pres (QInv (K := K) s u) (addQReg c n l) := by
  intro w h
  unfold DG.addQReg
  split
  · exact h
  · next C hC =>
    rcases (h.bank C (mem_of_get? hC)).addRegister inert_qubitEnv "qreg" n l with ⟨created, b', g1, g2⟩ | g1
    · rw [g1]
      have h' : QInv s u { w with qubits := w.qubits ++ created } := h.qubits (by simp)
      exact QInv.setCirc (w := { w with qubits := w.qubits ++ created }) (C' := { C with q := b' }) h' hC rfl (by rw [List.length_append]; exact g2)
    · rw [g1]
      exact h.setCirc hC rfl (h.bank C (mem_of_get? hC))

theorem QInv.addQubit (c : Nat) (q : Given) (l : Option RLabel) : Pres (QInv (K := K) s u) (addQubit c q l) := by
  intro w h
  have key : ∀ C, w.circs[c]? = some C → ∀ given : Option (Nat × Bool), (∀ k t, given = some (k, t) → k < w.qubits.length) →
      QInv s u (match C.q.addItem qubitEnv "qreg" given l w.qubits.length with
      | (.error e, b) => ((.error e : Except Err Unit), w.setCirc c { C with q := b })
      | (.ok new, b) => (.ok (), { w.setCirc c { C with q := b } with qubits := w.qubits ++ new })).2 := by
    intro C hC given hg
    rcases (h.bank C (mem_of_get? hC)).addItem inert_qubitEnv "qreg" given hg l with ⟨created, b', g1, g2⟩ | ⟨b', g1, g2⟩
    · rw [g1]
      have h' : QInv s u { w with qubits := w.qubits ++ created } := h.qubits (by simp)
      exact QInv.setCirc (w := { w with qubits := w.qubits ++ created }) (C' := { C with q := b' }) h' hC rfl (by rw [List.length_append]; exact g2)
    · rw [g1]
      exact h.setCirc hC rfl g2
  unfold DG.addQubit
  split
  · exact h
  · next C hC =>
    dsimp only
    cases q with
    | other => exact h
    | none => exact key C hC none (by simp)
    | item k =>
      dsimp only
      split
      · exact h
      · next b hb =>
        refine key C hC (some (k, true)) ?_
        intro k' t he; cases he
        exact (List.getElem?_eq_some_iff.1 hb).1

variable [DecidableEq K] [Zero K]

theorem QInv.evalInPlace (o : Nat) (g : Option (List K)) : Pres (QInv (K := K) s u) (evalInPlace o g) := by
  intro w h
  unfold DG.evalInPlace
  split
  · exact h
  · next op hop =>
    split
    · exact h
    · split
      · have := QInv.modOp (s := s) (u := u) (o := o) (f := fun op => { op with params := (evalLoop w.varVal g 0 op.params).2 }) (fun _ => rfl) w h
        unfold DG.modOp M.write at this
        simp only [hop] at this
        exact this
      · exact h

omit [DecidableEq K] [Zero K] in
/-- `qubitsOf` only fills the cache, and then returns it. -/
theorem qubitsOf_eq {w : World K} {c : Nat} {C : Circ} {L : Layout} (hC : w.circs[c]? = some C) (hL : Bank.Ok C.q L) :
    ∃ r, DG.qubitsOf c w = (.ok r, w.setCirc c { C with q := { C.q with cache := some r } }) ∧
      (C.q.cache = none ∨ C.q.cache = some r) ∧ (Bank.Fresh C.q L → CyReg.Rep r.cy (L.items.map Lbl.obj)) := by
  obtain ⟨r, b', g1, g2, g3, g4, -⟩ := Bank.flat_ok inert_qubitEnv hL
  refine ⟨r, ?_, ?_, g4⟩
  · unfold DG.qubitsOf; rw [hC]; dsimp only; rw [g1]
    obtain ⟨rs, ca⟩ := b'
    subst g2 g3; rfl
  · unfold Bank.flat at g1
    cases hc : C.q.cache with
    | none => exact .inl rfl
    | some r' => rw [hc] at g1; simp at g1; exact .inr (by rw [g1.1])

omit [DecidableEq K] [Zero K] in
theorem setCirc_get {w : World K} {c : Nat} {C C' : Circ} (hC : w.circs[c]? = some C) : (w.setCirc c C').circs[c]? = some C' := by
  unfold World.setCirc; rw [List.getElem?_set_self (List.getElem?_eq_some_iff.1 hC).1]

omit [DecidableEq K] [Zero K] in
theorem setCirc_setCirc (w : World K) (c : Nat) (C C' : Circ) : (w.setCirc c C).setCirc c C' = w.setCirc c C' := by
  unfold World.setCirc; simp

omit [DecidableEq K] [Zero K] in
/-- Reading once more returns the same. -/
theorem qubitsOf_again {w : World K} {c : Nat} {C : Circ} {r : Reg} (hC : w.circs[c]? = some C) :
    DG.qubitsOf c (w.setCirc c { C with q := { C.q with cache := some r } }) =
      (.ok r, w.setCirc c { C with q := { C.q with cache := some r } }) := by
  unfold DG.qubitsOf
  rw [setCirc_get hC]
  dsimp only [Bank.flat]
  rw [setCirc_setCirc]

omit [DecidableEq K] [Zero K] in
theorem checkMember_again {w : World K} {c : Nat} {C : Circ} {r : Reg} (hC : w.circs[c]? = some C) (qs : List Nat) :
    checkMember c qs (w.setCirc c { C with q := { C.q with cache := some r } }) =
      (if ∀ q ∈ qs, r.cy.count (.obj q) = true then .ok () else .error .valueError,
        w.setCirc c { C with q := { C.q with cache := some r } }) := by
  induction qs with
  | nil => simp [checkMember, M.each]
  | cons q qs ih =>
    unfold checkMember at ih ⊢
    unfold M.each
    simp only [bind_def, qubitsOf_again hC, M.raiseIf]
    by_cases h : r.cy.count (.obj q) = true
    · simp [h, ih]
    · simp [h]

omit [DecidableEq K] [Zero K] in
/-- The membership test of `append`. -/
theorem checkMember_eq {w : World K} {c : Nat} {C : Circ} {r : Reg} (hC : w.circs[c]? = some C)
    (hr : DG.qubitsOf c w = (.ok r, w.setCirc c { C with q := { C.q with cache := some r } })) (qs : List Nat) :
    checkMember c qs w = (if ∀ q ∈ qs, r.cy.count (.obj q) = true then .ok () else .error .valueError,
        if qs = [] then w else w.setCirc c { C with q := { C.q with cache := some r } }) := by
  cases qs with
  | nil => simp [checkMember, M.each]
  | cons q qs =>
    unfold checkMember
    unfold M.each
    simp only [bind_def, hr, M.raiseIf]
    by_cases h : r.cy.count (.obj q) = true
    · simp only [h, Bool.not_true, Bool.false_eq_true, if_false]
      have := checkMember_again (r := r) hC qs
      unfold checkMember at this
      simp only [bind_def, M.raiseIf] at this
      rw [this]
      simp [h]
    · simp [h]

omit [DecidableEq K] [Zero K] in
theorem QInv.checkMember (c : Nat) (qs : List Nat) : Pres (QInv (K := K) s u) (checkMember c qs) :=
  pres_each fun _ => pres_bind (QInv.qubitsOf c) fun _ => pres_raiseIf _ _

omit [DecidableEq K] [Zero K] in
/-- The end of `append`: after the test the operation is added. -/
theorem QInv.addOp (hu : u = true → s = true) {w : World K} (h : QInv s u w) (c : Nat) {o : Nat} {op : OpObj K} (hop : w.ops[o]? = some op) :
    QInv s u (((DG.checkMember c (op.qubits.getD [])) >>= fun _ => DG.modCirc c fun C => { C with ops := C.ops ++ [o] }) w).2 := by
  rw [bind_def]
  have h1 := QInv.checkMember c (op.qubits.getD []) w h
  cases hC : w.circs[c]? with
  | none =>
    have hm : (DG.checkMember c (op.qubits.getD []) w).2 = w := by
      generalize op.qubits.getD [] = qs
      cases qs with
      | nil => rfl
      | cons q qs => unfold DG.checkMember; unfold M.each; simp [bind_def, DG.qubitsOf, hC]
    revert h1 hm
    generalize DG.checkMember c (op.qubits.getD []) w = x
    rintro h1 hm
    obtain ⟨r, w'⟩ := x
    cases r with
    | error e => exact h1
    | ok _ =>
      dsimp only at hm ⊢
      subst hm
      unfold DG.modCirc M.write
      simp only [hC]
      exact h1
  | some C =>
    obtain ⟨L, hL, hfresh, hlt, hS, -⟩ := h.bank C (mem_of_get? hC)
    obtain ⟨r, g1, g2, g3⟩ := qubitsOf_eq hC hL
    have hcm := checkMember_eq hC g1 (op.qubits.getD [])
    split
    · next u' w' he =>
      rw [hcm] at he
      rw [hcm] at h1
      simp only [Prod.mk.injEq] at he
      obtain ⟨he1, he2⟩ := he
      have hall : ∀ q ∈ op.qubits.getD [], r.cy.count (.obj q) = true := by
        by_contra hne
        simp [hne] at he1
      -- the circuit after the test
      have hw' : w'.circs[c]? = some (if op.qubits.getD [] = [] then C else { C with q := { C.q with cache := some r } }) := by
        rw [← he2]
        split
        · exact hC
        · exact setCirc_get hC
      have hops : w'.ops = w.ops := by rw [← he2]; split <;> rfl
      have hqs : w'.qubits = w.qubits := by rw [← he2]; split <;> rfl
      have h1' : QInv s u w' := by rw [← he2]; exact h1
      unfold DG.modCirc M.write
      simp only [hw']
      refine ⟨forall_set h1'.bank ?_ c, fun hu' => forall_set (h1'.ops hu') ?_ c⟩
      · cases u with
        | false =>
          have := h1'.bank _ (mem_of_get? hw')
          simpa [World.usedIf, World.setCirc] using this
        | true =>
          have hs := hu rfl
          have hb := h1'.bank _ (mem_of_get? hw')
          have hrep := g3 (hfresh (.inl hs))
          refine Bank.Inv.mono (S := World.usedIf true w'
            (if op.qubits.getD [] = [] then C else { C with q := { C.q with cache := some r } }) ++ op.qubits.getD []) ?_ le_rfl ?_
            (n := w'.qubits.length)
          · obtain ⟨L', b1, b2, b3, b4, b5⟩ := hb
            have : L' = L := by
              refine Bank.shows_unique b1.shows ?_
              split
              · exact hL.shows
              · exact hL.shows
            subst this
            refine ⟨L', b1, b2, b3, ?_, b5⟩
            intro k hk
            rw [List.mem_append] at hk
            rcases hk with hk | hk
            · exact b4 k hk
            · have := hall k hk
              rw [hrep.count_eq] at this
              simpa using this
          · intro k hk
            simp only [World.usedIf, World.used, if_true, List.flatMap_append, List.flatMap_cons, List.flatMap_nil, List.append_nil,
              World.setCirc, hops, hop, List.mem_append] at hk ⊢
            exact hk
      · intro o' ho'
        rw [List.mem_append] at ho'
        rcases ho' with ho' | ho'
        · exact h1'.ops hu' _ (mem_of_get? hw') _ ho'
        · simp at ho'; subst ho'
          show o' < w'.ops.length
          rw [hops]; exact (List.getElem?_eq_some_iff.1 hop).1
    · next e w' he =>
      rw [he] at h1; exact h1

theorem QInv.appendOp (hu : u = true → s = true) (c o : Nat) : Pres (QInv (K := K) s u) (appendOp c o) := by
  unfold DG.appendOp
  refine pres_bind (pres_deref _) fun C => pres_bind (pres_raiseIf _ _) fun _ => pres_bind (pres_whenever (QInv.evalInPlace _ _)) fun _ => ?_
  intro w h
  rw [bind_def]
  unfold opObj M.deref
  cases hop : w.ops[o]? with
  | none => simp only [hop]; exact h
  | some op => simp only [hop]; exact h.addOp hu c hop

omit [DecidableEq K] [Zero K] in
/-- Changes that do not touch qubits, operations and quantum registers. -/
theorem QInv.congr {w w' : World K} (h : QInv s u w) (h1 : w'.qubits.length = w.qubits.length) (h2 : w'.ops = w.ops)
    (h3 : ∀ C' ∈ w'.circs, ∃ C ∈ w.circs, C'.ops = C.ops ∧ C'.q = C.q) : QInv s u w' := by
  refine ⟨fun C' hC' => ?_, fun hu C' hC' => ?_⟩
  · obtain ⟨C, hC, e1, e2⟩ := h3 C' hC'
    have := h.bank C hC
    rw [e2, h1]
    unfold World.usedIf World.used at this ⊢
    rw [e1, h2]
    exact this
  · obtain ⟨C, hC, e1, e2⟩ := h3 C' hC'
    rw [e1, h2]
    exact h.ops hu C hC

omit [DecidableEq K] [Zero K] in
theorem QInv.same {w w' : World K} (h : QInv s u w) (h1 : w'.qubits.length = w.qubits.length) (h2 : w'.ops = w.ops)
    (h3 : w'.circs = w.circs) : QInv s u w' :=
  h.congr h1 h2 fun C hC => ⟨C, by rwa [h3] at hC, rfl, rfl⟩

omit [DecidableEq K] [Zero K] in
theorem QInv.setC {w w' : World K} (h : QInv s u w) (h1 : w'.qubits.length = w.qubits.length) (h2 : w'.ops = w.ops)
    {c : Nat} {C C' : Circ} (hC : w.circs[c]? = some C) (h3 : w'.circs = w.circs.set c C') (h4 : C'.ops = C.ops) (h5 : C'.q = C.q) :
    QInv s u w' := by
  refine h.congr h1 h2 fun D hD => ?_
  rw [h3] at hD
  rcases List.mem_or_eq_of_mem_set hD with hD | rfl
  · exact ⟨D, hD, rfl, rfl⟩
  · exact ⟨C, mem_of_get? hC, h4, h5⟩

omit [DecidableEq K] [Zero K] in
/-- A circuit keeps only some of its operations. -/
theorem QInv.shrink {w : World K} (h : QInv s u w) {c : Nat} {C C' : Circ} (hC : w.circs[c]? = some C) (h4 : ∀ o ∈ C'.ops, o ∈ C.ops)
    (h5 : C'.q = C.q) : QInv s u (w.setCirc c C') := by
  refine ⟨forall_set h.bank ?_ c, fun hu => forall_set (h.ops hu) (fun o ho => h.ops hu C (mem_of_get? hC) o (h4 o ho)) c⟩
  rw [h5]
  refine (h.bank C (mem_of_get? hC)).mono le_rfl ?_
  cases u
  · intro k hk; exact hk
  · intro k hk
    simp only [World.usedIf, World.used, if_true, List.mem_flatMap] at hk ⊢
    obtain ⟨o, ho, hk⟩ := hk
    exact ⟨o, h4 o ho, hk⟩

theorem QInv.prims (hu : u = true → s = true) : Prims (QInv (K := K) s u) where
  qubitsOf := QInv.qubitsOf
  bitsOf := by
    intro c w h
    unfold DG.bitsOf
    split
    · exact h
    · next C hC => exact h.setC rfl rfl hC rfl rfl rfl
  addQReg := QInv.addQReg
  addCReg := by
    intro c n l w h
    unfold DG.addCReg
    split
    · exact h
    · next C hC => split <;> exact h.setC rfl rfl hC rfl rfl rfl
  addQubit := QInv.addQubit
  addBit := by
    intro c q l w h
    unfold DG.addBit
    split
    · exact h
    · next C hC =>
      dsimp only
      split
      · exact h
      · split <;> exact h.setC rfl rfl hC rfl rfl rfl
      · split
        · exact h
        · split <;> exact h.setC rfl rfl hC rfl rfl rfl
  appendOp := QInv.appendOp hu
  evalInPlace := QInv.evalInPlace
  checkArity := by
    intro k m w h
    unfold DG.checkArity
    split
    · exact h
    · exact h.same rfl rfl rfl
  newOp := by
    intro op w h
    refine h.setOps (by simp) ?_
    intro o op' ho
    exact ⟨op', by rw [List.getElem?_append_left (List.getElem?_eq_some_iff.1 ho).1]; exact ho, rfl⟩
  setParams := fun _ _ => QInv.modOp fun _ => rfl
  setBits := fun _ _ => QInv.modOp fun _ => rfl
  setCond := fun _ _ => QInv.modOp fun _ => rfl
  getParam := by
    intro c i w h
    unfold DG.getParam
    split
    · exact h
    · next C hC =>
      split
      · exact h
      · dsimp only
        split
        · exact h.setC rfl rfl hC rfl rfl rfl
        · have : ∀ j : Int, QInv s u (if 0 ≤ j then match C.vars[j.toNat]? with
              | some v => ((.ok v : Except Err Nat), w)
              | none => (.error .indexError, w) else (.error .indexError, w)).2 := by
            intro j
            split
            · split <;> exact h
            · exact h
          exact this _
  lock := fun _ => QInv.modCirc fun _ => ⟨rfl, rfl⟩
  unlock := fun _ => QInv.modCirc fun C => by split <;> exact ⟨rfl, rfl⟩
  clearOps := by
    intro c w h
    unfold DG.modCirc M.write
    dsimp only
    split
    · next C hC => exact h.shrink hC (by simp) rfl
    · exact h
  resetItem := by
    intro x w h
    cases x with
    | int _ => exact h
    | obj k =>
      unfold DG.resetItem M.write
      dsimp only
      split <;> exact h.same rfl rfl rfl
  removeOp := by
    intro c o w h
    unfold DG.removeOp
    split
    · next C op hC hop =>
      split
      · exact h
      · next i hi => exact h.shrink hC (fun o ho => List.mem_of_mem_eraseIdx ho) rfl
    · exact h
  allocCirc := by
    intro p w h
    refine ⟨fun C hC => ?_, fun hu C hC => ?_⟩
    · simp only [DG.allocCirc, List.mem_append, List.mem_singleton] at hC
      rcases hC with hC | rfl
      · exact h.bank C hC
      · have : World.usedIf u (DG.allocCirc p w).2 { param := p } = [] := by
          cases u <;> simp [World.usedIf, World.used]
        show Bank.Inv s _ _ _
        rw [this]
        exact Bank.Inv.empty _ _
    · simp only [DG.allocCirc, List.mem_append, List.mem_singleton] at hC
      rcases hC with hC | rfl
      · exact h.ops hu C hC
      · simp
  newQubit := fun l w h => h.qubits (by simp)
  newBit := fun l w h => h.same rfl rfl rfl
  newVar := fun l w h => h.same rfl rfl rfl
  newClass := fun l w h => h.same rfl rfl rfl
  setLabel := fun q l w h => h.same (by simp) rfl rfl

theorem QInv.ctxPrims : CtxPrims (QInv (K := K) s u) where
  contextOf := by
    intro c w h
    unfold DG.contextOf
    split
    · exact h
    · next C hC =>
      split
      · exact h
      · exact h.setC rfl rfl hC rfl rfl rfl
  setActive := fun l w h => h.same rfl rfl rfl
  setOnExit := fun l w h => h.same rfl rfl rfl
  freezeVars := fun _ => QInv.modCirc fun C => by split <;> exact ⟨rfl, rfl⟩
  setVar := by
    intro v x w h
    unfold DG.setVar M.write
    dsimp only
    split <;> first | exact h | exact h.same rfl rfl rfl
  resetVar := by
    intro v w h
    unfold DG.resetVar M.write
    dsimp only
    split <;> first | exact h | exact h.same rfl rfl rfl
  setFrozen := by
    intro x b w h
    unfold DG.setFrozen M.write
    dsimp only
    split <;> first | exact h | exact h.same rfl rfl rfl

omit [DecidableEq K] [Zero K] in
theorem QInv.setBit (b : Nat) (v f : Bool) : Pres (QInv (K := K) s u) (setBit b v f) := by
  intro w h
  unfold DG.setBit
  split
  · exact h
  · exact h.same rfl rfl rfl

omit [DecidableEq K] [Zero K] in
theorem QInv.setQubits (o : Nat) (qs : List Nat) : Pres (QInv (K := K) s false) (setQubits o qs) := by
  unfold DG.setQubits
  refine pres_bind (pres_deref _) fun op => pres_bind ?_ fun _ => ?_
  · intro w h
    unfold DG.checkArity
    split
    · exact h
    · exact h.same rfl rfl rfl
  · intro w h
    unfold DG.modOp M.write
    dsimp only
    split
    · exact ⟨h.bank, by simp⟩
    · exact h

omit [DecidableEq K] [Zero K] in
theorem QInv.resetDrop (c : Nat) : Pres (QInv (K := K) false false) (resetCirc c false) := by
  unfold DG.resetCirc
  refine pres_bind (pres_deref _) fun _ => ?_
  refine pres_bind ?_ fun _ => pres_bind ?_ fun _ => QInv.modCirc fun C => by split <;> exact ⟨rfl, rfl⟩
  · intro w h
    unfold DG.modCirc M.write
    dsimp only
    split
    · next C hC => exact h.shrink hC (by simp) rfl
    · exact h
  · intro w h
    unfold resetRegisters DG.modCirc M.write
    dsimp only
    split
    · next C hC =>
      refine ⟨forall_set (R := fun D : Circ => Bank.Inv false w.qubits.length [] D.q) h.bank ?_ c, by simp⟩
      exact (h.bank C (mem_of_get? hC)).clear
    · exact h

end

section
variable [DecidableEq K] [Zero K]

theorem QInv.evalPrims {s u : Bool} (hu : u = true → s = true) : EvalPrims (QInv (K := K) s u) where
  evalInPlace := (QInv.prims hu).evalInPlace
  deepCopy := by
    intro c w h
    unfold DG.deepCopy
    split
    · exact h
    · next C hC =>
      have h1 : QInv s u { w with ops := w.ops ++ w.ops.map (OpObj.shift w.bits.length w.vars.length) } := by
        refine h.setOps (by simp) fun o op ho => ⟨op, ?_, rfl⟩
        rw [List.getElem?_append_left (List.getElem?_eq_some_iff.1 ho).1]; exact ho
      refine ⟨fun D hD => ?_, fun hu' D hD o ho => ?_⟩
      · simp only [List.mem_append, List.mem_singleton] at hD
        rcases hD with hD | rfl
        · exact h1.bank D hD
        · refine (h.bank C (mem_of_get? hC)).mono le_rfl ?_
          cases u
          · intro k hk; exact hk
          · intro k hk
            simp only [World.usedIf, World.used, if_true, List.mem_flatMap, List.mem_map] at hk ⊢
            obtain ⟨o, ⟨a, ha, rfl⟩, hk⟩ := hk
            refine ⟨a, ha, ?_⟩
            rw [List.getElem?_append_right (by omega), Nat.add_sub_cancel, List.getElem?_map] at hk
            cases hop : w.ops[a]? with
            | none => rw [hop] at hk; simp at hk
            | some op => rw [hop] at hk; exact hk
      · simp only [List.mem_append, List.mem_singleton] at hD
        rcases hD with hD | rfl
        · exact h1.ops hu' D hD o ho
        · simp only [List.mem_map] at ho
          obtain ⟨a, ha, rfl⟩ := ho
          have := h.ops hu' C (mem_of_get? hC) a ha
          simp only [List.length_append, List.length_map]; omega
  replace := by
    intro d i o w D op ps h hD hi ho _
    have h1 : QInv s u { w with ops := w.ops ++ [{ op.shift w.bits.length 0 with params := ps }] } := by
      refine h.setOps (by simp) fun o' op' ho' => ⟨op', ?_, rfl⟩
      rw [List.getElem?_append_left (List.getElem?_eq_some_iff.1 ho').1]; exact ho'
    have hDm := mem_of_get? hD
    refine ⟨forall_set (R := fun E : Circ => Bank.Inv s w.qubits.length (World.usedIf u _ E) E.q) h1.bank ?_ d, fun hu' E hE a ha => ?_⟩
    · refine (h1.bank D hDm).mono le_rfl ?_
      cases u
      · intro k hk; exact hk
      · intro k hk
        simp only [World.usedIf, World.used, if_true, List.mem_flatMap] at hk ⊢
        obtain ⟨a, ha, hk⟩ := hk
        rcases List.mem_or_eq_of_mem_set ha with ha | rfl
        · exact ⟨a, ha, hk⟩
        · refine ⟨o, mem_of_get? hi, ?_⟩
          rw [List.getElem?_append_left (List.getElem?_eq_some_iff.1 ho).1, ho]
          simpa [World.replaced, OpObj.shift] using hk
    · rcases List.mem_or_eq_of_mem_set hE with hE | rfl
      · exact h1.ops hu' E hE a ha
      · rcases List.mem_or_eq_of_mem_set ha with ha | rfl
        · exact h1.ops hu' D hDm a ha
        · simp [World.replaced]

/-- The calls allowed for the strong forms of the invariant. -/
def Call.Keeps (s u : Bool) : Call K → Prop
  | .setQubits .. => u = false
  | .reset _ keep => keep = true ∨ (s = false ∧ u = false)
  | _ => True

theorem QInv.calls {s u : Bool} (hu : u = true → s = true) (e : Call K) (he : e.Keeps s u) (hb : ¬ e.Basic) : Pres (QInv s u) (execCall e) := by
  cases e with
  | setBit b v f => exact QInv.setBit _ _ _
  | setVar v x => exact QInv.ctxPrims.setVar _ _
  | resetVar v => exact QInv.ctxPrims.resetVar _
  | setQubits o qs => cases he; exact QInv.setQubits _ _
  | callParam a ps qs bs => exact QInv.ctxPrims.callParam (QInv.prims hu).toA _ _ _ _
  | resetVariables a => exact QInv.ctxPrims.resetVariables _
  | evalCirc c g i => exact pres_void ((QInv.evalPrims hu).evalCirc c g i)
  | reset c k =>
    cases k with
    | true => exact absurd rfl hb
    | false =>
      rcases he with he | ⟨rfl, rfl⟩
      · cases he
      · exact QInv.resetDrop _
  | _ => exact absurd trivial hb

theorem QInv.reach {s u : Bool} (hu : u = true → s = true) {w : World K} (h : Reach (Call.Keeps s u) w) : QInv s u w :=
  QInv.ctxPrims.reach (QInv.prims hu).toA (QInv.calls hu) ⟨by simp, by simp⟩ h

/-- Without restrictions. -/
theorem QInv.any {A : Call K → Prop} {w : World K} (h : Reach A w) : QInv false false w :=
  QInv.reach (by simp) (h.imp fun e _ => by cases e <;> simp [Call.Keeps])

end
end DG
