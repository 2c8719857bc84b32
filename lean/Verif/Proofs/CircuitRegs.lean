import Verif.Proofs.Append

/-! Registers of circuits in reachable states. -/

namespace DG
open Spec
variable {K : Type} [DecidableEq K] [Zero K]

theorem keeps_true_false (e : Call K) (h : KeepsRegisters e) : Call.Keeps true false e := by
  cases e <;> simp_all [Call.Keeps, KeepsRegisters]

theorem keeps_true_true (e : Call K) (h : KeepsRegisters e ∧ KeepsOperands e) : Call.Keeps true true e := by
  cases e <;> simp_all [Call.Keeps, KeepsRegisters, KeepsOperands]

theorem noBits_true (e : Call K) (h : SetsNoBit e ∧ KeepsRegisters e) : Call.NoBits true e := by
  cases e <;> simp_all [Call.NoBits, KeepsRegisters, SetsNoBit]

theorem noBits_false (e : Call K) (h : SetsNoBit e) : Call.NoBits false e := by
  cases e <;> simp_all [Call.NoBits, SetsNoBit]

/-- The layout a circuit shows. -/
theorem reach_q {A : Call K → Prop} {w : World K} (h : Reach A w) {c : Nat} {C : Circ} (hC : w.circs[c]? = some C) :
    ∃ L, Bank.Ok C.q L ∧ (L ≠ [] → Bank.Fresh C.q L) ∧ (∀ k ∈ L.items, k < w.qubits.length) ∧
      ∀ r, C.q.cache = some r → ∃ A, CyReg.Rep r.cy A := by
  obtain ⟨L, h1, h2, h3, -, h5⟩ := (QInv.any h).bank C (mem_of_get? hC)
  exact ⟨L, h1, fun hL => h2 (.inr hL), h3, h5⟩

theorem reach_q_strict {A : Call K → Prop} (hA : ∀ e, A e → KeepsRegisters e) {w : World K} (h : Reach A w) {c : Nat} {C : Circ}
    (hC : w.circs[c]? = some C) : ∃ L, Bank.Ok C.q L ∧ Bank.Fresh C.q L ∧ ∀ k ∈ L.items, k < w.qubits.length := by
  obtain ⟨L, h1, h2, h3, -⟩ := (QInv.reach (s := true) (u := false) (by simp) (h.imp fun e he => keeps_true_false e (hA e he))).bank C (mem_of_get? hC)
  exact ⟨L, h1, h2 (.inl rfl), h3⟩

theorem reach_c {A : Call K → Prop} (hA : ∀ e, A e → SetsNoBit e) {w : World K} (h : Reach A w) {c : Nat} {C : Circ} (hC : w.circs[c]? = some C) :
    Inert w.bitEnv ∧ (∀ b ∈ w.bits, b.value = none) ∧
    ∃ L, Bank.Ok C.c L ∧ (L ≠ [] → Bank.Fresh C.c L) ∧ (∀ k ∈ L.items, k < w.bits.length) := by
  have hi := CInv.reach (s := false) (h.imp fun e he => noBits_false e (hA e he))
  obtain ⟨L, h1, h2, h3, -⟩ := hi.bank C (mem_of_get? hC)
  exact ⟨inert_bitEnv hi.unset, hi.unset, L, h1, fun hL => h2 (.inr hL), h3⟩

theorem reach_c_strict {A : Call K → Prop} (hA : ∀ e, A e → SetsNoBit e ∧ KeepsRegisters e) {w : World K} (h : Reach A w) {c : Nat} {C : Circ}
    (hC : w.circs[c]? = some C) : ∃ L, Bank.Ok C.c L ∧ Bank.Fresh C.c L := by
  obtain ⟨L, h1, h2, -⟩ := (CInv.reach (s := true) (h.imp fun e he => noBits_true e (hA e he))).bank C (mem_of_get? hC)
  exact ⟨L, h1, h2 (.inl rfl)⟩

omit [DecidableEq K] [Zero K] in
theorem seen_qubits {w : World K} {c : Nat} {C : Circ} {L : Layout} (hC : w.circs[c]? = some C) (hL : Bank.Ok C.q L) (hf : Bank.Fresh C.q L) :
    seen (qubitsOf c w).1 = .ok (L.items.map Lbl.obj) ∧ count (qubitsOf c w).1 = .ok L.items.length := by
  obtain ⟨r, h1, -, h3⟩ := qubitsOf_eq hC hL
  rw [h1]
  have := h3 hf
  exact ⟨this.iter_eq, by simp [count, this.stop]⟩

omit [DecidableEq K] [Zero K] in
theorem seen_bits {w : World K} {c : Nat} {C : Circ} {L : Layout} (hC : w.circs[c]? = some C) (hev : Inert w.bitEnv) (hL : Bank.Ok C.c L)
    (hf : Bank.Fresh C.c L) :
    seen (bitsOf c w).1 = .ok (L.items.map Lbl.obj) ∧ count (bitsOf c w).1 = .ok L.items.length := by
  obtain ⟨r, b', g1, g2, g3, g4, -⟩ := Bank.flat_ok hev hL
  have : (bitsOf c w).1 = .ok r := by unfold bitsOf; rw [hC]; dsimp only; rw [g1]
  rw [this]
  exact ⟨(g4 hf).iter_eq, by simp [count, (g4 hf).stop]⟩

/-- Where an item is stored. -/
theorem find_ok {b : Bank} {L : Layout} (h : Bank.Ok b L) (k : Nat) :
    (k ∈ L.items → ∃ (j : Nat) (l : RLabel) (ks : List Nat) (i : Nat), L[j]? = some (l, ks) ∧ ks[i]? = some k ∧
      b.findItem k true = .ok (.inl l, (i : Int)) ∧ b.findItem k false = .ok (.inr j, (i : Int))) ∧
    (k ∉ L.items → b.findItem k true = .error .valueError ∧ b.findItem k false = .error .valueError) := by
  constructor
  · intro hk
    obtain ⟨P, l, A, B, S, rfl, hP, hA⟩ := Bank.mem_items_split hk
    refine ⟨P.length, l, A ++ k :: B, A.length, by simp, by simp, ?_, ?_⟩
    · have := Bank.findLoop_ok true h.regs hP hA 0
      simpa [Bank.findItem] using this
    · have := Bank.findLoop_ok false h.regs hP hA 0
      simpa [Bank.findItem] using this
  · intro hk
    exact ⟨Bank.findLoop_none true h.regs hk 0, Bank.findLoop_none false h.regs hk 0⟩

/-- Looking up by label in all registers. -/
theorem get_ok {b : Bank} {L : Layout} (h : Bank.Ok b L) (lab : Nat → Option RLabel) (label : RLabel) (reg : Option RLabel)
    (hreg : ∀ l, reg = some l → l.truthy = false) :
    b.getItem lab label reg false = (match L.items.find? (fun k => lab k = some label) with
      | some k => .ok (.one k)
      | none => .error .valueError) ∧
    b.getItem lab label reg true = if L.items.filter (fun k => lab k = some label) = [] then .error .valueError
      else .ok (.many (L.items.filter fun k => lab k = some label)) := by
  have key : ∀ all, b.getItem lab label reg all = Bank.search lab label all (L.items.map Lbl.obj) [] := by
    intro all
    unfold Bank.getItem
    cases reg with
    | none => dsimp only; rw [Bank.chain_ok h.regs]
    | some l => dsimp only; rw [hreg l rfl, Bank.chain_ok h.regs]; simp
  rw [key, key, Bank.search_first, Bank.search_all]
  exact ⟨rfl, by simp⟩

/-- Looking up by label in one register. -/
theorem get_in_ok {b : Bank} {L : Layout} (h : Bank.Ok b L) (lab : Nat → Option RLabel) (label : RLabel) {l : RLabel} (hl : l.truthy = true) :
    (∀ ks, (l, ks) ∈ L → b.getItem lab label (some l) false = (match ks.find? (fun k => lab k = some label) with
      | some k => .ok (.one k)
      | none => .error .valueError) ∧
      b.getItem lab label (some l) true = if ks.filter (fun k => lab k = some label) = [] then .error .valueError
      else .ok (.many (ks.filter fun k => lab k = some label))) ∧
    (l ∉ L.labels → ∀ all, b.getItem lab label (some l) all = .error .keyError) := by
  constructor
  · intro ks hks
    obtain ⟨r, h1, h2⟩ := Bank.regs_lookup h.regs h.labels hks
    have key : ∀ all, b.getItem lab label (some l) all = Bank.search lab label all (ks.map Lbl.obj) [] := by
      intro all
      unfold Bank.getItem
      dsimp only
      rw [hl, h1]
      simp [h2]
    rw [key, key, Bank.search_first, Bank.search_all]
    exact ⟨rfl, by simp⟩
  · intro hn all
    have : PyDict.get? b.regs l = none := by
      have := (Bank.regs_get? h.regs l).not.2 hn
      simpa [PyDict.contains] using this
    unfold Bank.getItem
    dsimp only
    rw [hl, this]
    simp

omit [DecidableEq K] [Zero K] in
/-- `add_qregister`. -/
theorem addQReg_spec {w : World K} {c : Nat} {C : Circ} {L : Layout} (hC : w.circs[c]? = some C) (hL : Bank.Ok C.q L)
    (hlt : ∀ k ∈ L.items, k < w.qubits.length) (n : Int) (label : Option RLabel) :
    (Bank.newLabel C.q "qreg" label ∈ L.labels ∧ addQReg c n label w = (.error .valueError, w)) ∨
    (Bank.newLabel C.q "qreg" label ∉ L.labels ∧ ∃ C' w', addQReg c n label w = (.ok (), w') ∧ w'.circs[c]? = some C' ∧
      Bank.Ok C'.q (L ++ [(Bank.newLabel C.q "qreg" label, List.range' w.qubits.length n.toNat)]) ∧ C'.q.cache = none) := by
  by_cases hl : Bank.newLabel C.q "qreg" label ∈ L.labels
  · refine .inl ⟨hl, ?_⟩
    unfold addQReg
    rw [hC]
    dsimp only
    rw [Bank.addRegister_dup hL _ _ _ _ hl]
    dsimp only
    have : w.setCirc c C = w := by
      obtain ⟨h, e⟩ := List.getElem?_eq_some_iff.1 hC
      unfold World.setCirc
      rw [← e, List.set_getElem_self h]
    rw [this]
  · obtain ⟨created, b', g1, g2, g3, -⟩ := Bank.addRegister_ok inert_qubitEnv hL "qreg" n label w.qubits.length hl hlt
    refine .inr ⟨hl, { C with q := b' }, { w.setCirc c { C with q := b' } with qubits := w.qubits ++ created }, ?_, ?_, g3, g2⟩
    · unfold addQReg; rw [hC]; dsimp only; rw [g1]
    · exact setCirc_get hC

omit [DecidableEq K] [Zero K] in
/-- `add_qubit` of an existing or new qubit. -/
theorem addQubit_spec {w : World K} {c : Nat} {C : Circ} {L : Layout} (hC : w.circs[c]? = some C) (hL : Bank.Ok C.q L)
    (hf : L ≠ [] → Bank.Fresh C.q L) (hlt : ∀ k ∈ L.items, k < w.qubits.length) (label : Option RLabel) :
    (∀ q, q ∈ L.items → ∃ C' w', addQubit c (.item q) label w = (.error .valueError, w') ∧ w'.circs[c]? = some C' ∧
      w'.qubits = w.qubits ∧ Bank.Ok C'.q (L.withRegister "qreg" label).2) ∧
    (∀ q, q ∉ L.items → q < w.qubits.length → ∃ C' w', addQubit c (.item q) label w = (.ok (), w') ∧ w'.circs[c]? = some C' ∧
      w'.qubits = w.qubits ∧ C'.q.cache = none ∧ Bank.Ok C'.q ((L.withRegister "qreg" label).2.addTo (L.withRegister "qreg" label).1 q)) ∧
    (∃ C' w', addQubit c .none label w = (.ok (), w') ∧ w'.circs[c]? = some C' ∧ C'.q.cache = none ∧
      w'.qubits = w.qubits ++ [.str (toString L.items.length)] ∧
      Bank.Ok C'.q ((L.withRegister "qreg" label).2.addTo (L.withRegister "qreg" label).1 w.qubits.length)) := by
  refine ⟨?_, ?_, ?_⟩
  · intro q hq
    obtain ⟨b', g1, g2, g3⟩ := Bank.addItem_dup inert_qubitEnv hL hf "qreg" q true label w.qubits.length hlt hq
    refine ⟨{ C with q := b' }, w.setCirc c { C with q := b' }, ?_, setCirc_get hC, rfl, g2⟩
    unfold addQubit
    rw [hC]
    dsimp only
    rw [List.getElem?_eq_getElem (hlt q hq)]
    dsimp only
    rw [g1]
  · intro q hq hq'
    obtain ⟨created, b', item, g1, g2, g3, g4⟩ := Bank.addItem_ok inert_qubitEnv hL hf "qreg" (some (q, true)) label w.qubits.length hlt
      (by intro k t he; cases he; exact hq)
    rcases g4 with ⟨k, e1, e2, e3⟩ | ⟨e1, -, -⟩
    · cases e1; subst e2 e3
      refine ⟨{ C with q := b' }, w.setCirc c { C with q := b' }, ?_, setCirc_get hC, rfl, g3, g2⟩
      unfold addQubit
      rw [hC]
      dsimp only
      rw [List.getElem?_eq_getElem hq']
      dsimp only
      rw [g1]
      simp [World.setCirc]
    · simp at e1
  · obtain ⟨created, b', item, g1, g2, g3, g4⟩ := Bank.addItem_ok inert_qubitEnv hL hf "qreg" none label w.qubits.length hlt (by simp)
    rcases g4 with ⟨k, e1, -, -⟩ | ⟨-, e2, e3⟩
    · cases e1
    · subst e2 e3
      refine ⟨{ C with q := b' }, { w.setCirc c { C with q := b' } with qubits := w.qubits ++ [.str (toString L.items.length)] }, ?_, ?_, g3, ?_, g2⟩
      · unfold addQubit; rw [hC]; dsimp only; rw [g1]
      · exact setCirc_get hC
      · rfl

omit [DecidableEq K] [Zero K] in
/-- `add_bit` of an existing or new bit, none of the bits having a value. -/
theorem addBit_spec {w : World K} {c : Nat} {C : Circ} {L : Layout} (hC : w.circs[c]? = some C) (hu : ∀ b ∈ w.bits, b.value = none)
    (hL : Bank.Ok C.c L) (hf : L ≠ [] → Bank.Fresh C.c L) (hlt : ∀ k ∈ L.items, k < w.bits.length) (label : Option RLabel) :
    (∀ q, q ∈ L.items → ∃ C' w', addBit c (.item q) label w = (.error .valueError, w') ∧ w'.circs[c]? = some C' ∧
      Bank.Ok C'.c (L.withRegister "creg" label).2) ∧
    (∀ q, q ∉ L.items → q < w.bits.length → ∃ C' w', addBit c (.item q) label w = (.ok (), w') ∧ w'.circs[c]? = some C' ∧
      C'.c.cache = none ∧ Bank.Ok C'.c ((L.withRegister "creg" label).2.addTo (L.withRegister "creg" label).1 q)) ∧
    (∃ C' w', addBit c .none label w = (.ok (), w') ∧ w'.circs[c]? = some C' ∧ C'.c.cache = none ∧
      Bank.Ok C'.c ((L.withRegister "creg" label).2.addTo (L.withRegister "creg" label).1 w.bits.length)) := by
  have hev := inert_bitEnv hu
  refine ⟨?_, ?_, ?_⟩
  · intro q hq
    have hg := List.getElem?_eq_getElem (hlt q hq)
    have hv := hu _ (List.getElem_mem (hlt q hq))
    obtain ⟨b', g1, g2, g3⟩ := Bank.addItem_dup hev hL hf "creg" q true label w.bits.length hlt hq
    refine ⟨{ C with c := b' }, w.setCirc c { C with c := b' }, ?_, setCirc_get hC, g2⟩
    unfold addBit
    rw [hC]
    dsimp only
    rw [hg]
    dsimp only
    rw [hv]
    simp only [BitState.bool]
    rw [g1]
  · intro q hq hq'
    have hg := List.getElem?_eq_getElem hq'
    have hv := hu _ (List.getElem_mem hq')
    obtain ⟨created, b', item, g1, g2, g3, g4⟩ := Bank.addItem_ok hev hL hf "creg" (some (q, true)) label w.bits.length hlt
      (by intro k t he; cases he; exact hq)
    rcases g4 with ⟨k, e1, e2, e3⟩ | ⟨e1, -, -⟩
    · cases e1; subst e2 e3
      refine ⟨{ C with c := b' }, w.setCirc c { C with c := b' }, ?_, setCirc_get hC, g3, g2⟩
      unfold addBit
      rw [hC]
      dsimp only
      rw [hg]
      dsimp only
      rw [hv]
      simp only [BitState.bool]
      rw [g1]
      simp [World.setCirc]
    · simp at e1
  · obtain ⟨created, b', item, g1, g2, g3, g4⟩ := Bank.addItem_ok hev hL hf "creg" none label w.bits.length hlt (by simp)
    rcases g4 with ⟨k, e1, -, -⟩ | ⟨-, e2, e3⟩
    · cases e1
    · subst e2 e3
      refine ⟨{ C with c := b' }, { w.setCirc c { C with c := b' } with bits := w.bits ++ [⟨.str (toString L.items.length), none⟩] }, ?_, ?_, g3, g2⟩
      · unfold addBit; rw [hC]; dsimp only; rw [g1]; rfl
      · exact setCirc_get hC

/-- Items after adding one. -/
theorem addTo_split {L : Layout} (hn : L.labels.Nodup) (pre : String) (label : Option RLabel) (k : Nat)
    (hn' : (L.withRegister pre label).2.labels.Nodup) :
    ∃ P S, L.items = P ++ S ∧ ((L.withRegister pre label).2.addTo (L.withRegister pre label).1 k).items = P ++ k :: S := by
  obtain ⟨P, S, h1, h2⟩ := Bank.addTo_items hn' (Bank.withRegister_mem L pre label) k
  exact ⟨P, S, by rw [← h1, Bank.withRegister_items], h2⟩

end DG

namespace DG
open Spec
variable {K : Type} [DecidableEq K] [Zero K]

/-- `append` for an operation of a known class, up to the test of its qubits. -/
theorem appendOp_known {w : World K} {c o : Nat} {C : Circ} {op : OpObj K} {k : OpCls} (hC : w.circs[c]? = some C) (hop : w.ops[o]? = some op)
    (hk : w.classes[op.cls]? = some k) (hl : C.locked = false) :
    ((C.parametric = false ∧ k.kind.isParametric = true ∧ ¬ Evaluates w.varVal op.params) ∧
      ∃ ps, appendOp c o w = (.error .valueError, { w with ops := w.ops.set o { op with params := ps } })) ∨
    ((C.parametric = false → k.kind.isParametric = true → Evaluates w.varVal op.params) ∧
      appendOp c o w = appendTail c o { w with ops := w.ops.set o { op with params := appendedParams w C (some k) op } }) := by
  have hdef : appendOp c o w = (circ c >>= fun C => M.raiseIf C.locked .circuitError >>= fun _ =>
    M.whenever (!C.parametric) (evalInPlace o none) >>= fun _ => appendTail c o) w := rfl
  rw [hdef]
  simp only [bind_def, circ, M.deref, M.raiseIf, M.whenever, hC, hl, Bool.false_eq_true, if_false]
  cases hpar : C.parametric with
  | true =>
    refine .inr ⟨by simp, ?_⟩
    have : appendedParams w C (some k) op = op.params := by simp [appendedParams, hpar]
    rw [this, ← set_params_self hop]
    simp
  | false =>
    simp only [Bool.not_false, if_true]
    unfold evalInPlace
    simp only [hop, hk]
    cases hkp : k.kind.isParametric with
    | false =>
      refine .inr ⟨by simp, ?_⟩
      have : appendedParams w C (some k) op = op.params := by simp [appendedParams, hkp]
      rw [this, ← set_params_self hop]
      simp
    | true =>
      simp only [if_true]
      rcases evalLoop_none w.varVal (.inl rfl) 0 op.params with ⟨h1, h2⟩ | ⟨h1, qs, h2⟩
      · rw [h2]
        refine .inr ⟨fun _ _ => h1, ?_⟩
        simp [appendedParams, hkp, hpar, World.setOp]
      · rw [h2]
        exact .inl ⟨⟨trivial, trivial, h1⟩, qs, rfl⟩

omit [DecidableEq K] [Zero K] in
/-- The test of the qubits. -/
theorem appendTail_known {W : World K} {c o : Nat} {C : Circ} {op : OpObj K} {r : Reg} {items : List Lbl} (hC : W.circs[c]? = some C)
    (hop : W.ops[o]? = some op) (hr : qubitsOf c W = (.ok r, W.setCirc c { C with q := { C.q with cache := some r } }))
    (hrep : CyReg.Rep r.cy items) :
    ((∃ q ∈ op.qubits.getD [], Lbl.obj q ∉ items) ∧ ∃ w', appendTail c o W = (.error .valueError, w') ∧ Touch c W w') ∨
    ((∀ q ∈ op.qubits.getD [], Lbl.obj q ∈ items) ∧ ∃ b', b'.regs = C.q.regs ∧ appendTail c o W = (.ok (), W.setCirc c { C with ops := C.ops ++ [o], q := b' })) := by
  have hcm := checkMember_eq hC hr (op.qubits.getD [])
  have ht := appendTail_cases hC hop
  by_cases hall : ∀ q ∈ op.qubits.getD [], Lbl.obj q ∈ items
  · refine .inr ⟨hall, ?_⟩
    rcases ht with ⟨e, w', h1, h2⟩ | h
    · exfalso
      have hall' : ∀ q ∈ op.qubits.getD [], r.cy.count (.obj q) = true := fun q hq => (hrep.count_iff _).2 (hall q hq)
      unfold appendTail at h1
      simp only [bind_def, opObj, M.deref, hop, hcm] at h1
      rw [if_pos hall'] at h1
      simp [DG.modCirc, M.write] at h1
    · exact h
  · push Not at hall
    refine .inl ⟨hall, ?_⟩
    have hne : ¬ ∀ q ∈ op.qubits.getD [], r.cy.count (.obj q) = true := by
      obtain ⟨q, hq, hn⟩ := hall
      intro h'
      exact hn ((hrep.count_iff _).1 (h' q hq))
    have hx : (appendTail c o W).1 = .error .valueError := by
      unfold appendTail
      simp only [bind_def, opObj, M.deref, hop, hcm]
      rw [if_neg hne]
    rcases ht with ⟨e, w', h1, h2⟩ | ⟨b', -, h⟩
    · rw [h1] at hx; cases hx; exact ⟨w', h1, h2⟩
    · rw [h] at hx; cases hx

/-- What `circuit.qubits` returns is a register. -/
theorem reach_rep {A : Call K → Prop} {w : World K} (h : Reach A w) {c : Nat} {C : Circ} (hC : w.circs[c]? = some C) :
    ∃ r items, qubitsOf c w = (.ok r, w.setCirc c { C with q := { C.q with cache := some r } }) ∧ CyReg.Rep r.cy items := by
  obtain ⟨L, h1, h2, h3, h4⟩ := reach_q h hC
  obtain ⟨r, g1, g2, g3⟩ := qubitsOf_eq hC h1
  rcases g2 with g2 | g2
  · exact ⟨r, _, g1, g3 fun r' hr' => by rw [g2] at hr'; cases hr'⟩
  · obtain ⟨A, hA⟩ := h4 r g2
    exact ⟨r, A, g1, hA⟩

/-- An item added to the last register becomes the last item. -/
theorem addTo_last {L : Layout} (hn : L.labels.Nodup) {l : RLabel} (hl : L.labels.getLast? = some l) (k : Nat) :
    (L.addTo l k).items = L.items ++ [k] := by
  rcases List.eq_nil_or_concat L with rfl | ⟨P, ⟨l', ks⟩, rfl⟩
  · simp [Layout.labels] at hl
  · simp only [Layout.labels, List.concat_eq_append, List.map_append, List.map_cons, List.map_nil, List.getLast?_append,
      List.getLast?_singleton, Option.some_or, Option.some.injEq] at hl
    subst hl
    have hnot : l' ∉ Layout.labels P := by
      simp only [Layout.labels, List.concat_eq_append, List.map_append, List.map_cons, List.map_nil] at hn
      have := (List.nodup_append.1 hn).2.2
      intro hm
      exact this l' hm l' (by simp) rfl
    have e : Layout.addTo (P.concat (l', ks)) l' k = Layout.addTo P l' k ++ [(l', ks ++ [k])] := by simp [Layout.addTo]
    rw [e, Bank.addTo_none hnot]
    simp [Layout.items]

/-- Where an item goes: to the end of the register `l`. -/
theorem addTo_parts {A B : Layout} {l : RLabel} {xs : List Nat} (hn : Layout.labels (A ++ (l, xs) :: B) |>.Nodup) (k : Nat) :
    Layout.addTo (A ++ (l, xs) :: B) l k = A ++ (l, xs ++ [k]) :: B := by
  have e : Layout.addTo (A ++ (l, xs) :: B) l k = Layout.addTo A l k ++ (l, xs ++ [k]) :: Layout.addTo B l k := by simp [Layout.addTo]
  simp only [Layout.labels, List.map_append, List.map_cons] at hn
  obtain ⟨-, h1, h2⟩ := List.nodup_append.1 hn
  rw [e, Bank.addTo_none (fun hm => h2 l hm l (by simp) rfl), Bank.addTo_none (List.nodup_cons.1 h1).1]

/-- The register that an addition goes to. -/
theorem withRegister_parts (L : Layout) (pre : String) (label : Option RLabel) :
    ∃ A l xs B, (L.withRegister pre label).1 = l ∧ (L.withRegister pre label).2 = A ++ (l, xs) :: B ∧
      ((L = A ++ (l, xs) :: B ∧ (label = some l ∨ (label = none ∧ A = []))) ∨
       (L = A ∧ xs = [] ∧ B = [] ∧ ((label = some l ∧ l ∉ L.labels) ∨ (label = none ∧ L = [] ∧ l = .str (pre ++ "0"))))) := by
  unfold Layout.withRegister
  cases label with
  | some l =>
    by_cases hm : l ∈ L.labels
    · obtain ⟨⟨l', xs⟩, hp, rfl⟩ := List.mem_map.1 hm
      obtain ⟨A, B, rfl⟩ := List.append_of_mem hp
      exact ⟨A, l', xs, B, rfl, by simp only [hm, if_true], .inl ⟨rfl, .inl rfl⟩⟩
    · exact ⟨L, l, [], [], rfl, by simp only [hm, if_false], .inr ⟨rfl, rfl, rfl, .inl ⟨rfl, hm⟩⟩⟩
  | none =>
    match L with
    | [] => exact ⟨[], _, [], [], rfl, rfl, .inr ⟨rfl, rfl, rfl, .inr ⟨rfl, rfl, rfl⟩⟩⟩
    | (l, xs) :: B => exact ⟨[], l, xs, B, rfl, rfl, .inl ⟨rfl, .inr ⟨rfl, rfl⟩⟩⟩

/-- The last register. -/
theorem withRegister_last {L : Layout} (pre : String) (label : Option RLabel)
    (h1 : ∀ l, label = some l → l ∈ L.labels → L.labels.getLast? = some l) (h2 : label = none → L.length ≤ 1) :
    (L.withRegister pre label).2.labels.getLast? = some (L.withRegister pre label).1 := by
  unfold Layout.withRegister
  cases label with
  | some l =>
    dsimp only
    split
    · next hm => exact h1 l rfl hm
    · simp [Layout.labels]
  | none =>
    dsimp only
    have := h2 rfl
    match L, this with
    | [], _ => simp [Layout.labels]
    | [p], _ => simp [Layout.labels]

/-- What `Shows` compares, computed. -/
def Bank.shown (b : Bank) : List (RLabel × Except Err (List Lbl)) := b.regs.map fun p => (p.1, p.2.cy.iter)

theorem shows_of {b : Bank} {L : Layout} (h : b.shown = L.map fun p => (p.1, .ok (p.2.map Lbl.obj))) : Shows b L := by
  unfold Shows
  unfold Bank.shown at h
  generalize b.regs = rs at h ⊢
  induction rs generalizing L with
  | nil => cases L with
    | nil => exact .nil
    | cons p L => cases h
  | cons q rs ih => cases L with
    | nil => cases h
    | cons p L =>
      simp only [List.map_cons, List.cons.injEq, Prod.mk.injEq] at h
      exact .cons ⟨h.1.1, h.1.2⟩ (ih h.2)

omit [DecidableEq K] [Zero K] in
theorem shows_circ {w : World K} {c : Nat} {L : Layout} (f : Circ → Bank)
    (h : (w.circs[c]?).map (fun C => (f C).shown) = some (L.map fun p => (p.1, .ok (p.2.map Lbl.obj)))) :
    ∃ C, w.circs[c]? = some C ∧ Shows (f C) L := by
  rw [Option.map_eq_some_iff] at h
  obtain ⟨C, h1, h2⟩ := h
  exact ⟨C, h1, shows_of h2⟩

omit [DecidableEq K] [Zero K] in
/-- A successful `add_qubit`. -/
theorem addQubit_inv {w w' : World K} {c : Nat} {C : Circ} {L : Layout} (hC : w.circs[c]? = some C) (hL : Bank.Ok C.q L)
    (hf : L ≠ [] → Bank.Fresh C.q L) (hlt : ∀ k ∈ L.items, k < w.qubits.length) {q : Given} {label : Option RLabel}
    (hw' : addQubit c q label w = (.ok (), w')) :
    ∃ C' k, w'.circs[c]? = some C' ∧ Bank.Ok C'.q ((L.withRegister "qreg" label).2.addTo (L.withRegister "qreg" label).1 k) ∧
      C'.q.cache = none ∧ (q = .item k ∨ (q = .none ∧ k = w.qubits.length)) := by
  obtain ⟨a1, a2, C', w'', b1, b2, b3, b4, b5⟩ := addQubit_spec hC hL hf hlt label
  cases q with
  | other => simp [addQubit, hC] at hw'
  | none =>
    rw [b1] at hw'; cases hw'
    exact ⟨C', _, b2, b5, b3, .inr ⟨rfl, rfl⟩⟩
  | item q =>
    by_cases hq : q ∈ L.items
    · obtain ⟨C', w'', x1, -⟩ := a1 q hq
      rw [x1] at hw'; cases hw'
    · by_cases hq' : q < w.qubits.length
      · obtain ⟨C', w'', x1, x2, x3, x4, x5⟩ := a2 q hq hq'
        rw [x1] at hw'; cases hw'
        exact ⟨C', q, x2, x5, x4, .inl rfl⟩
      · simp [addQubit, hC, List.getElem?_eq_none (Nat.le_of_not_lt hq')] at hw'

omit [DecidableEq K] [Zero K] in
/-- A successful `add_bit`, none of the bits having a value. -/
theorem addBit_inv {w w' : World K} {c : Nat} {C : Circ} {L : Layout} (hC : w.circs[c]? = some C) (hu : ∀ b ∈ w.bits, b.value = none)
    (hL : Bank.Ok C.c L) (hf : L ≠ [] → Bank.Fresh C.c L) (hlt : ∀ k ∈ L.items, k < w.bits.length) {q : Given} {label : Option RLabel}
    (hw' : addBit c q label w = (.ok (), w')) :
    ∃ C' k, w'.circs[c]? = some C' ∧ Bank.Ok C'.c ((L.withRegister "creg" label).2.addTo (L.withRegister "creg" label).1 k) ∧
      C'.c.cache = none ∧ (q = .item k ∨ (q = .none ∧ k = w.bits.length)) ∧ Inert w'.bitEnv := by
  have hin : Inert w'.bitEnv := by
    apply inert_bitEnv
    have hgo : ∀ g, (match C.c.addItem w.bitEnv "creg" g label w.bits.length with
      | (.error e, b) => ((.error e, w.setCirc c { C with c := b }) : Except Err Unit × World K)
      | (.ok new, b) => (.ok (), { w.setCirc c { C with c := b } with bits := w.bits ++ new.map fun l => ⟨l, none⟩ })) = (.ok (), w') →
      ∀ b ∈ w'.bits, b.value = none := by
      intro g hg
      split at hg
      · cases hg
      · cases hg
        intro b hb
        simp only [List.mem_append, List.mem_map] at hb
        rcases hb with hb | ⟨l, -, rfl⟩
        · exact hu b hb
        · rfl
    unfold addBit at hw'
    rw [hC] at hw'
    dsimp only at hw'
    cases q with
    | other => cases hw'
    | none => exact hgo _ hw'
    | item k =>
      dsimp only at hw'
      split at hw'
      · cases hw'
      · exact hgo _ hw'
  obtain ⟨a1, a2, C', w'', b1, b2, b3, b5⟩ := addBit_spec hC hu hL hf hlt label
  cases q with
  | other => simp [addBit, hC] at hw'
  | none =>
    rw [b1] at hw'; cases hw'
    exact ⟨C', _, b2, b5, b3, .inr ⟨rfl, rfl⟩, hin⟩
  | item q =>
    by_cases hq : q ∈ L.items
    · obtain ⟨C', w'', x1, -⟩ := a1 q hq
      rw [x1] at hw'; cases hw'
    · by_cases hq' : q < w.bits.length
      · obtain ⟨C', w'', x1, x2, x4, x5⟩ := a2 q hq hq'
        rw [x1] at hw'; cases hw'
        exact ⟨C', q, x2, x5, x4, .inl rfl, hin⟩
      · simp [addBit, hC, List.getElem?_eq_none (Nat.le_of_not_lt hq')] at hw'

omit [DecidableEq K] [Zero K] in
/-- `circuit.qubits` does not depend on the operation objects. -/
theorem qubitsOf_ops {w : World K} {ops : List (OpObj K)} {c : Nat} {C : Circ} {r : Reg}
    (h : qubitsOf c w = (.ok r, w.setCirc c C)) :
    qubitsOf c { w with ops := ops } = (.ok r, World.setCirc { w with ops := ops } c C) := by
  unfold qubitsOf at h ⊢
  cases hC : w.circs[c]? with
  | none => rw [hC] at h; cases h
  | some C0 =>
    rw [hC] at h
    simp only [hC]
    simp only [Prod.mk.injEq] at h ⊢
    refine ⟨h.1, ?_⟩
    have := congrArg World.circs h.2
    simp only [World.setCirc] at this ⊢
    rw [this]

/-- One step of `extend`. -/
theorem extend_cons (c o : Nat) (os : List Nat) (w : World K) : extendOps c (o :: os) w = (match appendOp c o w with
    | (.ok _, w') => extendOps c os w'
    | (.error e, w') => (.error e, w')) := by
  simp only [extendOps, M.each, bind_def]
  rcases appendOp c o w with ⟨_ | _, _⟩ <;> rfl

end DG
