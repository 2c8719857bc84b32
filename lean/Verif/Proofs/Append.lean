import Verif.Proofs.WorldC

/-! What evaluation, `append` and the constructors of operations do. -/

namespace DG
open Spec
variable {K : Type}

/-- A parameter after evaluation with the values of variables. -/
def OpParam.subst (val : Nat → Option K) : OpParam K → OpParam K
  | .num x => .num x
  | .var v => match val v with
    | some x => .num x
    | none => .var v

section
variable [DecidableEq K] [Zero K]

/-- The values of the variables of a list of parameters can be used. -/
def Evaluates (val : Nat → Option K) (ps : List (OpParam K)) : Prop := ∀ v, OpParam.var v ∈ ps → ∃ x, val v = some x ∧ x ≠ 0

theorem evalLoop_none (val : Nat → Option K) {given : Option (List K)} (hg : given = none ∨ given = some []) (i : Nat) (ps : List (OpParam K)) :
    (Evaluates val ps ∧ evalLoop val given i ps = (.ok (), ps.map (OpParam.subst val))) ∨
    (¬ Evaluates val ps ∧ ∃ qs, evalLoop val given i ps = (.error .valueError, qs)) := by
  induction ps generalizing i with
  | nil => exact .inl ⟨by simp [Evaluates], rfl⟩
  | cons p ps ih =>
    cases p with
    | num x =>
      rcases ih (i + 1) with ⟨h1, h2⟩ | ⟨h1, qs, h2⟩
      · refine .inl ⟨fun v hv => h1 v (by simpa using hv), ?_⟩
        unfold evalLoop; simp [h2, OpParam.subst]
      · refine .inr ⟨fun h => h1 fun v hv => h v (by simp [hv]), .num x :: qs, ?_⟩
        unfold evalLoop; simp [h2]
    | var v =>
      cases hv : val v with
      | none =>
        refine .inr ⟨fun h => ?_, .var v :: ps, ?_⟩
        · obtain ⟨x, h1, -⟩ := h v (by simp)
          rw [hv] at h1; cases h1
        · unfold evalLoop
          rcases hg with rfl | rfl <;> simp [hv]
      | some x =>
        by_cases hx : x = 0
        · refine .inr ⟨fun h => ?_, .var v :: ps, ?_⟩
          · obtain ⟨y, h1, h2⟩ := h v (by simp)
            rw [hv] at h1; cases h1; exact h2 hx
          · unfold evalLoop
            rcases hg with rfl | rfl <;> simp [hv, hx]
        · rcases ih (i + 1) with ⟨h1, h2⟩ | ⟨h1, qs, h2⟩
          · refine .inl ⟨fun u hu => ?_, ?_⟩
            · rcases List.mem_cons.1 hu with e | hu
              · cases e; exact ⟨x, hv, hx⟩
              · exact h1 u hu
            · unfold evalLoop
              rcases hg with rfl | rfl <;> simp [hv, hx, h2, OpParam.subst]
          · refine .inr ⟨fun h => h1 fun v hv => h v (by simp [hv]), .num x :: qs, ?_⟩
            unfold evalLoop
            rcases hg with rfl | rfl <;> simp [hv, hx, h2]

theorem evalLoop_given (val : Nat → Option K) {l : List K} (hl : l ≠ []) (i : Nat) (ps : List (OpParam K)) :
    ((∀ j v, ps[j]? = some (.var v) → i + j < l.length) ∧ ∃ qs, evalLoop val (some l) i ps = (.ok (), qs) ∧ qs.length = ps.length ∧
      ∀ (j : Nat) (p : OpParam K), ps[j]? = some p → match p with
        | .num x => qs[j]? = some (.num x)
        | .var _ => ∃ y, l[i + j]? = some y ∧ qs[j]? = some (.num y)) ∨
    (¬ (∀ j v, ps[j]? = some (.var v) → i + j < l.length) ∧ ∃ qs, evalLoop val (some l) i ps = (.error .indexError, qs)) := by
  induction ps generalizing i with
  | nil => exact .inl ⟨by simp, [], rfl, rfl, by simp⟩
  | cons p ps ih =>
    obtain ⟨y0, ys, rfl⟩ := List.exists_cons_of_ne_nil hl
    cases p with
    | num x =>
      rcases ih (i + 1) with ⟨h1, qs, h2, h3, h4⟩ | ⟨h1, qs, h2⟩
      · refine .inl ⟨?_, .num x :: qs, ?_, by simp [h3], ?_⟩
        · intro j v hj
          cases j with
          | zero => simp at hj
          | succ j => have := h1 j v (by simpa using hj); omega
        · unfold evalLoop; simp [h2]
        · intro j p hj
          cases j with
          | zero => simp at hj; subst hj; simp
          | succ j =>
            have := h4 j p (by simpa using hj)
            cases p with
            | num x => simpa using this
            | var v =>
              obtain ⟨y, e1, e2⟩ := this
              exact ⟨y, by rw [← e1]; congr 1; omega, by simpa using e2⟩
      · refine .inr ⟨fun h => h1 fun j v hj => ?_, .num x :: qs, ?_⟩
        · have := h (j + 1) v (by simpa using hj); omega
        · unfold evalLoop; simp [h2]
    | var v =>
      by_cases hi : i < (y0 :: ys).length
      · have hz := List.getElem?_eq_getElem hi
        rcases ih (i + 1) with ⟨h1, qs, h2, h3, h4⟩ | ⟨h1, qs, h2⟩
        · refine .inl ⟨?_, .num (y0 :: ys)[i] :: qs, ?_, by simp [h3], ?_⟩
          · intro j v hj
            cases j with
            | zero => simpa using hi
            | succ j => have := h1 j v (by simpa using hj); omega
          · unfold evalLoop; simp only [hz, h2]
          · intro j p hj
            cases j with
            | zero => simp at hj; subst hj; exact ⟨_, hz, by simp⟩
            | succ j =>
              have := h4 j p (by simpa using hj)
              cases p with
              | num x => simpa using this
              | var v =>
                obtain ⟨y, e1, e2⟩ := this
                exact ⟨y, by rw [← e1]; congr 1; omega, by simpa using e2⟩
        · refine .inr ⟨fun h => h1 fun j v hj => ?_, .num (y0 :: ys)[i] :: qs, ?_⟩
          · have := h (j + 1) v (by simpa using hj); omega
          · unfold evalLoop; simp only [hz, h2]
      · refine .inr ⟨fun h => ?_, .var v :: ps, ?_⟩
        · have := h 0 v (by simp); omega
        · unfold evalLoop
          have hz : (y0 :: ys)[i]? = none := List.getElem?_eq_none (by omega)
          simp only [hz]

end

/-- Only the cache of the qubits of circuit `c` differs. -/
def Touch (c : Nat) (w w' : World K) : Prop :=
  w' = w ∨ ∃ C b', w.circs[c]? = some C ∧ b'.regs = C.q.regs ∧ w' = w.setCirc c { C with q := b' }

theorem flat_regs (ev : EqEnv) (b : Bank) : (b.flat ev).2.regs = b.regs := by
  unfold Bank.flat
  split
  · rfl
  · split <;> rfl

theorem Touch.qubitsOf (c : Nat) (w : World K) : Touch c w (DG.qubitsOf c w).2 := by
  unfold DG.qubitsOf
  split
  · exact .inl rfl
  · next C hC => exact .inr ⟨C, _, hC, flat_regs _ _, rfl⟩

theorem Touch.trans {c : Nat} {w w' w'' : World K} (h : Touch c w w') (h' : Touch c w' w'') : Touch c w w'' := by
  rcases h with rfl | ⟨C, b, hC, hb, rfl⟩
  · exact h'
  · rcases h' with rfl | ⟨C', b', hC', hb', rfl⟩
    · exact .inr ⟨C, b, hC, hb, rfl⟩
    · rw [setCirc_get hC] at hC'
      cases hC'
      exact .inr ⟨C, b', hC, by rw [hb', ← hb], by rw [setCirc_setCirc]⟩

theorem Touch.checkMember (c : Nat) (qs : List Nat) (w : World K) : Touch c w (DG.checkMember c qs w).2 := by
  induction qs generalizing w with
  | nil => exact .inl rfl
  | cons q qs ih =>
    unfold DG.checkMember at ih ⊢
    unfold M.each
    simp only [bind_def, M.raiseIf] at ih ⊢
    have h1 := Touch.qubitsOf c w
    generalize DG.qubitsOf c w = x at h1 ⊢
    obtain ⟨r, w'⟩ := x
    cases r with
    | error e => exact h1
    | ok r =>
      dsimp only at h1 ⊢
      split
      · next heq => split at heq <;> · cases heq; first | exact h1.trans (ih _) | skip
      · next heq => split at heq <;> · cases heq; first | exact h1 | skip

theorem Touch.ops {c : Nat} {w w' : World K} (h : Touch c w w') : w'.ops = w.ops := by
  rcases h with rfl | ⟨C, b, hC, hb, rfl⟩ <;> rfl

theorem opsOf_setCirc {w : World K} {c : Nat} {C C' : Circ} (hC : w.circs[c]? = some C) (c' : Nat) :
    opsOf (w.setCirc c C') c' = if c' = c then C'.ops else opsOf w c' := by
  unfold opsOf World.setCirc
  by_cases h : c' = c
  · subst h
    simp only [if_true]
    rw [List.getElem?_set_self (List.getElem?_eq_some_iff.1 hC).1]
  · simp only [h, if_false]
    rw [List.getElem?_set_ne (fun e => h e.symm)]

theorem opsOf_of_get {w : World K} {c : Nat} {C : Circ} (hC : w.circs[c]? = some C) : opsOf w c = C.ops := by
  unfold opsOf; rw [hC]

theorem Touch.opsOf {c : Nat} {w w' : World K} (h : Touch c w w') (c' : Nat) : opsOf w' c' = opsOf w c' := by
  rcases h with rfl | ⟨C, b, hC, hb, rfl⟩
  · rfl
  · rw [opsOf_setCirc hC]
    split
    · next e => rw [e, opsOf_of_get hC]
    · rfl

variable [DecidableEq K] [Zero K]

/-- The parameters of operation `op` of class `k` after being appended to circuit `C`. -/
def appendedParams (w : World K) (C : Circ) (k : Option OpCls) (op : OpObj K) : List (OpParam K) :=
  match k with
  | some k => if C.parametric = false ∧ k.kind.isParametric = true then op.params.map (OpParam.subst w.varVal) else op.params
  | none => op.params

omit [DecidableEq K] [Zero K] in
/-- The end of `append`. -/
def appendTail (c o : Nat) : M K Unit := do
  let op ← opObj o
  checkMember c (op.qubits.getD [])
  modCirc c fun C => { C with ops := C.ops ++ [o] }

omit [DecidableEq K] [Zero K] in
theorem appendTail_cases {W : World K} {c o : Nat} {C : Circ} {op : OpObj K} (hC : W.circs[c]? = some C) (hop : W.ops[o]? = some op) :
    (∃ e w', appendTail c o W = (.error e, w') ∧ Touch c W w') ∨
    (∃ b', b'.regs = C.q.regs ∧ appendTail c o W = (.ok (), W.setCirc c { C with ops := C.ops ++ [o], q := b' })) := by
  unfold appendTail
  simp only [bind_def, opObj, M.deref, hop]
  have ht := Touch.checkMember c (op.qubits.getD []) W
  generalize DG.checkMember c (op.qubits.getD []) W = x at ht ⊢
  obtain ⟨r, w'⟩ := x
  cases r with
  | error e => exact .inl ⟨e, w', rfl, ht⟩
  | ok _ =>
    dsimp only at ht ⊢
    refine .inr ?_
    rcases ht with rfl | ⟨C', b', hC', hb', rfl⟩
    · refine ⟨C.q, rfl, ?_⟩
      unfold DG.modCirc M.write
      simp only [hC]
    · rw [hC] at hC'; cases hC'
      refine ⟨b', hb', ?_⟩
      unfold DG.modCirc M.write
      simp only [setCirc_get hC, setCirc_setCirc]

omit [DecidableEq K] [Zero K] in
theorem set_params_self {w : World K} {o : Nat} {op : OpObj K} (hop : w.ops[o]? = some op) :
    w = { w with ops := w.ops.set o { op with params := op.params } } := by
  obtain ⟨h, e⟩ := List.getElem?_eq_some_iff.1 hop
  have : w.ops.set o op = w.ops := by rw [← e]; exact List.set_getElem_self h
  cases w
  simp only at this ⊢
  rw [this]

/-- `append` up to evaluation. -/
theorem appendOp_head (c o : Nat) (w : World K) :
    (∃ e w', appendOp c o w = (.error e, w') ∧ (w' = w ∨ ∃ op ps, w.ops[o]? = some op ∧ w' = { w with ops := w.ops.set o { op with params := ps } })) ∨
    (∃ C op, w.circs[c]? = some C ∧ C.locked = false ∧ w.ops[o]? = some op ∧
      (∀ k, C.parametric = false → w.classes[op.cls]? = some k → k.kind.isParametric = true → Evaluates w.varVal op.params) ∧
      appendOp c o w = appendTail c o { w with ops := w.ops.set o { op with params := appendedParams w C w.classes[op.cls]? op } }) := by
  have hdef : appendOp c o w = (circ c >>= fun C => M.raiseIf C.locked .circuitError >>= fun _ =>
    M.whenever (!C.parametric) (evalInPlace o none) >>= fun _ => appendTail c o) w := rfl
  rw [hdef]
  simp only [bind_def, circ, M.deref, M.raiseIf, M.whenever]
  cases hC : w.circs[c]? with
  | none => exact .inl ⟨_, w, rfl, .inl rfl⟩
  | some C =>
    dsimp only
    cases hlock : C.locked with
    | true => exact .inl ⟨_, w, by simp; rfl, .inl rfl⟩
    | false =>
      simp only [Bool.false_eq_true, if_false]
      cases hop : w.ops[o]? with
      | none =>
        refine .inl ⟨.typeError, w, ?_, .inl rfl⟩
        cases hpar : C.parametric with
        | true => simp [appendTail, bind_def, opObj, M.deref, hop]
        | false => simp [evalInPlace, hop]
      | some op =>
        cases hpar : C.parametric with
        | true =>
          refine .inr ⟨C, op, rfl, hlock, rfl, by simp [hpar], ?_⟩
          have : appendedParams w C w.classes[op.cls]? op = op.params := by unfold appendedParams; split <;> simp [hpar]
          rw [this, ← set_params_self hop]
          simp
        | false =>
          simp only [Bool.not_false, if_true]
          unfold evalInPlace
          rw [hop]
          dsimp only
          cases hk : w.classes[op.cls]? with
          | none => exact .inl ⟨_, w, rfl, .inl rfl⟩
          | some k =>
            dsimp only
            cases hkp : k.kind.isParametric with
            | false =>
              refine .inr ⟨C, op, rfl, hlock, rfl, ?_, ?_⟩
              · intro k' _ h1 h2; rw [hk] at h1; cases h1; rw [hkp] at h2; cases h2
              · rw [hk]
                have : appendedParams w C (some k) op = op.params := by simp [appendedParams, hkp]
                rw [this, ← set_params_self hop]
                simp
            | true =>
              simp only [if_true]
              rcases evalLoop_none w.varVal (.inl rfl) 0 op.params with ⟨h1, h2⟩ | ⟨h1, qs, h2⟩
              · rw [h2]
                refine .inr ⟨C, op, rfl, hlock, rfl, fun _ _ _ _ => h1, ?_⟩
                rw [hk]
                simp [appendedParams, hkp, hpar, World.setOp]
              · rw [h2]
                exact .inl ⟨_, _, rfl, .inr ⟨op, qs, rfl, rfl⟩⟩

/-- `append`, all outcomes. -/
theorem appendOp_cases (c o : Nat) (w : World K) :
    (∃ e ops w', appendOp c o w = (.error e, w') ∧ Touch c { w with ops := ops } w' ∧
      (ops = w.ops ∨ ∃ op ps, w.ops[o]? = some op ∧ ops = w.ops.set o { op with params := ps })) ∨
    (∃ C op b', w.circs[c]? = some C ∧ C.locked = false ∧ w.ops[o]? = some op ∧ b'.regs = C.q.regs ∧
      (∀ k, C.parametric = false → w.classes[op.cls]? = some k → k.kind.isParametric = true → Evaluates w.varVal op.params) ∧
      appendOp c o w = (.ok (), { w with
        ops := w.ops.set o { op with params := appendedParams w C w.classes[op.cls]? op }
        circs := w.circs.set c { C with ops := C.ops ++ [o], q := b' } })) := by
  rcases appendOp_head c o w with ⟨e, w', h1, h2⟩ | ⟨C, op, h1, h2, h3, h4, h5⟩
  · rcases h2 with rfl | ⟨op, ps, h2, rfl⟩
    · exact .inl ⟨e, w'.ops, w', h1, .inl rfl, .inl rfl⟩
    · exact .inl ⟨e, _, _, h1, .inl rfl, .inr ⟨op, ps, h2, rfl⟩⟩
  · have hlt := (List.getElem?_eq_some_iff.1 h3).1
    rcases appendTail_cases (W := { w with ops := w.ops.set o { op with params := appendedParams w C w.classes[op.cls]? op } }) (c := c) (o := o) h1
      (List.getElem?_set_self hlt) with ⟨e, w', g1, g2⟩ | ⟨b', g1, g2⟩
    · exact .inl ⟨e, _, w', by rw [h5, g1], g2, .inr ⟨op, _, h3, rfl⟩⟩
    · exact .inr ⟨C, op, b', h1, h2, h3, g1, h4, by rw [h5, g2]; rfl⟩

/-- `append` and lists of operations. -/
theorem appendOp_ops (c o : Nat) (w : World K) :
    (∃ e w', appendOp c o w = (.error e, w') ∧ ∀ c', opsOf w' c' = opsOf w c') ∨
    (∃ w', appendOp c o w = (.ok (), w') ∧ c < w.circs.length ∧ ∀ c', opsOf w' c' = if c' = c then opsOf w c ++ [o] else opsOf w c') := by
  rcases appendOp_cases c o w with ⟨e, ops, w', h1, h2, -⟩ | ⟨C, op, b', h1, -, -, -, -, h5⟩
  · exact .inl ⟨e, w', h1, fun c' => by rw [h2.opsOf]; rfl⟩
  · refine .inr ⟨_, h5, (List.getElem?_eq_some_iff.1 h1).1, fun c' => ?_⟩
    have := opsOf_setCirc (w := { w with ops := w.ops.set o { op with params := appendedParams w C w.classes[op.cls]? op } }) (c := c)
      (C' := { C with ops := C.ops ++ [o], q := b' }) h1 c'
    rw [opsOf_of_get h1]
    exact this

end DG
