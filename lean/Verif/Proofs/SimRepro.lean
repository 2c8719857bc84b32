import Verif.Proofs.SimDensity

/-! # Reproducibility: two runs with the same random numbers -/

namespace DG.Sim
open Complex Spec Kernel Props

/-- Bits with some of them overwritten. -/
def overlay (ov base : Nat → Option Bool) (b : Nat) : Option Bool := (ov b).or (base b)

/-- Two results agree: the same error, or the same state, the same number of random numbers used and the same bits
written. `W`: bits that are written for sure. -/
def Same (bits bits' : Nat → Option Bool) (W : Set Nat) (r r' : Except Err World) : Prop :=
  (∃ e, r = .error e ∧ r' = .error e) ∨
  ∃ v v' ov, r = .ok v ∧ r' = .ok v' ∧ v.mem = v'.mem ∧ v.drawn = v'.drawn ∧ v.bits = overlay ov bits ∧
    v'.bits = overlay ov bits' ∧ ∀ b ∈ W, (ov b).isSome

theorem overlay_none (b : Nat → Option Bool) : overlay (fun _ => none) b = b := rfl

theorem same_bind {α : Type} {b b' : Nat → Option Bool} {W : Set Nat} (x : Except Err α) {f g : α → Except Err World}
    (h : ∀ a, Same b b' W (f a) (g a)) : Same b b' W (x >>= f) (x >>= g) := by
  cases x with
  | error e => exact .inl ⟨e, rfl, rfl⟩
  | ok a => exact h a

theorem same_error {b b' : Nat → Option Bool} {W : Set Nat} (e : Err) : Same b b' W (.error e) (.error e) :=
  .inl ⟨e, rfl, rfl⟩

theorem same_ok {w w' : World} (h1 : w.mem = w'.mem) (h2 : w.drawn = w'.drawn) :
    Same w.bits w'.bits ∅ (.ok w) (.ok w') :=
  .inr ⟨w, w', fun _ => none, rfl, rfl, h1, h2, rfl, rfl, by simp⟩

theorem same_mem {w w' : World} (h2 : w.drawn = w'.drawn) (mem : List ℂ) :
    Same w.bits w'.bits ∅ (pure { w with mem := mem }) (pure { w' with mem := mem }) :=
  .inr ⟨_, _, fun _ => none, rfl, rfl, rfl, h2, rfl, rfl, by simp⟩

theorem overlay_update (ov base : Nat → Option Bool) (b : Nat) (m : Bool) :
    overlay ov (Function.update base b (some m)) =
      overlay (fun b' => if b' = b then some ((ov b).getD m) else ov b') base := by
  funext b'
  by_cases h : b' = b
  · subst h
    simp only [overlay, Function.update_self, if_true]
    cases ov b' <;> rfl
  · simp [overlay, h]

theorem same_measureLoop (u : Nat → ℝ) (op : SOp) : ∀ (ts : List Nat) (idx : Nat) (w w' : World),
    w.mem = w'.mem → w.drawn = w'.drawn →
    Same w.bits w'.bits { b | b ∈ ((op.bits.getD []).drop idx).take ts.length } (measureLoop u op ts idx w)
      (measureLoop u op ts idx w')
  | [], idx, w, w', h1, h2 => by
    have := same_ok h1 h2
    simpa [measureLoop] using this
  | t :: ts, idx, w, w', h1, h2 => by
    unfold measureLoop
    rw [h1, h2]
    refine same_bind _ (fun r => ?_)
    obtain ⟨m, mem⟩ := r
    dsimp only
    have ih := same_measureLoop u op ts (idx + 1)
      { mem := mem, bits := storeBit op.bits idx m w.bits, drawn := w'.drawn + 1,
        records := Function.update w.records op.oid { (w.records op.oid) with indices := (w.records op.oid).indices ++ [t] } }
      { mem := mem, bits := storeBit op.bits idx m w'.bits, drawn := w'.drawn + 1,
        records := Function.update w'.records op.oid { (w'.records op.oid) with indices := (w'.records op.oid).indices ++ [t] } }
      rfl rfl
    rcases ih with ⟨e, e1, e2⟩ | ⟨v, v', ov, e1, e2, e3, e4, e5, e6, e7⟩
    · exact .inl ⟨e, e1, e2⟩
    · dsimp only at e5 e6
      rcases Option.eq_none_or_eq_some op.bits with hb | ⟨bs, hb⟩
      ·
        refine .inr ⟨v, v', ov, e1, e2, e3, e4, ?_, ?_, ?_⟩
        · rw [e5]; simp [storeBit, hb]
        · rw [e6]; simp [storeBit, hb]
        · simp [hb]
      ·
        cases hi : bs[idx]? with
        | none =>
          refine .inr ⟨v, v', ov, e1, e2, e3, e4, ?_, ?_, ?_⟩
          · rw [e5]; simp [storeBit, hb, hi]
          · rw [e6]; simp [storeBit, hb, hi]
          · have : bs.drop idx = [] := by rw [List.drop_eq_nil_iff]; exact List.getElem?_eq_none_iff.1 hi
            simp [this, hb]
        | some b =>
          refine .inr ⟨v, v', fun b' => if b' = b then some ((ov b).getD (decide (m ≠ 0))) else ov b', e1, e2, e3, e4, ?_, ?_, ?_⟩
          · rw [e5]; simp only [storeBit, hb, hi]; exact overlay_update _ _ _ _
          · rw [e6]; simp only [storeBit, hb, hi]; exact overlay_update _ _ _ _
          · intro b' hb'
            simp only [Set.mem_setOf_eq, hb, Option.getD_some, List.length_cons] at hb'
            by_cases hbb : b' = b
            · simp [hbb]
            · simp only [if_neg hbb]
              apply e7
              have hlt : idx < bs.length := by
                rw [List.getElem?_eq_some_iff] at hi; exact hi.1
              have hd : bs.drop idx = b :: bs.drop (idx + 1) := by
                rw [List.drop_eq_getElem_cons hlt]
                rw [List.getElem?_eq_getElem hlt] at hi
                rw [Option.some.inj hi]
              rw [hd, List.take_succ_cons, List.mem_cons] at hb'
              simp only [Set.mem_setOf_eq, hb, Option.getD_some]
              exact hb'.resolve_left hbb

theorem same_apply (u : Nat → ℝ) (n : Nat) (op : SOp) (ts : List Nat) (le cj : Bool) {w w' : World}
    (h1 : w.mem = w'.mem) (h2 : w.drawn = w'.drawn) (hb : isBlocked op w.bits = isBlocked op w'.bits) :
    Same w.bits w'.bits { b | op.kind = .measurement ∧ op.cond = none ∧ b ∈ (op.bits.getD []).take ts.length }
      (applyInstruction u n op ts le cj w) (applyInstruction u n op ts le cj w') := by
  unfold applyInstruction
  rw [← hb]
  by_cases hbl : isBlocked op w.bits = true
  · rw [if_pos hbl, if_pos hbl]
    have hc : ∀ b, ¬ (op.kind = .measurement ∧ op.cond = none ∧ b ∈ (op.bits.getD []).take ts.length) := by
      rintro b ⟨_, h, _⟩
      simp [isBlocked, h] at hbl
    simp only [hc, Set.setOf_false]
    exact same_ok h1 h2
  · rw [if_neg hbl, if_neg hbl]
    cases hk : op.kind with
    | measurement =>
      cases le with
      | true => exact same_error _
      | false =>
        simp only [Bool.false_eq_true, if_false]
        unfold measure
        have := same_measureLoop u op ts 0
          { w with records := Function.update w.records op.oid { (w.records op.oid) with state := some w.mem } }
          { w' with records := Function.update w'.records op.oid { (w'.records op.oid) with state := some w'.mem } } h1 h2
        rcases this with h | ⟨v, v', ov, e1, e2, e3, e4, e5, e6, e7⟩
        · exact .inl h
        · refine .inr ⟨v, v', ov, e1, e2, e3, e4, e5, e6, ?_⟩
          rintro b ⟨_, _, hb'⟩
          exact e7 b (by simpa using hb')
    | swap =>
      simp only [reduceCtorEq, false_and, Set.setOf_false]
      rw [h1]
      exact same_bind _ fun _ => same_bind _ fun _ => same_bind _ fun _ => same_mem h2 _
    | cswap =>
      simp only [reduceCtorEq, false_and, Set.setOf_false]
      rw [h1]
      exact same_bind _ fun _ => same_bind _ fun _ => same_bind _ fun _ => same_bind _ fun _ => same_mem h2 _
    | ccx =>
      simp only [reduceCtorEq, false_and, Set.setOf_false]
      rw [h1]
      exact same_bind _ fun _ => same_bind _ fun _ => same_bind _ fun _ => same_bind _ fun _ => same_mem h2 _
    | controlled nc b =>
      simp only [reduceCtorEq, false_and, Set.setOf_false]
      refine same_bind _ fun _ => ?_
      split
      · rw [h1]; exact same_bind _ fun _ => same_bind _ fun _ => same_bind _ fun _ => same_mem h2 _
      · split
        · rw [h1]
          exact same_bind _ fun _ => same_bind _ fun _ => same_bind _ fun _ => same_bind _ fun _ => same_mem h2 _
        · exact same_ok h1 h2
    | single b =>
      simp only [reduceCtorEq, false_and, Set.setOf_false]
      rw [h1]
      exact same_bind _ fun _ => same_bind _ fun _ => same_bind _ fun _ => same_mem h2 _
    | barrier =>
      simp only
      split
      · exact same_error _
      · split <;> exact same_error _
    | «opaque» => exact same_error _

theorem isBlocked_congr (op : SOp) {bits bits' : Nat → Option Bool} (h : ∀ bs, op.cond = some bs → ∀ b ∈ bs, bits b = bits' b) :
    isBlocked op bits = isBlocked op bits' := by
  unfold isBlocked
  split
  · rfl
  · rfl
  · rename_i b bs hc
    have h' := h _ hc
    congr 1
    rw [Bool.eq_iff_iff, List.all_eq_true, List.all_eq_true]
    constructor
    · intro hh x hx; rw [← h' x hx]; exact hh x hx
    · intro hh x hx; rw [h' x hx]; exact hh x hx

theorem targetsOf_length {c : SCircuit} {op : SOp} {ts : List Nat} (h : targetsOf c op = .ok ts) : ts.length = op.qubits.length := by
  unfold targetsOf at h
  generalize op.qubits = qs at h
  induction qs generalizing ts with
  | nil => cases h; rfl
  | cons q qs ih =>
    rw [List.mapM_cons] at h
    split at h
    · rw [ok_bind] at h
      cases hr : qs.mapM (fun q => if q ∈ c.qubits then (.ok (c.qubits.idxOf q) : Except Err Nat) else .error .valueError) with
      | error e => rw [hr, err_bind] at h; cases h
      | ok r => rw [hr, ok_bind] at h; cases h; simp [ih hr]
    · rw [err_bind] at h; cases h

theorem same_loop (u : Nat → ℝ) (c : SCircuit) (le : Bool) : ∀ (ops : List SOp) (D : Set Nat), ReadsWritten D ops →
    ∀ w w' : World, w.mem = w'.mem → w.drawn = w'.drawn → (∀ b ∈ D, w.bits b = w'.bits b) →
    Same w.bits w'.bits ∅
      (ops.foldlM (fun w op => do
        let targets ← targetsOf c op
        applyInstruction u c.qubits.length op targets le false w) w)
      (ops.foldlM (fun w op => do
        let targets ← targetsOf c op
        applyInstruction u c.qubits.length op targets le false w) w')
  | [], D, _, w, w', h1, h2, _ => same_ok h1 h2
  | op :: ops, D, hr, w, w', h1, h2, h3 => by
    cases hr with
    | cons hc hrest =>
      rw [List.foldlM_cons, List.foldlM_cons]
      cases ht : targetsOf c op with
      | error e => rw [err_bind, err_bind, err_bind]; exact same_error _
      | ok ts =>
        rw [ok_bind, ok_bind]
        have hl := targetsOf_length ht
        have hb := isBlocked_congr op (bits := w.bits) (bits' := w'.bits) (fun bs hbs b hb => h3 b (hc bs hbs b hb))
        rcases same_apply u c.qubits.length op ts le false h1 h2 hb with ⟨e, e1, e2⟩ | ⟨v, v', ov, e1, e2, e3, e4, e5, e6, e7⟩
        · rw [e1, e2, err_bind]; exact same_error _
        · rw [e1, e2, ok_bind, ok_bind]
          have ih := same_loop u c le ops _ hrest v v' e3 e4 (by
            intro b hb'
            rw [e5, e6]
            rcases hb' with hb' | hb'
            · simp only [overlay, h3 b hb']
            · have := e7 b (by rw [hl]; exact hb')
              obtain ⟨m, hm⟩ := Option.isSome_iff_exists.1 this
              simp [overlay, hm])
          rcases ih with h | ⟨y, y', ov', f1, f2, f3, f4, f5, f6, _⟩
          · exact .inl h
          · refine .inr ⟨y, y', overlay ov' ov, f1, f2, f3, f4, ?_, ?_, by simp⟩
            · rw [f5, e5]; funext b; simp only [overlay, Option.or_assoc]
            · rw [f6, e6]; funext b; simp only [overlay, Option.or_assoc]

/-- Simulating again with the same random numbers. -/
theorem simulate_again (u : Nat → ℝ) (c : SCircuit) (le : Bool) (hr : ReadsWritten ∅ c.ops) (bits : Nat → Option Bool)
    (records records' : Nat → Record) {w : World} (h : simulate u c le bits records = .ok (some w)) :
    ∃ w', simulate u c le w.bits records' = .ok (some w') ∧ w'.mem = w.mem ∧ w'.bits = w.bits := by
  unfold simulate at h ⊢
  split at h
  · cases h
  · rename_i hn
    rw [if_neg hn]
    have hs := same_loop u c le c.ops ∅ hr
      { mem := initialState c.qubits.length, bits := bits, drawn := 0, records := records }
      { mem := initialState c.qubits.length, bits := w.bits, drawn := 0, records := records' } rfl rfl (by simp)
    rcases hs with ⟨e, e1, e2⟩ | ⟨v, v', ov, e1, e2, e3, e4, e5, e6, _⟩
    · unfold loop at h
      rw [e1, err_bind] at h
      cases h
    · unfold loop at h ⊢
      rw [e1, ok_bind] at h
      rw [e2, ok_bind]
      cases ha : assertState c.qubits.length v.mem with
      | error e => rw [ha, err_bind] at h; cases h
      | ok a =>
        rw [ha, ok_bind] at h
        have : v = w := by cases h; rfl
        subst this
        refine ⟨v', ?_, e3.symm, ?_⟩
        · rw [← e3, ha, ok_bind]; rfl
        · rw [e6]
          dsimp only
          rw [e5]
          dsimp only
          funext b
          simp only [overlay]
          cases ov b <;> rfl

end DG.Sim
