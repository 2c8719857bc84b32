import Verif.Props.RefusedItems

/-!
# C124 — exactly what failing calls of `reset`, `add_qubit` and `add_bit` leave behind

A failing `reset` has removed the operations and changed nothing else of its circuit.  A failing `add_qubit` or `add_bit` leaves at most one new register, and that register is empty.
-/

namespace DG.Props
open DG.Spec
variable {K : Type}

theorem set_new (rs : PyDict RLabel Reg) (l : RLabel) (r : Reg) (h : rs.contains l = false) : rs.set l r = rs ++ [(l, r)] := by
  unfold PyDict.contains at h
  induction rs with
  | nil => rfl
  | cons p rs ih =>
    obtain ⟨k, v⟩ := p
    simp only [PyDict.get?] at h
    simp only [PyDict.set]
    by_cases hk : k = l
    · rw [if_pos hk] at h
      cases h
    · rw [if_neg hk] at h ⊢
      rw [ih h]
      rfl

theorem addRegister_ok {ev : EqEnv} {b b' : Bank} {pre : String} {l : Option RLabel} {k : Nat} {x : List RLabel} (h : b.addRegister ev pre 0 l k = (.ok x, b')) :
    PerhapsEmpty b.regs b'.regs := by
  unfold Bank.addRegister at h
  dsimp only at h
  have hs := size_regs ev b
  cases l <;> dsimp only at h <;> split at h <;> first
    | (cases h; done)
    | (rename_i hc
       rcases hz : b.size ev with ⟨e' | k', b1⟩ <;> rw [hz] at h hs <;> dsimp only at h hs
       · cases h
       · cases h
         right
         refine ⟨_, by simpa using hc, ?_⟩
         rw [hs]
         exact set_new _ _ _ (by simpa using hc))

theorem chooseRegister_regs (ev : EqEnv) (b : Bank) (pre : String) (l : Option RLabel) (k : Nat) : PerhapsEmpty b.regs (b.chooseRegister ev pre l k).2.regs := by
  unfold Bank.chooseRegister
  split
  · split
    · exact Or.inl rfl
    · split
      · rename_i h; exact Or.inl (addRegister_error h)
      · rename_i h; exact addRegister_ok h
  · split
    · exact Or.inl rfl
    · split
      · rename_i h; exact Or.inl (addRegister_error h)
      · rename_i h
        split <;> exact addRegister_ok h

theorem addItem_error_any {ev : EqEnv} {b b' : Bank} {pre : String} {g : Option (Nat × Bool)} {l : Option RLabel} {k : Nat} {e : Err}
    (h : b.addItem ev pre g l k = (.error e, b')) : PerhapsEmpty b.regs b'.regs := by
  have h0 := chooseRegister_regs ev b pre l k
  unfold Bank.addItem at h
  rcases hy : b.chooseRegister ev pre l k with ⟨e' | L, b1⟩ <;> rw [hy] at h h0 <;> dsimp only at h h0
  · cases h
    exact h0
  · have hf := flat_regs ev b1
    rcases hz : b1.flat ev with ⟨e' | all, b2⟩ <;> rw [hz] at h hf <;> dsimp only at h hf
    · cases h
      rwa [hf]
    · by_cases hh : Bank.holds all (g.map Prod.fst) = true
      · rw [if_pos hh] at h
        cases h
        rwa [hf]
      · rw [if_neg hh] at h
        split at h <;> split at h <;> first | (cases h; done) | (rename_i hs; cases h; rw [store_error hs, hf]; exact h0)

variable [DecidableEq K] [Zero K]

/-- C124: a failing `circuit.add_qubit` changes nothing of its circuit, but may leave a new empty quantum register. -/
theorem C124_add_qubit_any_partial (w : World K) (c : Nat) (q : Given) (l : Option RLabel) {C : Circ} (hC : w.circs[c]? = some C) {x : Err}
    (hx : (execCall (.addQubit c q l) w).1 = .error x) :
    ∃ b : Bank, PerhapsEmpty C.q.regs b.regs ∧ ((execCall (.addQubit c q l) w).2.circs[c]?).map sees = some (sees { C with q := b }) := by
  have hlt : c < w.circs.length := (List.getElem?_eq_some_iff.1 hC).1
  have same : ∃ b : Bank, PerhapsEmpty C.q.regs b.regs ∧ (w.circs[c]?).map sees = some (sees { C with q := b }) := ⟨C.q, Or.inl rfl, by rw [hC]; rfl⟩
  simp only [execCall, addQubit, hC] at hx ⊢
  cases q with
  | other => exact same
  | none =>
    dsimp only at hx ⊢
    rcases hr : C.q.addItem qubitEnv "qreg" none l w.qubits.length with ⟨e' | new, b⟩
    · exact ⟨b, addItem_error_any hr, by simp [World.setCirc, hlt]⟩
    · rw [hr] at hx
      cases hx
  | item k =>
    dsimp only at hx ⊢
    cases hk : w.qubits[k]? with
    | none => exact same
    | some v =>
      rw [hk] at hx
      dsimp only at hx ⊢
      rcases hr : C.q.addItem qubitEnv "qreg" (some (k, true)) l w.qubits.length with ⟨e' | new, b⟩
      · exact ⟨b, addItem_error_any hr, by simp [World.setCirc, hlt]⟩
      · rw [hr] at hx
        cases hx

/-- C124: a failing `circuit.add_bit` changes nothing of its circuit, but may leave a new empty classical register. -/
theorem C124_add_bit_any_partial (w : World K) (c : Nat) (q : Given) (l : Option RLabel) {C : Circ} (hC : w.circs[c]? = some C) {x : Err}
    (hx : (execCall (.addBit c q l) w).1 = .error x) :
    ∃ b : Bank, PerhapsEmpty C.c.regs b.regs ∧ ((execCall (.addBit c q l) w).2.circs[c]?).map sees = some (sees { C with c := b }) := by
  have hlt : c < w.circs.length := (List.getElem?_eq_some_iff.1 hC).1
  have same : ∃ b : Bank, PerhapsEmpty C.c.regs b.regs ∧ (w.circs[c]?).map sees = some (sees { C with c := b }) := ⟨C.c, Or.inl rfl, by rw [hC]; rfl⟩
  simp only [execCall, addBit, hC] at hx ⊢
  cases q with
  | other => exact same
  | none =>
    dsimp only at hx ⊢
    rcases hr : C.c.addItem w.bitEnv "creg" none l w.bits.length with ⟨e' | new, b⟩
    · exact ⟨b, addItem_error_any hr, by simp [World.setCirc, hlt]⟩
    · rw [hr] at hx
      cases hx
  | item k =>
    dsimp only at hx ⊢
    cases hk : w.bits[k]? with
    | none => exact same
    | some v =>
      rw [hk] at hx
      dsimp only at hx ⊢
      rcases hr : C.c.addItem w.bitEnv "creg" (some (k, BitState.bool ⟨v.value⟩)) l w.bits.length with ⟨e' | new, b⟩
      · exact ⟨b, addItem_error_any hr, by simp [World.setCirc, hlt]⟩
      · rw [hr] at hx
        cases hx

/-- C124: a failing `circuit.reset()` has removed the operations; registers, lock and parameter register are as before. -/
theorem C124_reset_partial (w : World K) (c : Nat) (keep : Bool) {C : Circ} (hC : w.circs[c]? = some C) {x : Err} (hx : (execCall (.reset c keep) w).1 = .error x) :
    ((execCall (.reset c keep) w).2.circs[c]?).map sees = some (sees { C with ops := [] }) := by
  have hlt : c < w.circs.length := (List.getElem?_eq_some_iff.1 hC).1
  simp only [execCall, resetCirc, bind_def, circ, M.deref, hC, modCirc, M.write] at hx ⊢
  have h0 : Keep c (sees { C with ops := [] }) w.active w.ctxs (w.setCirc c { C with ops := [], ctx := none }) := by
    refine ⟨?_, rfl, rfl⟩
    simp [World.setCirc, hlt, sees]
  cases keep with
  | false => simp [resetRegisters, modCirc, M.write, unlockCirc] at hx
  | true =>
    have key : Pres (Keep (K := K) c (sees { C with ops := [] }) w.active w.ctxs) (resetBits c) := by
      refine pres_bind (keep_bitsOf _) fun r => ?_
      split
      · exact pres_raise _
      · exact pres_each fun i => keep_resetItem i
    have h1 := key _ h0
    simp only [resetRegisters] at hx ⊢
    rcases hr : resetBits c (w.setCirc c { C with ops := [], ctx := none }) with ⟨e' | u, w'⟩
    · rw [hr] at h1
      exact h1.1
    · rw [hr] at hx
      simp [unlockCirc, modCirc, M.write] at hx

end DG.Props
