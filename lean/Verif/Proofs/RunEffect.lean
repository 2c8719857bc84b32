import Verif.Proofs.Run
import Verif.Proofs.BitVals

/-! The effect of a simulation on the state of the program. -/

noncomputable section

namespace DG
open Spec Sim

/-- Storing the values bits have. -/
theorem withValues_same {w : World ℝ} (h : BitVals w) : withValues w (bitValue w) = w.bits := by
  unfold withValues
  apply List.ext_getElem?
  intro i
  rw [List.getElem?_mapIdx]
  rcases hb : w.bits[i]? with _ | b
  · rfl
  · simp only [Option.map_some, bitValue, hb]
    congr 1
    obtain ⟨l, v⟩ := b
    have := h.vals _ (mem_of_get? hb)
    rcases this with e | e | e <;> (dsimp only at e; subst e; simp)

/-- Bits with a value keep having one. -/
def Keeps (f g : Nat → Option Bool) : Prop := ∀ b, f b ≠ none → g b ≠ none

theorem keeps_storeBit (bits : Option (List Nat)) (idx : Nat) (m : Int) (vals : Nat → Option Bool) : Keeps vals (storeBit bits idx m vals) := by
  intro b hb
  rcases bits with _ | bs
  · exact hb
  · rcases hi : bs[idx]? with _ | b'
    · simpa [storeBit, hi] using hb
    · by_cases e : b = b'
      · subst e; simp [storeBit, hi]
      · simpa [storeBit, hi, Function.update_of_ne e] using hb

theorem keeps_measureLoop (u : Nat → ℝ) (op : SOp) : ∀ (ts : List Nat) (idx : Nat) (w w' : Sim.World),
    measureLoop u op ts idx w = .ok w' → Keeps w.bits w'.bits
  | [], _, w, w', h => by
    cases h
    exact fun b hb => hb
  | t :: ts, idx, w, w', h => by
    simp only [measureLoop] at h
    rcases hs : sampleQubit t w.mem (u w.drawn) true false with e | ⟨m, mem⟩
    · rw [hs] at h; simp [bind, Except.bind] at h
    · rw [hs] at h
      simp only [bind, Except.bind] at h
      have := keeps_measureLoop u op ts _ _ _ h
      intro b hb
      exact this b (keeps_storeBit op.bits idx m w.bits b hb)

theorem bits_bind {α : Type} {m : Except Err α} {f : α → Except Err Sim.World} {w w' : Sim.World} (hf : ∀ a w', f a = .ok w' → Keeps w.bits w'.bits)
    (h : m >>= f = .ok w') : Keeps w.bits w'.bits := by
  rcases m with e | a
  · cases h
  · exact hf a w' h

theorem keeps_pure {w w' : Sim.World} {mem : List ℂ} (h : (pure { w with mem := mem } : Except Err Sim.World) = .ok w') : Keeps w.bits w'.bits := by
  cases h
  exact fun b hb => hb

theorem keeps_apply (u : Nat → ℝ) (n : Nat) (op : SOp) (ts : List Nat) (le cj : Bool) (w w' : Sim.World)
    (h : applyInstruction u n op ts le cj w = .ok w') : Keeps w.bits w'.bits := by
  unfold applyInstruction at h
  split at h
  · cases h; exact fun b hb => hb
  split at h
  · split at h
    · cases h
    · exact keeps_measureLoop u op ts 0 { w with records := Function.update w.records op.oid { (w.records op.oid) with state := some w.mem } } _ h
  all_goals try (cases h; done)
  · exact bits_bind (fun _ _ h => bits_bind (fun _ _ h => bits_bind (fun _ _ h => keeps_pure h) h) h) h
  · exact bits_bind (fun _ _ h => bits_bind (fun _ _ h => bits_bind (fun _ _ h => bits_bind (fun _ _ h => keeps_pure h) h) h) h) h
  · exact bits_bind (fun _ _ h => bits_bind (fun _ _ h => bits_bind (fun _ _ h => bits_bind (fun _ _ h => keeps_pure h) h) h) h) h
  · refine bits_bind (fun _ _ h => ?_) h
    split at h
    · exact bits_bind (fun _ _ h => bits_bind (fun _ _ h => bits_bind (fun _ _ h => keeps_pure h) h) h) h
    · split at h
      · exact bits_bind (fun _ _ h => bits_bind (fun _ _ h => bits_bind (fun _ _ h => bits_bind (fun _ _ h => keeps_pure h) h) h) h) h
      · cases h; exact fun b hb => hb
  · exact bits_bind (fun _ _ h => bits_bind (fun _ _ h => bits_bind (fun _ _ h => keeps_pure h) h) h) h
  · split at h
    · cases h
    · split at h <;> cases h

theorem keeps_loop (u : Nat → ℝ) (c : SCircuit) (le : Bool) : ∀ (ops : List SOp) (w w' : Sim.World),
    ops.foldlM (fun w op => do
      let targets ← targetsOf c op
      applyInstruction u c.qubits.length op targets le false w) w = .ok w' → Keeps w.bits w'.bits
  | [], w, w', h => by
    cases h; exact fun b hb => hb
  | op :: ops, w, w', h => by
    rw [List.foldlM_cons] at h
    rcases hm : (do
      let targets ← targetsOf c op
      applyInstruction u c.qubits.length op targets le false w) with e | w1
    · rw [hm] at h; cases h
    · rw [hm] at h
      have h1 : Keeps w.bits w1.bits := bits_bind (fun _ _ h => keeps_apply _ _ _ _ _ _ _ _ h) hm
      have h2 := keeps_loop u c le ops w1 w' h
      exact fun b hb => h2 b (h1 b hb)

theorem keeps_simulate {u : Nat → ℝ} {c : SCircuit} {le : Bool} {bits : Nat → Option Bool} {records : Nat → Record} {s : Sim.World}
    (h : simulate u c le bits records = .ok (some s)) : Keeps bits s.bits := by
  unfold simulate at h
  split at h
  · cases h
  · rcases hm : loop u c le { mem := initialState c.qubits.length, bits := bits, drawn := 0, records := records } with e | w1
    · rw [hm] at h; cases h
    · rw [hm] at h
      have h1 := keeps_loop u c le c.ops _ _ hm
      simp only [bind, Except.bind] at h
      split at h
      · cases h
      · cases h; exact h1

/-- Calls of `bit.set` that store values. -/
theorem storing (vals : Nat → Option Bool) : ∀ (w : World ℝ) (n : Nat), n ≤ w.bits.length → (∀ (i : Nat) (b : BitObj), w.bits[i]? = some b → b.value ≠ none → vals i ≠ none) →
    ∃ q : Prog ℝ, (q.All fun e => ∃ b v, e = .setBit b v true) ∧
      q.run w = (.ok (), { w with bits := w.bits.mapIdx fun i b => if i < n then { b with value := (vals i).map fun v => if v then 1 else 0 } else b })
  | w, 0, _, _ => ⟨.skip, trivial, by
      have : (w.bits.mapIdx fun i b => if i < 0 then ({ b with value := (vals i).map fun v => if v then 1 else 0 } : BitObj) else b) = w.bits := by
        apply List.ext_getElem?
        intro i
        simp
      rw [this]
      rfl⟩
  | w, n + 1, hn, hv => by
    obtain ⟨q, h1, h2⟩ := storing vals w n (by omega) hv
    have hlt : n < w.bits.length := hn
    rcases hvn : vals n with _ | v
    · refine ⟨q, h1, ?_⟩
      rw [h2]
      congr 2
      apply List.ext_getElem?
      intro i
      rw [List.getElem?_mapIdx, List.getElem?_mapIdx]
      rcases hb : w.bits[i]? with _ | b
      · rfl
      · simp only [Option.map_some]
        congr 1
        by_cases e : i = n
        · subst e
          have : b.value = none := by
            by_contra hne
            exact hv i b hb hne hvn
          obtain ⟨l, x⟩ := b
          dsimp only at this
          subst this
          simp [hvn]
        · have : i < n ↔ i < n + 1 := by omega
          simp only [this]
    · refine ⟨.seq q (.call (.setBit n v true)), ⟨h1, _, _, rfl⟩, ?_⟩
      simp only [Prog.run, bind, M.bind, h2, execCall, setBit]
      have hg : ∀ f : Nat → BitObj → BitObj, (w.bits.mapIdx f)[n]? = some (f n w.bits[n]) := by
        intro f
        rw [List.getElem?_mapIdx, List.getElem?_eq_getElem hlt]
        rfl
      rw [hg]
      dsimp only [BitState.set]
      simp only [Bool.not_true, Bool.and_false, Bool.false_eq_true, if_false, lt_irrefl]
      congr 2
      apply List.ext_getElem?
      intro i
      rw [List.getElem?_set, List.getElem?_mapIdx, List.getElem?_mapIdx, List.length_mapIdx]
      by_cases e : n = i
      · subst e
        simp [hlt, hvn]
      · rw [if_neg e]
        have : i < n ↔ i < n + 1 := by omega
        simp only [this]

theorem bits_qubitsOf (c : Nat) (w : World ℝ) : (qubitsOf c w).2.bits = w.bits := by
  unfold qubitsOf
  split <;> rfl

theorem simulate_effect {u : Nat → ℝ} {c : Nat} {le : Bool} {records : Nat → Record} {w w' : World ℝ} {r}
    (h : simulateCirc u c le records w = (.ok r, w')) :
    ∃ q : Prog ℝ, (q.All fun e => e = .readQubits c ∨ ∃ b v, e = .setBit b v true) ∧ q.run w = (.ok (), w') := by
  unfold simulateCirc at h
  simp only [bind, M.bind] at h
  rcases hq : qubitsOf c w with ⟨e | rr, w1⟩
  · rw [hq] at h; cases h
  have hread : (Prog.call (Call.readQubits c) : Prog ℝ).run w = (.ok (), w1) := by
    simp only [Prog.run, execCall, M.void, hq]
  rw [hq] at h
  dsimp only at h
  have hcirc : ∀ w2 x, circ c w1 = (x, w2) → w2 = w1 := by
    intro w2 x hx
    unfold circ M.deref at hx
    split at hx <;> cases hx <;> rfl
  rcases hc : circ c w1 with ⟨e | C, w2⟩
  · rw [hc] at h; cases h
  obtain rfl := hcirc _ _ hc
  rw [hc] at h
  dsimp only [M.read, id] at h
  have one : ∀ w'', (Prog.call (Call.readQubits c) : Prog ℝ).run w = (.ok (), w'') →
      ∃ q : Prog ℝ, (q.All fun e => e = .readQubits c ∨ ∃ b v, e = .setBit b v true) ∧ q.run w = (.ok (), w'') :=
    fun w'' hw => ⟨.call (.readQubits c), Or.inl rfl, hw⟩
  rcases hi : rr.cy.iter with e | items
  · rw [hi] at h; cases h
  rw [hi] at h
  dsimp only at h
  rcases hqs : Run.qubits items with e | qs
  · rw [hqs] at h; cases h
  rw [hqs] at h
  rcases qs with _ | ⟨q0, qs⟩
  · cases h; exact one _ hread
  rcases hops : Run.ops w2 C.ops with e | os
  · rw [hops] at h; cases h
  rw [hops] at h
  dsimp only at h
  split at h
  · cases h
  rcases hs : simulate u ⟨q0 :: qs, os⟩ le (Run.bitValues w2) records with e | (_ | s)
  · rw [hs] at h; cases h
  · rw [hs] at h; cases h; exact one _ hread
  · rw [hs] at h
    have hk := keeps_simulate hs
    obtain ⟨q, g1, g2⟩ := storing s.bits w2 w2.bits.length le_rfl (by
      intro i b hb hv
      apply hk i
      unfold Run.bitValues
      rw [hb]
      simpa using hv)
    refine ⟨.seq (.call (.readQubits c)) q, ⟨.inl rfl, g1.imp fun e he => .inr he⟩, ?_⟩
    simp only [Prog.run, bind, M.bind]
    have hread' := hread
    simp only [Prog.run] at hread'
    rw [hread']
    dsimp only
    rw [g2]
    cases h
    congr 2
    unfold Run.storeValues
    apply List.ext_getElem?
    intro i
    rw [List.getElem?_mapIdx, List.getElem?_mapIdx]
    rcases hb : w2.bits[i]? with _ | b
    · rfl
    · have := (List.getElem?_eq_some_iff.1 hb).1
      simp [this]

end DG
