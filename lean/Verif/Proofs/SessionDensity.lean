import Verif.Proofs.SessionFails
import Verif.Proofs.SimExtra

/-! Density-matrix simulations in programs. -/

noncomputable section

namespace DG
open Spec Run Sim

/-- One operation of the density-matrix simulation of `Model/Simulator.lean`, on `qs`. -/
def densityBody (u : Nat → ℝ) (qs : List Nat) (v : Sim.World) (p : SOp) : Except Err Sim.World := do
  let targets ← targetsOf ⟨qs, []⟩ p
  let v1 ← applyInstruction u (2 * qs.length) p targets false false v
  applyInstruction u (2 * qs.length) p (targets.map (· + qs.length)) false true v1

theorem densityLoop_body (u : Nat → ℝ) (qs : List Nat) (all : List SOp) : ∀ (S : List SOp), (∀ p ∈ S, p.kind ≠ .measurement) → ∀ v,
    S.foldlM (fun w op => do
      match op.kind with
      | .measurement => .error .typeError
      | _ =>
        let targets ← targetsOf ⟨qs, all⟩ op
        let w1 ← applyInstruction u (2 * qs.length) op targets false false w
        applyInstruction u (2 * qs.length) op (targets.map (· + qs.length)) false true w1) v = S.foldlM (densityBody u qs) v
  | [], _, v => rfl
  | p :: S, h, v => by
    rw [List.foldlM_cons, List.foldlM_cons]
    have hk := h p (by simp)
    have : (match p.kind with
      | .measurement => (.error .typeError : Except Err Sim.World)
      | _ => do
        let targets ← targetsOf ⟨qs, all⟩ p
        let w1 ← applyInstruction u (2 * qs.length) p targets false false v
        applyInstruction u (2 * qs.length) p (targets.map (· + qs.length)) false true w1) = densityBody u qs v p := by
      split
      · exact absurd (by assumption) hk
      · rfl
    rw [this]
    rcases densityBody u qs v p with e | v1
    · rfl
    · exact densityLoop_body u qs all S (fun p hp => h p (by simp [hp])) v1

/-- Gates change the array only. -/
theorem densityBody_mem {u : Nat → ℝ} {qs : List Nat} {v v' : Sim.World} {p : SOp} (hk : p.kind ≠ .measurement) (h : densityBody u qs v p = .ok v') :
    v' = { v with mem := v'.mem } := by
  unfold densityBody at h
  rcases ht : targetsOf ⟨qs, []⟩ p with e | ts
  · rw [ht] at h; cases h
  · rw [ht] at h
    change (applyInstruction u (2 * qs.length) p ts false false v >>= fun v1 => applyInstruction u (2 * qs.length) p (ts.map (· + qs.length)) false true v1) = _ at h
    have h2 := apply_gate u (2 * qs.length) hk ts false false (v := v) (v2 := v) rfl rfl
    generalize applyInstruction u (2 * qs.length) p ts false false v = r at h h2
    rcases r with e | r
    · cases h
    · have h3 : r = { v with mem := r.mem } := by
        simp only [Except.map, Except.ok.injEq] at h2
        exact h2
      have h4 := apply_gate u (2 * qs.length) hk (ts.map (· + qs.length)) false true (v := r) (v2 := r) rfl rfl
      change applyInstruction u (2 * qs.length) p (ts.map (· + qs.length)) false true r = _ at h
      rw [h] at h4
      simp only [Except.map, Except.ok.injEq] at h4
      rw [h4, h3]

theorem densityFold_mem {u : Nat → ℝ} {qs : List Nat} : ∀ {S : List SOp}, (∀ p ∈ S, p.kind ≠ .measurement) → ∀ {v v' : Sim.World},
    S.foldlM (densityBody u qs) v = .ok v' → v' = { v with mem := v'.mem }
  | [], _, v, v', h => by cases h; rfl
  | p :: S, hk, v, v', h => by
    rw [List.foldlM_cons] at h
    rcases hp : densityBody u qs v p with e | v1
    · rw [hp] at h; cases h
    · rw [hp] at h
      have h1 := densityBody_mem (hk p (by simp)) hp
      have h2 := densityFold_mem (fun p hp => hk p (by simp [hp])) (v := v1) h
      rw [h2, h1]

section
variable {w0 : World ℝ} {slots : Nat → StateSlot}

theorem reads_isMeasurement {w : World ℝ} {o : Nat} {p : SOp} (h : Reads w o p) (hk : p.kind ≠ .measurement) : isMeasurement w o = false := by
  obtain ⟨op, k, h1, h2, -, -, -, -, h3⟩ := h
  unfold isMeasurement
  rw [h1]
  dsimp only
  rw [h2]
  rcases h3 with ⟨-, h3⟩ | ⟨xs, -, h3, -⟩
  · exact absurd h3 hk
  · have : k.kind ≠ .measurement := by
      intro e
      rw [e] at h3
      generalize k.name = nm at h3
      cases h3
    simp [this]

theorem densityLoop_step (u : Nat → ℝ) (qs : List Nat) {o : Nat} (os : List Nat) (l : Run.Local) {s : Sess} {p : SOp} {ts : List Nat} (hm : isMeasurement s.w o = false)
    (h : Run.op s.w o = .ok p) (ht : targetsOf ⟨qs, []⟩ p = .ok ts) : Run.densityLoop u qs (o :: os) l s =
      (instruction u (2 * qs.length) p (noContext s.w o) ts false false l >>= fun l1 =>
        instruction u (2 * qs.length) p (noContext s.w o) (ts.map (· + qs.length)) false true l1 >>= fun l2 => Run.densityLoop u qs os l2) s := by
  conv_lhs => unfold Run.densityLoop
  rw [hm, h]
  simp only [Bool.false_eq_true, if_false]
  rw [ht]

/-- The loop runs through gates like that of `Model/Simulator.lean`. -/
theorem same_densityLoop (u : Nat → ℝ) (qs rest : List Nat) : ∀ (os : List Nat) (S : List SOp), List.Forall₂ (Reads w0) os S →
    (∀ p ∈ S, p.kind ≠ .measurement) →
    (∀ p ∈ S, ∀ bs, p.cond = some bs → ∀ b ∈ bs, b < w0.bits.length) → (∀ o ∈ os, (w0.active.isSome && noContext w0 o) = false) →
    ∀ v l s, Corr w0 slots v l s → ∀ v', S.foldlM (densityBody u qs) v = .ok v' →
    ∃ l' s', Corr w0 slots v' l' s' ∧ Run.densityLoop u qs (os ++ rest) l s = Run.densityLoop u qs rest l' s'
  | [], _, .nil, _, _, _, v, l, s, h, v', hv => by
    cases hv
    exact ⟨l, s, h, rfl⟩
  | o :: os, p :: S, .cons hp hS, hk, hc, hn, v, l, s, h, v', hv => by
    have hread : Reads s.w o p := Reads.of_same (w := w0) (w' := s.w) (by rw [h.w]) (by rw [h.w]) hp
    have hm := reads_isMeasurement hread (hk p (by simp))
    have hp' : Run.op s.w o = .ok p := by
      have := run_ops (.cons hread .nil)
      unfold Run.ops at this
      rcases hx : Run.op s.w o with e | p'
      · rw [hx] at this; cases this
      · rw [hx] at this
        cases this
        rfl
    have hnc : noContext s.w o = noContext w0 o := by rw [h.w]; rfl
    rw [List.foldlM_cons] at hv
    rw [List.cons_append]
    rcases hd : densityBody u qs v p with e | v1
    · rw [hd] at hv; cases hv
    rw [hd] at hv
    unfold densityBody at hd
    rcases ht : targetsOf ⟨qs, []⟩ p with e | ts
    · rw [ht] at hd; cases hd
    rw [ht] at hd
    change (applyInstruction u (2 * qs.length) p ts false false v >>= fun v1 => applyInstruction u (2 * qs.length) p (ts.map (· + qs.length)) false true v1) = _ at hd
    rw [densityLoop_step u qs (os ++ rest) l hm hp' ht, hnc]
    have i1 := same_instruction u (2 * qs.length) p (hc p (by simp)) (noContext w0 o) (hn o (by simp)) ts false false h
    rcases hr : applyInstruction u (2 * qs.length) p ts false false v with e | va
    · rw [hr] at hd; cases hd
    rw [hr] at hd i1
    obtain ⟨la, sa, ea, ca⟩ := i1
    rw [ses_ok ea]
    have i2 := same_instruction u (2 * qs.length) p (hc p (by simp)) (noContext w0 o) (hn o (by simp)) (ts.map (· + qs.length)) false true ca
    change applyInstruction u (2 * qs.length) p (ts.map (· + qs.length)) false true va = _ at hd
    rw [hd] at i2
    obtain ⟨lb, sb, eb, cb⟩ := i2
    rw [ses_ok eb]
    exact same_densityLoop u qs rest os S hS (fun p hp => hk p (by simp [hp])) (fun p hp => hc p (by simp [hp])) (fun o ho => hn o (by simp [ho])) v1 lb sb cb v' hv

end

/-- The objects when the simulation of a density matrix has run through the gates `os`. -/
theorem density_prefix {A : Call ℝ → Prop} {s : Sess} (h : Reach A s.w) {c : Nat} {C : Circ} (hC : s.w.circs[c]? = some C) {items : List Nat}
    (hi : seen (qubitsOf c s.w).1 = .ok (items.map Lbl.obj)) (hne : items ≠ []) (hnd : items.Nodup) (h15 : items.length ≤ 15) {os rest : List Nat} (ho : C.ops = os ++ rest)
    {S : List SOp} (hS : List.Forall₂ (Reads s.w) os S) (hg : ∀ p ∈ S, GateOp ⟨items, S⟩ p)
    (hcond : ∀ p ∈ S, ∀ bs, p.cond = some bs → ∀ b ∈ bs, b < s.w.bits.length)
    (hact : s.w.active = none ∨ ¬ NeedsNoContext s.w os) (u : Nat → ℝ) (le : Bool) :
    ∃ (C' : Circ) (l : Run.Local) (t : SimState items.length), bare C' = bare C ∧ (s.w.setCirc c C').circs[c]? = some C' ∧
      (∀ s2 : Sess, s2.w.circs[c]? = some C' → qubitList c s2 = (.ok items, s2)) ∧
      Exec ⟨items, S⟩ u S ⟨zeroState _, bitValue s.w, 0⟩ t ∧ Stores false l.mem (tensor t.ψ (conjState t.ψ)) ∧ normSq t.ψ = 1 ∧
      simulateSes u c true le s = (Run.densityLoop u items rest l >>= fun l2 => Ses.lift (Run.square (1 <<< items.length) l2.mem) >>= fun a => setStateCirc c a true false)
        { s with w := s.w.setCirc c C' } := by
  obtain ⟨C', hb, hq⟩ := qubitList_eq h hC hi
  obtain ⟨hq1, hq2⟩ := hq s rfl
  have hlt : c < s.w.circs.length := (List.getElem?_eq_some_iff.1 hC).1
  have hget : (s.w.setCirc c C').circs[c]? = some C' := by simp [World.setCirc, hlt]
  have hops : C'.ops = C.ops := by have := congrArg (fun x : Circ => x.ops) hb; exact this
  have hk : ∀ p ∈ S, p.kind ≠ .measurement := by
    intro p hp e
    have := (hg p hp).1
    rw [e] at this
    exact absurd this (by simp [Supported])
  obtain ⟨v, t, e1, e2, e3, e4, e5, e6⟩ := density_loop (c := ⟨items, S⟩) hnd (by show items.length + items.length ≤ 30; omega) u S hg
    { mem := initialState (2 * items.length), bits := bitValue s.w, drawn := 0, records := s.records } ⟨zeroState _, bitValue s.w, 0⟩
    (by rw [tensor_zero, two_mul]; exact stores_initial false) rfl
  have e1' : S.foldlM (densityBody u items) { mem := initialState (2 * items.length), bits := bitValue s.w, drawn := 0, records := s.records } = .ok v := by
    rw [← densityLoop_body u items S S hk]
    exact e1
  have hno : ∀ o ∈ os, ((s.w.setCirc c C').active.isSome && noContext (s.w.setCirc c C') o) = false := by
    intro o ho
    rcases hact with hact | hact
    · rw [show (s.w.setCirc c C').active = none from hact]; rfl
    · rw [Bool.and_eq_false_iff]
      right
      rw [Bool.eq_false_iff]
      intro e
      unfold noContext at e
      rw [needsNoContext_same (w := s.w) (w' := s.w.setCirc c C') rfl rfl] at e
      obtain ⟨o', ho', x⟩ := needsNoContext_iff.1 e
      simp only [List.mem_singleton] at ho'
      subst ho'
      exact hact ⟨o', ho, x⟩
  have hsame : s.w.setCirc c C' = { s.w.setCirc c C' with bits := withValues (s.w.setCirc c C') (bitValue s.w) } := by
    show s.w.setCirc c C' = { s.w.setCirc c C' with bits := withValues s.w (bitValue s.w) }
    rw [withValues_same (BitVals.reach h)]
    rfl
  have hcorr : Corr (s.w.setCirc c C') s.slots { mem := initialState (2 * items.length), bits := bitValue s.w, drawn := 0, records := s.records }
      ⟨initialState (2 * items.length), 0⟩ { s with w := s.w.setCirc c C' } := ⟨rfl, rfl, hsame, rfl, rfl⟩
  obtain ⟨l, s', k1, k2⟩ := same_densityLoop u items rest os S (hS.imp fun a b h => Reads.of_same (w' := s.w.setCirc c C') rfl rfl h) hk hcond hno _ _ _ hcorr v e1'
  have hv := densityFold_mem hk e1'
  have hs' : s' = { s with w := s.w.setCirc c C' } := by
    obtain ⟨w2, sl, rc⟩ := s'
    have a1 := k1.w
    have a2 := k1.slots
    have a3 := k1.records
    dsimp only at a1 a2 a3
    subst a1 a2 a3
    rw [hv]
    dsimp only
    rw [← hsame]
  refine ⟨C', l, t, hb, hget, hq2, e2, ?_, by rw [e6]; exact normSq_zeroState, ?_⟩
  · rw [← k1.mem]; exact e3
  · unfold simulateSes
    rw [ses_ok hq1, if_neg hne, ses_ok (a := C') (s1 := { s with w := s.w.setCirc c C' }) (by unfold Ses.ofM circ M.deref; simp only [hget])]
    simp only [if_true]
    rw [hops, ho]
    show Ses.bind _ _ _ = Ses.bind _ _ _
    unfold Ses.bind
    rw [k2, hs']

end DG
