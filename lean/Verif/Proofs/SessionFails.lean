import Verif.Proofs.SessionValid

/-! Simulations that fail at some operation. -/

noncomputable section

namespace DG
open Spec Run Sim

theorem ses_assoc {α β γ : Type} (m : Ses α) (f : α → Ses β) (g : β → Ses γ) (s : Sess) : ((m >>= f) >>= g) s = (m >>= fun a => f a >>= g) s := by
  show Ses.bind (Ses.bind m f) g s = Ses.bind m (fun a => Ses.bind (f a) g) s
  unfold Ses.bind
  rcases m s with ⟨_ | a, s1⟩ <;> rfl

theorem vectorLoop_bad (u : Nat → ℝ) (qs : List Nat) (le : Bool) {o : Nat} (os : List Nat) (l : Run.Local) {s : Sess} {e : Err} (h : Run.op s.w o = .error e) :
    vectorLoop u qs le (o :: os) l s = (.error e, s) := by
  unfold vectorLoop
  rw [h]

theorem vectorLoop_untargeted (u : Nat → ℝ) (qs : List Nat) (le : Bool) {o : Nat} (os : List Nat) (l : Run.Local) {s : Sess} {p : SOp} {e : Err} (h : Run.op s.w o = .ok p)
    (ht : targetsOf ⟨qs, []⟩ p = .error e) : vectorLoop u qs le (o :: os) l s = (.error e, s) := by
  unfold vectorLoop
  rw [h]
  dsimp only
  rw [ht]

theorem vectorLoop_ok (u : Nat → ℝ) (qs : List Nat) (le : Bool) {o : Nat} (os : List Nat) (l : Run.Local) {s : Sess} {p : SOp} {ts : List Nat} (h : Run.op s.w o = .ok p)
    (ht : targetsOf ⟨qs, []⟩ p = .ok ts) : vectorLoop u qs le (o :: os) l s =
      (instruction u qs.length p (noContext s.w o) ts le false l >>= fun l1 => vectorLoop u qs le os l1) s := by
  conv_lhs => unfold vectorLoop
  rw [h]
  dsimp only
  rw [ht]

theorem ses_stop {α β : Type} {m : Ses α} {e : Err} {s s1 : Sess} (h : m s = (.error e, s1)) (f : α → Ses β) : (m >>= f) s = (.error e, s1) := by
  show Ses.bind m f s = _
  unfold Ses.bind
  rw [h]

theorem vectorLoop_append (u : Nat → ℝ) (qs : List Nat) (le : Bool) (os2 : List Nat) : ∀ (os1 : List Nat) (l : Run.Local) (s : Sess),
    vectorLoop u qs le (os1 ++ os2) l s = (vectorLoop u qs le os1 l >>= fun l1 => vectorLoop u qs le os2 l1) s
  | [], l, s => rfl
  | o :: os, l, s => by
    rw [List.cons_append]
    rcases h : Run.op s.w o with e | p
    · rw [vectorLoop_bad u qs le _ l h, ses_stop (vectorLoop_bad u qs le _ l h)]
    rcases ht : targetsOf ⟨qs, []⟩ p with e | ts
    · rw [vectorLoop_untargeted u qs le _ l h ht, ses_stop (vectorLoop_untargeted u qs le _ l h ht)]
    rw [vectorLoop_ok u qs le _ l h ht]
    rcases hi : instruction u qs.length p (noContext s.w o) ts le false l s with ⟨e | l1, s1⟩
    · rw [ses_stop hi, ses_stop (by rw [vectorLoop_ok u qs le _ l h ht, ses_stop hi])]
    · rw [ses_ok hi, vectorLoop_append u qs le os2 os l1 s1]
      have e1 : vectorLoop u qs le (o :: os) l s = vectorLoop u qs le os l1 s1 := by rw [vectorLoop_ok u qs le _ l h ht, ses_ok hi]
      show Ses.bind _ _ s1 = Ses.bind _ _ s
      unfold Ses.bind
      rw [e1]

/-- The objects after a simulation that runs through `os` and fails at `o`, which has no qubits. -/
theorem simulate_fails {A : Call ℝ → Prop} {s : Sess} (h : Reach A s.w) {c : Nat} {C : Circ} (hC : s.w.circs[c]? = some C) {items : List Nat}
    (hi : seen (qubitsOf c s.w).1 = .ok (items.map Lbl.obj)) (hne : items ≠ []) {os rest : List Nat} {o : Nat} (ho : C.ops = os ++ o :: rest) {op : OpObj ℝ}
    (hop : s.w.ops[o]? = some op) (hq : op.qubits = none) {S : List SOp} (hS : List.Forall₂ (Reads s.w) os S)
    (hcond : ∀ p ∈ S, ∀ bs, p.cond = some bs → ∀ b ∈ bs, b < s.w.bits.length)
    (hact : s.w.active = none ∨ ¬ NeedsNoContext s.w os) (u : Nat → ℝ) (le : Bool) {v : Sim.World}
    (hv : loop u ⟨items, S⟩ le { mem := initialState items.length, bits := bitValue s.w, drawn := 0, records := s.records } = .ok v) :
    (simulateSes u c false le s).1 = .error .typeError ∧ (simulateSes u c false le s).2.w.bits = withValues s.w v.bits := by
  obtain ⟨C', hb, hql⟩ := qubitList_eq h hC hi
  obtain ⟨hq1, -⟩ := hql s rfl
  have hlt : c < s.w.circs.length := (List.getElem?_eq_some_iff.1 hC).1
  have hget : (s.w.setCirc c C').circs[c]? = some C' := by simp [World.setCirc, hlt]
  have hops : C'.ops = C.ops := by have := congrArg (fun x : Circ => x.ops) hb; exact this
  have hrun : Run.ops (s.w.setCirc c C') os = .ok S := run_ops (hS.imp fun a b h => Reads.of_same (w' := s.w.setCirc c C') rfl rfl h)
  have hno : ∀ o ∈ os, ((s.w.setCirc c C').active.isSome && noContext (s.w.setCirc c C') o) = false := by
    intro o ho
    rcases hact with hact | hact
    · rw [show (s.w.setCirc c C').active = none from hact]; rfl
    · rw [Bool.and_eq_false_iff]
      right
      rw [Bool.eq_false_iff]
      intro e
      unfold noContext at e
      rw [needsNoContext_same (w := s.w) (w' := s.w.setCirc c C') rfl rfl] at e
      obtain ⟨o', ho', x⟩ := needsNoContext_iff.1 e
      simp only [List.mem_singleton] at ho'
      subst ho'
      exact hact ⟨o', ho, x⟩
  have hcorr : Corr (s.w.setCirc c C') s.slots { mem := initialState items.length, bits := bitValue s.w, drawn := 0, records := s.records }
      ⟨initialState items.length, 0⟩ { s with w := s.w.setCirc c C' } := by
    refine ⟨rfl, rfl, ?_, rfl, rfl⟩
    show s.w.setCirc c C' = { s.w.setCirc c C' with bits := withValues s.w (bitValue s.w) }
    rw [withValues_same (BitVals.reach h)]
    rfl
  have hsame := same_vectorLoop u items S le os S hrun hcond hno _ _ _ hcorr
  have hv' : S.foldlM (fun w op => do
      let targets ← targetsOf ⟨items, S⟩ op
      applyInstruction u items.length op targets le false w) { mem := initialState items.length, bits := bitValue s.w, drawn := 0, records := s.records } = .ok v := hv
  rw [hv'] at hsame
  obtain ⟨l, s2, e, hc⟩ := hsame
  have hbad : vectorLoop u items le (o :: rest) l s2 = (.error .typeError, s2) := by
    unfold vectorLoop
    have : Run.op s2.w o = .error .typeError := by
      unfold Run.op
      have h1 : s2.w.ops[o]? = some op := by rw [hc.w]; exact hop
      rw [h1]
      dsimp only
      rw [hq]
      split
      · next e => cases e
      · rfl
    rw [this]
  have hall : vectorLoop u items le C'.ops ⟨initialState items.length, 0⟩ { s with w := s.w.setCirc c C' } = (.error .typeError, s2) := by
    rw [hops, ho, vectorLoop_append, ses_ok e, hbad]
  have : simulateSes u c false le s = (.error .typeError, s2) := by
    unfold simulateSes
    rw [ses_ok hq1, if_neg hne, ses_ok (a := C') (s1 := { s with w := s.w.setCirc c C' }) (by unfold Ses.ofM circ M.deref; simp only [hget])]
    simp only [Bool.false_eq_true, if_false]
    show Ses.bind _ _ _ = _
    unfold Ses.bind
    rw [hall]
  rw [this]
  refine ⟨rfl, ?_⟩
  show s2.w.bits = _
  rw [hc.w]
  rfl

/-! ## Programs without simulations are programs with simulations -/

/-- The program as one with simulations. -/
def SProg.ofProg : Prog ℝ → SProg
  | .skip => .skip
  | .call e => .call e
  | .seq p q => .seq (ofProg p) (ofProg q)
  | .withCtx c p => .withCtx c (ofProg p)
  | .withFreeze p => .withFreeze (ofProg p)
  | .attempt p => .attempt (ofProg p)

theorem ofProg_all {A : Call ℝ → Prop} : ∀ {p : Prog ℝ}, p.All A → (SProg.ofProg p).All A
  | .skip, _ => trivial
  | .call _, h => h
  | .seq _ _, h => ⟨ofProg_all h.1, ofProg_all h.2⟩
  | .withCtx _ p, h => ofProg_all (p := p) h
  | .withFreeze p, h => ofProg_all (p := p) h
  | .attempt p, h => ofProg_all (p := p) h

theorem ofProg_run : ∀ (p : Prog ℝ) (s : Sess), (SProg.ofProg p).run s = ((p.run s.w).1, { s with w := (p.run s.w).2 })
  | .skip, s => rfl
  | .call _, s => rfl
  | .seq p q, s => by
    show Ses.bind (SProg.ofProg p).run (fun _ => (SProg.ofProg q).run) s = ((M.bind p.run (fun _ => q.run) s.w).1, { s with w := (M.bind p.run (fun _ => q.run) s.w).2 })
    unfold Ses.bind M.bind
    rw [ofProg_run p s]
    rcases p.run s.w with ⟨e | a, w1⟩
    · rfl
    · exact ofProg_run q _
  | .withCtx c p, s => by
    show withSes (openCtx c) (SProg.ofProg p).run exitCtx s = ((withStmt (openCtx c) p.run exitCtx s.w).1, { s with w := (withStmt (openCtx c) p.run exitCtx s.w).2 })
    unfold withSes withStmt
    rcases openCtx c s.w with ⟨e | a, w1⟩
    · rfl
    · dsimp only
      rw [ofProg_run p]
      dsimp only
      rcases exitCtx a (p.run w1).2 with ⟨e | x, w3⟩ <;> rfl
  | .withFreeze p, s => by
    show withSes freezeEnter (SProg.ofProg p).run (fun _ => freezeExit) s = ((withStmt freezeEnter p.run (fun _ => freezeExit) s.w).1, { s with w := (withStmt freezeEnter p.run (fun _ => freezeExit) s.w).2 })
    unfold withSes withStmt
    rcases freezeEnter s.w with ⟨e | a, w1⟩
    · rfl
    · dsimp only
      rw [ofProg_run p]
      dsimp only
      rcases freezeExit (p.run w1).2 with ⟨e | x, w3⟩ <;> rfl
  | .attempt p, s => by
    show (Except.ok (), ((SProg.ofProg p).run s).2) = _
    rw [ofProg_run p s]
    rfl

theorem ofProg_visits : ∀ (p : Prog ℝ) (s : Sess) (w' : World ℝ), p.Visits s.w w' → (SProg.ofProg p).Visits s { s with w := w' }
  | .skip, s, w', h => by cases h; exact .inl rfl
  | .call e, s, w', h => by
    rcases h with rfl | rfl
    · exact .inl rfl
    · exact .inr rfl
  | .seq p q, s, w', h => by
    rcases h with h | ⟨w1, h1, h2⟩
    · exact .inl (ofProg_visits p s w' h)
    · exact .inr ⟨{ s with w := w1 }, by rw [ofProg_run, h1], ofProg_visits q { s with w := w1 } w' h2⟩
  | .withCtx c p, s, w', h => by
    rcases h with rfl | rfl | ⟨x, w1, h1, h | rfl⟩
    · exact .inl rfl
    · exact .inr (.inl rfl)
    · exact .inr (.inr ⟨x, w1, h1, .inl (ofProg_visits p { s with w := w1 } w' h)⟩)
    · exact .inr (.inr ⟨x, w1, h1, .inr (by rw [ofProg_run])⟩)
  | .withFreeze p, s, w', h => by
    rcases h with rfl | rfl | ⟨w1, h1, h | rfl⟩
    · exact .inl rfl
    · exact .inr (.inl rfl)
    · exact .inr (.inr ⟨w1, h1, .inl (ofProg_visits p { s with w := w1 } w' h)⟩)
    · exact .inr (.inr ⟨w1, h1, .inr (by rw [ofProg_run])⟩)
  | .attempt p, s, w', h => ofProg_visits p s w' h

theorem sreach_of {A : Call ℝ → Prop} {w : World ℝ} (h : Reach A w) : SReach A { w := w } := by
  obtain ⟨p, h1, h2⟩ := h
  exact ⟨SProg.ofProg p, ofProg_all h1, ofProg_visits p {} w h2⟩

theorem sreach_simulate {A : Call ℝ → Prop} {p : Prog ℝ} (hp : p.All A) (hr : (p.run {}).1 = .ok ()) (u : Nat → ℝ) (c : Nat) (mixed le : Bool) :
    SReach A (simulateSes u c mixed le { w := p.final }).2 :=
  ⟨.seq (SProg.ofProg p) (.simulate u c mixed le), ⟨ofProg_all hp, trivial⟩,
    .inr ⟨{ w := p.final }, by rw [ofProg_run]; exact Prod.ext hr rfl, .inr rfl⟩⟩

end DG
