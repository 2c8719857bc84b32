import Verif.Proofs.Construct
import Verif.Proofs.CircuitRegs

/-! Entering contexts, and what holds inside of them. -/

namespace DG
open Spec
variable {K : Type}

theorem contextOf_same (c : Nat) (w : World K) : SameButContexts w (contextOf c w).2 := by
  have hr : SameButContexts w w := ⟨rfl, rfl, rfl, rfl, rfl, rfl, rfl, rfl, List.prefix_rfl⟩
  unfold contextOf
  split
  · exact hr
  · next C hC =>
    split
    · exact hr
    · refine ⟨rfl, rfl, rfl, rfl, rfl, rfl, rfl, ?_, List.prefix_append _ _⟩
      obtain ⟨hlt, e⟩ := List.getElem?_eq_some_iff.1 hC
      subst e
      show (w.circs.set c _).map _ = _
      rw [List.map_set]
      have := List.set_getElem_self (as := w.circs.map fun C => { C with ctx := none }) (i := c) (by simpa using hlt)
      rw [List.getElem_map] at this
      exact this

/-- Entering a context successfully. -/
theorem openCtx_inv {w : World K} (h : Refs w) {c x : Nat} {w1 : World K} (ho : openCtx c w = (.ok x, w1)) :
    w1.active = some x ∧ ∃ X, w1.ctxs[x]? = some X ∧ X.circuit = c := by
  have h0 : ∃ C, w.circs[c]? = some C := by
    cases hC : w.circs[c]? with
    | some C => exact ⟨C, rfl⟩
    | none => simp [openCtx, bind_def, contextOf, hC] at ho
  obtain ⟨C, hC⟩ := h0
  obtain ⟨y, Y, h1, h2, h3, h4, h5⟩ := contextOf_ok h hC
  unfold openCtx enterCtx at ho
  rw [bind_def] at ho
  generalize contextOf c w = z at h1 h2 h4 h5 ho
  obtain ⟨r, w2⟩ := z
  cases h1
  dsimp only at h2 h4 h5 ho
  simp only [bind_def, ctxObj, M.deref, h2, circ, h3, h4, M.raiseIf, M.read, M.write] at ho
  cases hl : C.locked with
  | true => simp [hl] at ho
  | false =>
    cases ha : w2.active.isSome with
    | true => simp [hl, ha] at ho
    | false =>
      simp only [hl, ha, Bool.false_eq_true, if_false] at ho
      have q1 : ∀ W : World K, (qubitsOf c W).2.active = W.active ∧ (qubitsOf c W).2.ctxs = W.ctxs := by
        intro W; unfold qubitsOf; split <;> exact ⟨rfl, rfl⟩
      have q2 : ∀ W : World K, (bitsOf c W).2.active = W.active ∧ (bitsOf c W).2.ctxs = W.ctxs := by
        intro W; unfold bitsOf; split <;> exact ⟨rfl, rfl⟩
      have a1 := q1 { w2 with active := some y }
      generalize qubitsOf c { w2 with active := some y } = z at a1 ho
      obtain ⟨_ | r, w3⟩ := z
      · cases ho
      · dsimp only at a1 ho
        have a2 := q2 w3
        generalize bitsOf c w3 = z at a2 ho
        obtain ⟨_ | r, w4⟩ := z
        · cases ho
        · dsimp only at a2 ho
          cases ho
          exact ⟨by rw [a2.1, a1.1], Y, by rw [a2.2, a1.2]; exact h2, h3⟩

/-- Entering a context succeeds if nothing is in the way. -/
theorem openCtx_ok {w : World K} (h : Refs w) {c : Nat} {C : Circ} (hC : w.circs[c]? = some C) (hl : C.locked = false) (ha : w.active = none)
    (hq : ∃ r, (C.q.flat qubitEnv).1 = .ok r) (hb : ∃ r, (C.c.flat w.bitEnv).1 = .ok r) : ∃ x w1, openCtx c w = (.ok x, w1) := by
  obtain ⟨y, Y, h1, h2, h3, h4, h5⟩ := contextOf_ok h hC
  have h6 := (contextOf_same c w).bits
  unfold openCtx enterCtx
  rw [bind_def]
  generalize contextOf c w = z at h1 h2 h4 h5 h6
  obtain ⟨r, w2⟩ := z
  cases h1
  dsimp only at h2 h4 h5 h6 ⊢
  obtain ⟨rq, hq⟩ := hq
  obtain ⟨rb, hb⟩ := hb
  have ev : ∀ W : World K, W.bits = w.bits → W.bitEnv = w.bitEnv := by
    intro W hW; unfold World.bitEnv; rw [hW]
  have e1 : ∃ b, qubitsOf c { w2 with active := some y } = (.ok rq, { w2 with active := some y, circs := w2.circs.set c { C with ctx := some y, q := b } }) := by
    refine ⟨(C.q.flat qubitEnv).2, ?_⟩
    unfold qubitsOf
    simp only [h4]
    generalize C.q.flat qubitEnv = z at hq
    obtain ⟨r, b⟩ := z
    cases hq
    rfl
  obtain ⟨b, e1⟩ := e1
  have hlt := (List.getElem?_eq_some_iff.1 h4).1
  have e2 : ∃ W, bitsOf c { w2 with active := some y, circs := w2.circs.set c { C with ctx := some y, q := b } } = (.ok rb, W) := by
    unfold bitsOf
    simp only [List.getElem?_set_self hlt]
    rw [ev _ (by exact h6)]
    generalize C.c.flat w.bitEnv = z at hb
    obtain ⟨r, b⟩ := z
    cases hb
    exact ⟨_, rfl⟩
  obtain ⟨W, e2⟩ := e2
  refine ⟨y, W, ?_⟩
  simp only [bind_def, ctxObj, M.deref, h2, circ, h3, h4, M.raiseIf, M.read, M.write, hl, h5, ha, Option.isSome_none, Bool.false_eq_true, if_false]
  rw [e1]
  dsimp only
  rw [e2]
  rfl

/-- `x` is the active context, and it belongs to circuit `c`. -/
def ActiveIn (x c : Nat) (w : World K) : Prop := w.active = some x ∧ ∃ X, w.ctxs[x]? = some X ∧ X.circuit = c

theorem ActiveIn.ctl (x c : Nat) : Ctl (K := K) (ActiveIn x c) := ⟨fun w w' h1 h2 _ h => by unfold ActiveIn; rw [h1, h2]; exact h⟩

theorem ActiveIn.setFrozen {x c : Nat} (y : Nat) (b : Bool) : Pres (K := K) (ActiveIn x c) (DG.setFrozen y b) := by
  intro w h
  unfold DG.setFrozen M.write
  dsimp only
  split
  · next Y hY =>
    obtain ⟨h1, X, h2, h3⟩ := h
    refine ⟨h1, ?_⟩
    by_cases hxy : y = x
    · subst hxy
      rw [h2] at hY; cases hY
      exact ⟨{ Y with frozen := b }, List.getElem?_set_self (List.getElem?_eq_some_iff.1 h2).1, h3⟩
    · exact ⟨X, by rw [← h2]; exact List.getElem?_set_ne hxy, h3⟩
  · exact h

theorem ActiveIn.freezeEnter {x c : Nat} : Pres (K := K) (ActiveIn x c) freezeEnter := by
  intro w h
  unfold DG.freezeEnter
  split
  · exact h
  · exact ActiveIn.setFrozen _ _ w h

theorem ActiveIn.freezeExit {x c : Nat} : Pres (K := K) (ActiveIn x c) freezeExit := by
  intro w h
  unfold DG.freezeExit
  split
  · exact h
  · exact ActiveIn.setFrozen _ _ w h

theorem ActiveIn.addCtx {x c : Nat} {X : Ctx} {w : World K} (h : ActiveIn x c w) : ActiveIn x c { w with ctxs := w.ctxs ++ [X] } := by
  obtain ⟨h1, Y, h2, h3⟩ := h
  exact ⟨h1, Y, by rw [List.getElem?_append_left (List.getElem?_eq_some_iff.1 h2).1]; exact h2, h3⟩

theorem ActiveIn.inside [DecidableEq K] [Zero K] {x c : Nat} (p : Prog K) :
    Pres (ActiveIn x c) p.run ∧ ∀ w w', ActiveIn x c w → p.Visits w w' → ActiveIn x c w' := by
  refine DG.inside (A := fun _ => True) (fun w h => by rw [h.1]; rfl) (fun e _ => (ActiveIn.ctl x c).exec (fun a w h => h) (fun _ _ => ActiveIn.addCtx) e) ?_
    ActiveIn.freezeEnter ActiveIn.freezeExit p (.of p)
  intro d w h
  obtain ⟨h1, X, h2, h3⟩ := h
  have hs := contextOf_same d w
  refine ⟨hs.active.trans h1, X, ?_, h3⟩
  obtain ⟨l, hl⟩ := hs.ctxs
  rw [← hl, List.getElem?_append_left (List.getElem?_eq_some_iff.1 h2).1]
  exact h2


theorem opsOf_same {w : World K} {c : Nat} {C C' : Circ} (hC : w.circs[c]? = some C) (h : C'.ops = C.ops) (c' : Nat) :
    opsOf (w.setCirc c C') c' = opsOf w c' := by
  rw [opsOf_setCirc hC]
  split
  · next e => rw [e, opsOf_of_get hC, h]
  · rfl

theorem opsOf_same' {w w' : World K} {c : Nat} {C C' : Circ} (hC : w.circs[c]? = some C) (hw : w'.circs = w.circs.set c C')
    (h : C'.ops = C.ops) (c' : Nat) : opsOf w' c' = opsOf w c' := by
  rw [← opsOf_same hC h c']
  unfold opsOf World.setCirc
  rw [hw]

/-- The context `X` (with number `x`) is active and the lists of operations are `l`: those of all circuits, or of the first `n` circuits. -/
def Still (N : Option Nat) (x : Nat) (X : Ctx) (l : Nat → List Nat) (w : World K) : Prop :=
  w.active = some x ∧ w.ctxs[x]? = some X ∧ (∀ c, (∀ n, N = some n → c < n) → opsOf w c = l c) ∧ ∀ n, N = some n → n ≤ w.circs.length

theorem Still.keep {N : Option Nat} {x : Nat} {X : Ctx} {l : Nat → List Nat} {w w' : World K} (h : Still N x X l w) (h1 : w'.active = w.active)
    (h2 : w'.ctxs = w.ctxs) (h3 : ∀ c, opsOf w' c = opsOf w c)
    (h4 : w.circs.length ≤ w'.circs.length := by first | exact le_rfl | simp [World.setCirc, DG.allocCirc]) : Still N x X l w' :=
  ⟨h1.trans h.1, by rw [h2]; exact h.2.1, fun c hc => (h3 c).trans (h.2.2.1 c hc), fun n hn => (h.2.2.2 n hn).trans h4⟩

theorem Still.modCirc {N : Option Nat} {x : Nat} {X : Ctx} {l : Nat → List Nat} (c : Nat) (f : Circ → Circ) (hf : ∀ C, (f C).ops = C.ops) :
    Pres (K := K) (Still N x X l) (DG.modCirc c f) := by
  intro w h
  unfold DG.modCirc M.write
  dsimp only
  split
  · next C hC => exact h.keep rfl rfl fun c' => opsOf_same hC (hf C) c'
  · exact h

theorem Still.modOp {N : Option Nat} {x : Nat} {X : Ctx} {l : Nat → List Nat} (o : Nat) (f : OpObj K → OpObj K) : Pres (Still N x X l) (DG.modOp o f) := by
  intro w h
  unfold DG.modOp M.write
  dsimp only
  split
  · exact h.keep rfl rfl fun c' => rfl
  · exact h

theorem Still.evalInPlace [DecidableEq K] [Zero K] {N : Option Nat} {x : Nat} {X : Ctx} {l : Nat → List Nat} (o : Nat) (g : Option (List K)) :
    Pres (Still N x X l) (DG.evalInPlace o g) := by
  intro w h
  unfold DG.evalInPlace
  split
  · exact h
  · split
    · exact h
    · split
      · exact h.keep rfl rfl fun c' => rfl
      · exact h

theorem Still.prims0 [DecidableEq K] [Zero K] {N : Option Nat} {x : Nat} {X : Ctx} (hX : X.frozen = true) (l : Nat → List Nat) : Prims0 (K := K) (Still N x X l) where
  register := by
    intro a o w ha h
    have h' := h
    obtain ⟨h1, h2, -⟩ := h'
    rw [h1] at ha
    subst ha
    unfold DG.register
    simp only [bind_def, ctxObj, M.deref, h2, M.whenever, hX]
    exact h
  qubitsOf := by
    intro c w h
    unfold DG.qubitsOf
    split
    · exact h
    · next C hC => exact h.keep rfl rfl fun c' => opsOf_same' hC rfl (by rfl) c'
  bitsOf := by
    intro c w h
    unfold DG.bitsOf
    split
    · exact h
    · next C hC => exact h.keep rfl rfl fun c' => opsOf_same' hC rfl (by rfl) c'
  addQReg := by
    intro c n lb w h
    unfold DG.addQReg
    split
    · exact h
    · next C hC => split <;> exact h.keep rfl rfl fun c' => opsOf_same' hC rfl (by rfl) c'
  addCReg := by
    intro c n lb w h
    unfold DG.addCReg
    split
    · exact h
    · next C hC => split <;> exact h.keep rfl rfl fun c' => opsOf_same' hC rfl (by rfl) c'
  addQubit := by
    intro c q lb w h
    unfold DG.addQubit
    split
    · exact h
    · next C hC =>
      dsimp only
      split
      · exact h
      · split <;> exact h.keep rfl rfl fun c' => opsOf_same' hC rfl (by rfl) c'
      · split
        · exact h
        · split <;> exact h.keep rfl rfl fun c' => opsOf_same' hC rfl (by rfl) c'
  addBit := by
    intro c q lb w h
    unfold DG.addBit
    split
    · exact h
    · next C hC =>
      dsimp only
      split
      · exact h
      · split <;> exact h.keep rfl rfl fun c' => opsOf_same' hC rfl (by rfl) c'
      · split
        · exact h
        · split <;> exact h.keep rfl rfl fun c' => opsOf_same' hC rfl (by rfl) c'
  evalInPlace := Still.evalInPlace
  checkArity := by
    intro k m w h
    unfold DG.checkArity
    split
    · exact h
    · exact h.keep rfl rfl fun c' => rfl
  newOp := fun op w h => h.keep rfl rfl fun c' => rfl
  setParams := fun _ _ => Still.modOp _ _
  setBits := fun _ _ => Still.modOp _ _
  setCond := fun _ _ => Still.modOp _ _
  getParam := by
    intro c i w h
    unfold DG.getParam
    split
    · exact h
    · next C hC =>
      split
      · exact h
      · dsimp only
        split
        · exact h.keep rfl rfl fun c' => opsOf_same' hC rfl (by rfl) c'
        · have : ∀ j : Int, Still N x X l (if 0 ≤ j then match C.vars[j.toNat]? with
              | some v => ((.ok v : Except Err Nat), w)
              | none => (.error .indexError, w) else (.error .indexError, w)).2 := by
            intro j
            split
            · split <;> exact h
            · exact h
          exact this _
  lock := fun _ => Still.modCirc _ _ fun _ => rfl
  unlock := fun _ => Still.modCirc _ _ fun C => by split <;> rfl
  resetItem := by
    intro y w h
    unfold DG.resetItem
    split
    · unfold M.write
      dsimp only
      split
      · exact h.keep rfl rfl fun c' => rfl
      · exact h
    · exact h
  allocCirc := fun p w h => h.keep rfl rfl fun c' => by
    unfold DG.allocCirc opsOf
    dsimp only
    rcases Nat.lt_trichotomy c' w.circs.length with hc | hc | hc
    · rw [List.getElem?_append_left hc]
    · subst hc; simp
    · rw [List.getElem?_eq_none (by simp; omega), List.getElem?_eq_none (by omega)]
  newQubit := fun lb w h => h.keep rfl rfl fun c' => rfl
  newBit := fun lb w h => h.keep rfl rfl fun c' => rfl
  newVar := fun lb w h => h.keep rfl rfl fun c' => rfl
  newClass := fun lb w h => h.keep rfl rfl fun c' => rfl
  setLabel := fun q lb w h => h.keep rfl rfl fun c' => rfl

theorem Still.setVar {N : Option Nat} {x : Nat} {X : Ctx} {l : Nat → List Nat} (v : Nat) (y : K) : Pres (Still N x X l) (DG.setVar v y) := by
  intro w h
  unfold DG.setVar M.write
  dsimp only
  split
  · exact h.keep rfl rfl fun c' => rfl
  · exact h

theorem Still.resetVar {N : Option Nat} {x : Nat} {X : Ctx} {l : Nat → List Nat} (v : Nat) : Pres (K := K) (Still N x X l) (DG.resetVar v) := by
  intro w h
  unfold DG.resetVar M.write
  dsimp only
  split
  · exact h.keep rfl rfl fun c' => rfl
  · exact h

theorem Still.setVars {N : Option Nat} {x : Nat} {X : Ctx} {l : Nat → List Nat} : ∀ (vs : List Nat) (ys : List K), Pres (Still N x X l) (DG.setVars vs ys)
  | [], _ => pres_pure _
  | _ :: _, [] => pres_raise _
  | _ :: vs, _ :: ys => pres_bind (Still.setVar _ _) fun _ => Still.setVars vs ys

theorem Still.exec [DecidableEq K] [Zero K] {N : Option Nat} {x : Nat} {X : Ctx} (hX : X.frozen = true) (l : Nat → List Nat) (e : Call K) (he : ¬ ChangesLists e)
    (hN : N = none → ¬ CopiesCircuit e) :
    Pres (Still N x X l) (execCall e) := by
  by_cases hb : e.Basic0
  · exact (Still.prims0 hX l).exec e hb
  · cases e with
    | setBit b v f =>
      intro w h
      show Still N x X l (DG.setBit b v f w).2
      unfold DG.setBit
      split
      · exact h
      · exact h.keep rfl rfl fun c' => rfl
    | setVar v y => exact Still.setVar v y
    | resetVar v => exact Still.resetVar v
    | setQubits o qs => exact pres_bind (pres_deref _) fun _ => pres_bind ((Still.prims0 hX l).checkArity _ _) fun _ => Still.modOp _ _
    | callParam a ps qs bs =>
      exact pres_bind (pres_deref _) fun A => pres_bind (pres_raiseIf _ _) fun _ => pres_bind (pres_read _) fun _ =>
        pres_bind (pres_whenever (Still.setVars _ _)) fun _ => pres_bind (fun w hw => hw.keep rfl rfl fun c' => rfl) fun _ =>
        (Still.prims0 hX l).callCirc _ _ _
    | resetVariables a => exact pres_bind (pres_deref _) fun _ => pres_each fun _ => Still.resetVar _
    | evalCirc c g i =>
      refine pres_void fun w h => ?_
      by_cases hp : ∀ C, w.circs[c]? = some C → C.param = false
      · obtain ⟨e, h1, -⟩ := evalCirc_none hp g i
        rw [h1]; exact h
      push Not at hp
      obtain ⟨C, hC, hp⟩ := hp
      cases i with
      | true =>
        have hl : ∀ (d : Nat) (os : List Nat) (i : Nat), Pres (Still N x X l) (evalOps d g true i os) := by
          intro d os
          induction os with
          | nil => exact fun _ => pres_pure _
          | cons o os ih =>
            intro i
            refine pres_bind (pres_bind (pres_deref _) fun op => pres_bind (pres_deref _) fun k => ?_) fun _ => ih (i + 1)
            split
            · exact pres_raise _
            · split
              · simp only [if_true]; exact Still.evalInPlace _ _
              · exact pres_pure _
        rw [evalCirc_inplace_eq hC (by simpa using hp)]
        have := hl c C.ops 0 w h
        generalize evalOps c g true 0 C.ops w = z at this
        obtain ⟨_ | _, _⟩ := z <;> exact this
      | false =>
        cases N with
        | none => exact absurd rfl (hN rfl)
        | some n =>
          have hn := h.2.2.2 n rfl
          have h0 : Still (some n) x X l (w.copied C) := by
            refine ⟨h.1, ?_, fun c' hc' => ?_, fun m hm => ?_⟩
            · unfold World.copied
              dsimp only
              rw [List.getElem?_append_left (List.getElem?_eq_some_iff.1 h.2.1).1]; exact h.2.1
            · have := hc' n rfl
              rw [← h.2.2.1 c' hc']
              unfold opsOf World.copied
              dsimp only
              rw [List.getElem?_append_left (by omega)]
            · cases hm; simp [World.copied]; omega
          rw [evalCirc_copy_eq hC (by simpa using hp)]
          have := EvalPrims.evalOps_copy (P := Still (some n) x X l) (K := K) w.circs.length (fun i o v D op ps hv hD hi ho _ => by
            refine ⟨hv.1, hv.2.1, fun c' hc' => ?_, fun m hm => by simpa [World.replaced] using hv.2.2.2 m hm⟩
            have hlt := hc' n rfl
            rw [← hv.2.2.1 c' hc']
            unfold opsOf World.replaced
            dsimp only
            rw [List.getElem?_set_ne (by omega)]) g (w.copyOf C).ops 0 (w.copied C) h0 ⟨_, copied_get w C, rfl⟩
          generalize evalOps w.circs.length g false 0 (w.copyOf C).ops (w.copied C) = z at this
          obtain ⟨_ | _, _⟩ := z <;> exact this
    | append c o => exact absurd trivial he
    | extend c o => exact absurd trivial he
    | remove c o => exact absurd trivial he
    | reset c o => exact absurd trivial he
    | _ => exact absurd trivial hb

theorem Still.contextOf {N : Option Nat} {x : Nat} {X : Ctx} {l : Nat → List Nat} (d : Nat) : Pres (K := K) (Still N x X l) (DG.contextOf d) := by
  intro w h
  have hs := contextOf_same d w
  refine ⟨hs.active.trans h.1, ?_, fun c hc => ?_, fun n hn => (h.2.2.2 n hn).trans ?_⟩
  · obtain ⟨m, hm⟩ := hs.ctxs
    rw [← hm, List.getElem?_append_left (List.getElem?_eq_some_iff.1 h.2.1).1]
    exact h.2.1
  · rw [← h.2.2.1 c hc]
    unfold DG.contextOf
    split
    · rfl
    · next C hC =>
      split
      · rfl
      · exact opsOf_same' hC rfl (by rfl) c
  · unfold DG.contextOf
    split
    · exact le_rfl
    · split
      · exact le_rfl
      · simp [World.setCirc]

/-- In a frozen context, programs without `freeze` do not append. -/
theorem Still.inside [DecidableEq K] [Zero K] {N : Option Nat} {x : Nat} {X : Ctx} (hX : X.frozen = true) (l : Nat → List Nat) :
    ∀ (p : Prog K), (p.All fun e => ¬ ChangesLists e ∧ (N = none → ¬ CopiesCircuit e)) → NoFreeze p →
      Pres (Still N x X l) p.run ∧ ∀ w w', Still N x X l w → p.Visits w w' → Still N x X l w' := by
  intro p
  induction p with
  | skip => exact fun _ _ => ⟨pres_pure _, fun w w' h hv => by cases hv; exact h⟩
  | call e =>
    intro he _
    refine ⟨Still.exec hX l e he.1 he.2, fun w w' h hv => ?_⟩
    rcases hv with rfl | rfl
    · exact h
    · exact Still.exec hX l e he.1 he.2 w h
  | seq p q ihp ihq =>
    intro hpq hf
    obtain ⟨p1, p2⟩ := ihp hpq.1 hf.1
    obtain ⟨q1, q2⟩ := ihq hpq.2 hf.2
    refine ⟨pres_bind p1 fun _ => q1, fun w w' h hv => ?_⟩
    rcases hv with hv | ⟨w1, e1, hv⟩
    · exact p2 w w' h hv
    · have := p1 w h
      rw [e1] at this
      exact q2 w1 w' this hv
  | withCtx c p ih =>
    intro hp hf
    have hact : ∀ w : World K, Still N x X l w → w.active.isSome = true := fun w h => by rw [h.1]; rfl
    refine ⟨fun w h => ?_, fun w w' h hv => ?_⟩
    · obtain ⟨e, he⟩ := openCtx_refused c (hact w h)
      rw [run_withCtx]
      unfold withStmt
      rw [he]
      exact Still.contextOf c w h
    · obtain ⟨e, he⟩ := openCtx_refused c (hact w h)
      rcases hv with rfl | rfl | ⟨x, w1, h1, -⟩
      · exact h
      · rw [he]; exact Still.contextOf c w h
      · rw [he] at h1; cases h1
  | withFreeze p ih => exact fun _ hf => hf.elim
  | attempt p ih =>
    intro hp hf
    obtain ⟨p1, p2⟩ := ih hp hf
    exact ⟨pres_tryPass p1, p2⟩

end DG
