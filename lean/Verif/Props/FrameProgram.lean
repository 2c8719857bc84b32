import Verif.Props.Frame
import Verif.Proofs.Enter

/-!
# C123 for whole programs

A program that calls no changing method of a circuit and does not open its context leaves it as it is, whatever else the program does: other contexts, templates (also the circuit itself
as a template), frozen contexts, exceptions that are caught or not.
-/

namespace DG.Props
open DG.Spec
variable {K : Type}

/-- The invariant: circuit `d` looks like `V`, and the active context, if there is one, is not of circuit `d`. -/
structure Aside (d : Nat) (V : Bool × List Nat × PyDict RLabel Reg × PyDict RLabel Reg × Bool × List Nat × Bool) (w : World K) : Prop where
  refs : Refs w
  looks : (w.circs[d]?).map sees = some V
  other : ∀ x X, w.active = some x → w.ctxs[x]? = some X → X.circuit ≠ d

section
variable {d : Nat} {V : Bool × List Nat × PyDict RLabel Reg × PyDict RLabel Reg × Bool × List Nat × Bool}

theorem Aside.activeIn {w : World K} (h : Aside d V w) {x : Nat} (hx : w.active = some x) : ∃ c, c ≠ d ∧ ActiveIn x c w := by
  have hlt := h.refs.active x hx
  exact ⟨_, h.other x _ hx (List.getElem?_eq_getElem hlt), hx, _, List.getElem?_eq_getElem hlt, rfl⟩

theorem other_of_active {w : World K} {x c : Nat} (hc : c ≠ d) (h : ActiveIn x c w) : ∀ y X, w.active = some y → w.ctxs[y]? = some X → X.circuit ≠ d := by
  intro y Y hy hY
  obtain ⟨h1, X, h2, h3⟩ := h
  rw [h1] at hy
  cases hy
  rw [h2] at hY
  cases hY
  rw [h3]
  exact hc

theorem Aside.notTarget {w : World K} (h : Aside d V w) : w.target ≠ some d := by
  intro ht
  unfold World.target at ht
  cases ha : w.active with
  | none => simp [ha] at ht
  | some x =>
    cases hX : w.ctxs[x]? with
    | none => simp [ha, hX] at ht
    | some X =>
      have := h.other x X ha hX
      cases hf : X.frozen <;> simp [ha, hX, hf] at ht
      exact this ht

theorem mayChange_cases (w : World K) (e : Call K) {d : Nat} (h : mayChange w e = some d) : callee e = some d ∨ w.target = some d := by
  cases e <;> first | exact .inl h | exact .inr h

theorem Aside.contextOf (c : Nat) : Pres (Aside (K := K) d V) (contextOf c) := by
  intro w h
  have hs := contextOf_same c w
  obtain ⟨l, hl⟩ := hs.ctxs
  refine ⟨Refs.contextOf c w h.refs, ?_, ?_⟩
  · unfold DG.contextOf
    split
    · exact h.looks
    · rename_i C hC
      split
      · exact h.looks
      · exact (Keep.setSame (A := w.active) (X := w.ctxs) (C' := { C with ctx := some w.ctxs.length }) ⟨h.looks, rfl, rfl⟩ hC rfl).1
  · intro x X hx hX
    rw [hs.active] at hx
    have hlt := h.refs.active x hx
    rw [← hl, List.getElem?_append_left hlt] at hX
    exact h.other x X hx hX

theorem Aside.items {w : World K} (h : Aside d V w) {α : Type} {m : M K α} (hr : Pres Refs m) (hk : ∀ A X, Pres (Keep (K := K) d V A X) m) : Aside d V (m w).2 := by
  have h1 := hk w.active w.ctxs w ⟨h.looks, rfl, rfl⟩
  exact ⟨hr w h.refs, h1.1, by rw [h1.2.1, h1.2.2]; exact h.other⟩

theorem Aside.openCtx {c : Nat} (hc : c ≠ d) : Pres (Aside (K := K) d V) (openCtx c) := by
  intro w h
  unfold DG.openCtx
  cases hC : w.circs[c]? with
  | none =>
    simp only [bind_def, DG.contextOf, hC]
    exact h
  | some C =>
    obtain ⟨x, X, h1, h2, h3, h4, h5⟩ := contextOf_ok h.refs hC
    have h6 := Aside.contextOf (d := d) (V := V) c w h
    rw [bind_def, h1]
    dsimp only
    generalize (DG.contextOf c w).2 = w1 at h1 h2 h3 h4 h5 h6
    have h4' : w1.circs[X.circuit]? = some { C with ctx := some x } := by rw [h3]; exact h4
    unfold enterCtx
    simp only [bind_def, ctxObj, circ, M.deref, h2, h4', M.raiseIf, M.read]
    cases C.locked with
    | true => exact h6
    | false =>
      simp only [Bool.false_eq_true, if_false]
      cases hact : w1.active with
      | some y => exact h6
      | none =>
        simp only [Option.isSome_none, Bool.false_eq_true, if_false, M.write]
        have h7 : Aside d V { w1 with active := some x } := by
          refine ⟨h6.refs.setActive fun y hy => by cases hy; exact (List.getElem?_eq_some_iff.1 h2).1, h6.looks, ?_⟩
          intro y Y hy hY
          cases hy
          have hY' : w1.ctxs[x]? = some Y := hY
          rw [h2] at hY'
          cases hY'
          rw [h3]
          exact hc
        have key := pres_bind (P := Aside (K := K) d V) (fun w h => h.items (Refs.qubitsOf X.circuit) fun _ _ => keep_qubitsOf _) fun _ =>
          pres_bind (fun w h => h.items (Refs.bitsOf X.circuit) fun _ _ => keep_bitsOf _) fun _ => pres_pure (P := Aside (K := K) d V) ()
        have h8 := (pres_bind key fun _ => pres_pure (P := Aside (K := K) d V) x) _ h7
        exact h8

theorem Aside.exitCtx {w : World K} (h : Aside d V w) {x c : Nat} (hc : c ≠ d) (hx : ActiveIn x c w) : Aside d V (exitCtx x w).2 := by
  obtain ⟨-, X, h2, h3⟩ := hx
  obtain ⟨vars, C, hC, -, he⟩ := exitCtx_ok h.refs h2
  refine ⟨Refs.exitCtx x w h.refs, ?_, ?_⟩
  · rw [he]
    dsimp only
    rw [List.getElem?_set_ne (by rw [h3]; exact hc)]
    exact h.looks
  · rw [he]
    intro y Y hy
    cases hy

theorem Aside.setFrozen {w : World K} (h : Aside d V w) (x : Nat) (b : Bool) : Aside d V (setFrozen x b w).2 := by
  refine ⟨Refs.setFrozen x b w h.refs, ?_, ?_⟩
  · unfold DG.setFrozen M.write
    dsimp only
    split <;> exact h.looks
  · have ha : (DG.setFrozen x b w).2.active = w.active := by
      unfold DG.setFrozen M.write
      dsimp only
      split <;> rfl
    intro y Y hy
    rw [ha] at hy
    obtain ⟨c, hc, hin⟩ := h.activeIn hy
    exact other_of_active hc (ActiveIn.setFrozen x b w hin) y Y (ha.trans hy)

variable [DecidableEq K] [Zero K]

theorem Aside.exec {e : Call K} (he : callee e ≠ some d) : Pres (Aside (K := K) d V) (execCall e) := by
  intro w h
  have hl := h.looks
  obtain ⟨C, hC, hV⟩ := Option.map_eq_some_iff.1 hl
  refine ⟨Refs.exec e w h.refs, ?_, ?_⟩
  · rw [C123_frame w e hC ?_, hV]
    intro hm
    rcases mayChange_cases w e hm with hm | hm
    · exact he hm
    · exact h.notTarget hm
  · cases ha : w.active with
    | none =>
      have hctl : Ctl (K := K) fun w => w.active = none := ⟨fun w w' h1 _ _ h => h1.trans h⟩
      have := hctl.exec (fun _ _ h => h) (fun _ _ h => h) e w ha
      intro x X hx
      rw [this] at hx
      cases hx
    | some x =>
      obtain ⟨c, hc, hin⟩ := h.activeIn ha
      exact other_of_active hc ((ActiveIn.inside (.call e)).1 w hin)

theorem Aside.run : ∀ (p : Prog K), LeavesAlone d p → Pres (Aside (K := K) d V) p.run
  | .skip, _ => pres_pure _
  | .call e, he => Aside.exec he
  | .seq p q, he => pres_bind (Aside.run p he.1) fun _ => Aside.run q he.2
  | .attempt p, he => fun w h => Aside.run p he w h
  | .withCtx c p, he => by
    intro w h
    show Aside d V (withStmt (DG.openCtx c) p.run DG.exitCtx w).2
    have h1 := Aside.openCtx (d := d) (V := V) he.1 w h
    unfold withStmt
    rcases ho : DG.openCtx c w with ⟨e | x, w1⟩
    · rw [ho] at h1
      exact h1
    · rw [ho] at h1
      have h2 := Aside.run p he.2 w1 h1
      have h3 : ActiveIn x c (p.run w1).2 := (ActiveIn.inside p).1 w1 (openCtx_inv h.refs ho)
      have h4 := h2.exitCtx he.1 h3
      dsimp only
      rcases hx : DG.exitCtx x (p.run w1).2 with ⟨e | u, w3⟩ <;> rw [hx] at h4 <;> exact h4
  | .withFreeze p, he => by
    intro w h
    show Aside d V (withStmt freezeEnter p.run (fun _ => freezeExit) w).2
    have h1 : Aside d V (freezeEnter w).2 := by
      unfold freezeEnter
      split
      · exact h
      · exact h.setFrozen _ _
    unfold withStmt
    rcases ho : freezeEnter w with ⟨e | x, w1⟩
    · rw [ho] at h1
      exact h1
    · rw [ho] at h1
      have h2 := Aside.run p he w1 h1
      have h4 : Aside d V (freezeExit (p.run w1).2).2 := by
        unfold freezeExit
        split
        · exact h2
        · exact h2.setFrozen _ _
      dsimp only
      rcases hx : freezeExit (p.run w1).2 with ⟨e | u, w3⟩ <;> rw [hx] at h4 <;> exact h4

end

variable [DecidableEq K] [Zero K]

/-- **C123 for programs.** From every reachable state in which the active context, if any, is not of circuit `d`: a program that calls no changing method of circuit `d` and does not open
its context leaves circuit `d` as the user sees it. -/
theorem C123_program {A : Call K → Prop} {w : World K} (hw : Reach A w) {d : Nat} {C : Circ} (hC : w.circs[d]? = some C)
    (ha : ∀ x X, w.active = some x → w.ctxs[x]? = some X → X.circuit ≠ d) (p : Prog K) (hp : LeavesAlone d p) :
    ((p.run w).2.circs[d]?).map sees = some (sees C) :=
  (Aside.run (V := sees C) p hp w ⟨Refs.reach hw, by rw [hC]; rfl, ha⟩).looks

/-- A template circuit 0, and a program that applies it, twice, to a second circuit. -/
def templateDemo : Prog Int :=
  .seq (.call (.newClass ⟨"X", .plain, ⟨false, some 1, none, none⟩, none⟩)) <| .seq (.call (.newCirc false (some 1) none)) <|
  .withCtx 0 (.call (.construct 0 none (.qubits (some [0]))))

def applyDemo : Prog Int :=
  .seq (.call (.newCirc false (some 2) none)) <| .withCtx 1 (.seq (.call (.call 0 [1] none)) (.call (.call 0 [2] none)))

/-- Not vacuous: the program avoids circuit 0, uses it as a template and fills circuit 1. -/
example : LeavesAlone 0 applyDemo ∧ templateDemo.final.active = none ∧ ((applyDemo.run templateDemo.final).2.circs.map fun C => (C.ops, C.locked)) = [([0], true), ([1, 2], true)] := by
  refine ⟨?_, by decide +kernel, by decide +kernel⟩
  simp [LeavesAlone, applyDemo, callee, mayChange, World.target]

example : ((applyDemo.run templateDemo.final).2.circs[0]?).map sees = (templateDemo.final.circs[0]?).map sees := by
  obtain ⟨C, hC⟩ : ∃ C, templateDemo.final.circs[0]? = some C := by
    have hl : templateDemo.final.circs.length = 1 := by decide +kernel
    exact ⟨_, List.getElem?_eq_getElem (by omega)⟩
  have ha : templateDemo.final.active = none := by decide +kernel
  have hr : Reach (fun _ => True) templateDemo.final := ⟨templateDemo, .of _, templateDemo.visits_run {}⟩
  have hp : LeavesAlone 0 applyDemo := by simp [LeavesAlone, applyDemo, callee, mayChange, World.target]
  generalize templateDemo.final = w at *
  rw [C123_program hr hC (fun x X h => by rw [ha] at h; cases h) applyDemo hp, hC]
  rfl

end DG.Props
