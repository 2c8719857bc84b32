import Verif.Model.Threads
import Verif.Proofs.Enter

/-! Lemmas for C92. -/

namespace DG
open Spec
variable {K : Type}

/-- The two steps together are `__enter__`. -/
theorem enter_split (c : Nat) (w : World K) : openCtx c w =
    (do let x ← contextOf c; enterTest x; enterSet x; pure x : M K Nat) w := by
  unfold openCtx enterCtx enterTest enterSet
  simp only [bind_def]
  cases contextOf c w with
  | mk r w1 =>
    cases r with
    | error e => rfl
    | ok x =>
      dsimp only
      unfold ctxObj circ M.deref
      cases hX : w1.ctxs[x]? with
      | none => simp only [hX]
      | some X =>
        cases hC : w1.circs[X.circuit]? with
        | none => simp only [hX, hC]
        | some C =>
          cases hl : C.locked with
          | true => simp [hX, hC, hl, M.raiseIf]
          | false =>
            cases ha : w1.active with
            | some y => simp [hX, hC, hl, ha, M.raiseIf, M.read]
            | none =>
              simp [hX, hC, hl, ha, M.raiseIf, M.read, M.write]

theorem enterTest_same (x : Nat) (w : World K) : (enterTest x w).2 = w ∧ ((enterTest x w).1 = .ok () → w.active = none) := by
  unfold enterTest
  simp only [bind_def, ctxObj, circ, M.deref]
  cases hX : w.ctxs[x]? with
  | none => exact ⟨rfl, fun h => by cases h⟩
  | some X =>
    dsimp only
    cases hC : w.circs[X.circuit]? with
    | none => exact ⟨rfl, fun h => by cases h⟩
    | some C =>
      dsimp only [M.raiseIf, M.read]
      cases C.locked with
      | true => exact ⟨rfl, fun h => by cases h⟩
      | false =>
        cases h : w.active with
        | some y => simp [h]
        | none => simp [h]

theorem enterSet_inv {x c : Nat} {w : World K} (h : ∃ X, w.ctxs[x]? = some X ∧ X.circuit = c) : ActiveIn x c (enterSet x w).2 := by
  obtain ⟨X, hX, hc⟩ := h
  have h0 : ActiveIn x c { w with active := some x } := ⟨rfl, X, hX, hc⟩
  unfold enterSet
  simp only [bind_def, ctxObj, M.deref, hX, M.write]
  have := pres_bind ((ActiveIn.ctl (K := K) x c).qubitsOf X.circuit) (fun _ => pres_bind ((ActiveIn.ctl x c).bitsOf X.circuit) fun _ => pres_pure ()) _ h0
  exact this

theorem enterSet_refs {x : Nat} : Pres (Refs (K := K)) (enterSet x) := by
  intro w h
  unfold enterSet
  simp only [bind_def, ctxObj, M.deref]
  cases hX : w.ctxs[x]? with
  | none => exact h
  | some X =>
    have h1 : Refs { w with active := some x } := h.setActive fun y hy => by cases hy; exact (List.getElem?_eq_some_iff.1 hX).1
    have := pres_bind (Refs.qubitsOf (K := K) X.circuit) (fun _ => pres_bind (Refs.bitsOf X.circuit) fun _ => pres_pure (P := Refs) ()) _ h1
    exact this

theorem ActiveIn.contextOf {x c : Nat} (d : Nat) : Pres (ActiveIn (K := K) x c) (contextOf d) := by
  intro w h
  obtain ⟨h1, X, h2, h3⟩ := h
  have hs := contextOf_same d w
  refine ⟨hs.active.trans h1, X, ?_, h3⟩
  obtain ⟨l, hl⟩ := hs.ctxs
  rw [← hl, List.getElem?_append_left (List.getElem?_eq_some_iff.1 h2).1]
  exact h2

variable [DecidableEq K] [Zero K]

/-- At most one thread is inside of a block, and its context is the active one; a thread can only be entering a context if there is no active context. -/
structure Excl (s : Threads K) : Prop where
  refs : Refs s.w
  inside : ∀ i x c, s.place i = .inside x c → ActiveIn x c s.w
  one : ∀ i x c j y d, s.place i = .inside x c → s.place j = .inside y d → j = i
  entering : ∀ i x c, s.place i = .entering x c → s.w.active = none ∧ (∃ X, s.w.ctxs[x]? = some X ∧ X.circuit = c) ∧ ∀ j, j ≠ i → s.place j = .outside

omit [DecidableEq K] [Zero K] in
theorem Threads.to_same (s : Threads K) (i : Nat) (p : Place) (w : World K) : (s.to i p w).place i = p := by simp [Threads.to]

omit [DecidableEq K] [Zero K] in
theorem Threads.to_ne (s : Threads K) {i j : Nat} (p : Place) (w : World K) (h : j ≠ i) : (s.to i p w).place j = s.place j := by simp [Threads.to, h]

omit [DecidableEq K] [Zero K] in
/-- A call. -/
theorem Excl.keep {s : Threads K} (h : Excl s) (hne : ∀ i x c, s.place i ≠ .entering x c) {i : Nat} {w' : World K} (h1 : Refs w')
    (h2 : ∀ x c, ActiveIn x c s.w → ActiveIn x c w') : Excl (s.to i (s.place i) w') := by
  have hp : ∀ j, (s.to i (s.place i) w').place j = s.place j := by
    intro j
    by_cases e : j = i
    · subst e; exact Threads.to_same _ _ _ _
    · exact Threads.to_ne _ _ _ e
  refine ⟨h1, fun j x c hj => ?_, fun j x c k y d hj hk => ?_, fun j x c hj => ?_⟩
  · rw [hp] at hj; exact h2 x c (h.inside j x c hj)
  · rw [hp] at hj hk; exact h.one j x c k y d hj hk
  · rw [hp] at hj; exact absurd hj (hne j x c)

theorem Excl.step {s : Threads K} (h : Excl s) {i : Nat} {a : Act K} (hat : ∀ j x c, s.place j = .entering x c → j = i ∧ a = .goOn) :
    Excl (s.step i a) := by
  have hne : a ≠ .goOn → ∀ j x c, s.place j ≠ .entering x c := fun ha j x c hj => ha (hat j x c hj).2
  have hcall : ∀ e : Call K, a = .call e → Excl (s.to i (s.place i) (execCall e s.w).2) := fun e ea =>
    h.keep (hne (by rw [ea]; simp)) (Refs.exec e _ h.refs) fun x c => (ActiveIn.ctl x c).exec (fun a w h => h) (fun _ _ => ActiveIn.addCtx) e _
  have hfr : a = .freeze → Excl (s.to i (s.place i) (freezeEnter s.w).2) := fun ea =>
    h.keep (hne (by rw [ea]; simp)) (by unfold freezeEnter; split; exact h.refs; exact Refs.setFrozen _ _ _ h.refs) fun x c => ActiveIn.freezeEnter _
  have hun : a = .unfreeze → Excl (s.to i (s.place i) (freezeExit s.w).2) := fun ea =>
    h.keep (hne (by rw [ea]; simp)) (by unfold freezeExit; split; exact h.refs; exact Refs.setFrozen _ _ _ h.refs) fun x c => ActiveIn.freezeExit _
  unfold Threads.step
  cases hp : s.place i with
  | outside =>
    rw [hp] at hcall hfr hun
    cases a with
    | call e => exact hcall e rfl
    | freeze => exact hfr rfl
    | unfreeze => exact hun rfl
    | goOn => exact h
    | leave => exact h
    | enter c =>
      dsimp only
      have hne := hne (by simp)
      have hfail : ∀ w', Refs w' → (∀ x c, ActiveIn x c s.w → ActiveIn x c w') → Excl (s.to i .outside w') := by
        intro w' h1 h2
        have := h.keep hne (i := i) h1 h2
        rw [hp] at this
        exact this
      simp only [bind_def]
      have hr := Refs.contextOf c s.w h.refs
      have hs := contextOf_same c s.w
      have hac : ∀ x d, ActiveIn x d s.w → ActiveIn x d (contextOf c s.w).2 := fun x d => ActiveIn.contextOf c s.w
      have hok : ∀ x, (contextOf c s.w).1 = .ok x → ∃ X, (contextOf c s.w).2.ctxs[x]? = some X ∧ X.circuit = c := by
        intro x hx
        cases hC : s.w.circs[c]? with
        | none => unfold contextOf at hx; rw [hC] at hx; cases hx
        | some C =>
          obtain ⟨y, Y, g1, g2, g3, -⟩ := contextOf_ok h.refs hC
          rw [g1] at hx
          cases hx
          exact ⟨Y, g2, g3⟩
      generalize contextOf c s.w = z at hr hs hac hok
      obtain ⟨_ | x, w1⟩ := z
      · exact hfail w1 hr hac
      · dsimp only at hr hs hac hok ⊢
        obtain ⟨g1, g2⟩ := enterTest_same x w1
        generalize enterTest x w1 = z at g1 g2
        obtain ⟨_ | u, w2⟩ := z
        · dsimp only at g1 ⊢
          subst g1
          exact hfail w2 hr hac
        · dsimp only at g1 g2 ⊢
          subst g1
          have ha := g2 rfl
          have hnone : ∀ j y d, s.place j ≠ .inside y d := by
            intro j y d hj
            have := (hac y d (h.inside j y d hj)).1
            rw [ha] at this; cases this
          have hout : ∀ j, s.place j = .outside := by
            intro j
            cases e : s.place j with
            | outside => rfl
            | entering y d => exact absurd e (hne j y d)
            | inside y d => exact absurd e (hnone j y d)
          show Excl (s.to i (.entering x c) w2)
          refine ⟨hr, fun j y d hj => ?_, fun j y d k y' d' hj hk => ?_, fun j y d hj => ?_⟩
          · by_cases e : j = i
            · subst e; rw [Threads.to_same] at hj; cases hj
            · rw [Threads.to_ne _ _ _ e] at hj; exact absurd hj (hnone j y d)
          · by_cases e : j = i
            · subst e; rw [Threads.to_same] at hj; cases hj
            · rw [Threads.to_ne _ _ _ e] at hj; exact absurd hj (hnone j y d)
          · by_cases e : j = i
            · subst e
              rw [Threads.to_same] at hj
              cases hj
              exact ⟨ha, hok x rfl, fun k hk => by rw [Threads.to_ne _ _ _ hk]; exact hout k⟩
            · rw [Threads.to_ne _ _ _ e, hout j] at hj; cases hj
  | entering x c =>
    obtain ⟨h1, h2, h3⟩ := h.entering i x c hp
    have hact := (hat i x c hp).2
    subst hact
    dsimp only
    have hr := enterSet_refs (x := x) s.w h.refs
    have hin := enterSet_inv h2
    have hother : ∀ p w' j, j ≠ i → (s.to i p w').place j = .outside := fun p w' j hj => by rw [Threads.to_ne _ _ _ hj]; exact h3 j hj
    generalize enterSet x s.w = z at hr hin
    obtain ⟨_ | u, w1⟩ := z
    · refine ⟨hr, fun j y d hj => ?_, fun j y d k y' d' hj hk => ?_, fun j y d hj => ?_⟩
      all_goals
        exfalso
        by_cases e : j = i
        · subst e; rw [Threads.to_same] at hj; cases hj
        · rw [hother _ _ j e] at hj; cases hj
    · have key : ∀ j y d, (s.to i (.inside x c) w1).place j = .inside y d → j = i ∧ y = x ∧ d = c := by
        intro j y d hj
        by_cases e : j = i
        · subst e
          rw [Threads.to_same] at hj
          cases hj
          exact ⟨rfl, rfl, rfl⟩
        · rw [hother _ _ j e] at hj; cases hj
      refine ⟨hr, fun j y d hj => ?_, fun j y d k y' d' hj hk => ?_, fun j y d hj => ?_⟩
      · obtain ⟨-, rfl, rfl⟩ := key j y d hj
        exact hin
      · rw [(key j y d hj).1, (key k y' d' hk).1]
      · exfalso
        by_cases e : j = i
        · subst e; rw [Threads.to_same] at hj; cases hj
        · rw [hother _ _ j e] at hj; cases hj
  | inside x c =>
    rw [hp] at hcall hfr hun
    cases a with
    | call e => exact hcall e rfl
    | freeze => exact hfr rfl
    | unfreeze => exact hun rfl
    | goOn => exact h
    | enter c => exact h
    | leave =>
      have hne := hne (by simp)
      dsimp only
      have hother : ∀ j y d, (s.to i .outside (exitCtx x s.w).2).place j ≠ .inside y d := by
        intro j y d hj
        by_cases e : j = i
        · subst e; rw [Threads.to_same] at hj; cases hj
        · rw [Threads.to_ne _ _ _ e] at hj
          exact e (h.one i x c j y d hp hj)
      refine ⟨Refs.exitCtx x s.w h.refs, fun j y d hj => absurd hj (hother j y d), fun j y d k y' d' hj hk => absurd hj (hother j y d), fun j y d hj => ?_⟩
      exfalso
      by_cases e : j = i
      · subst e; rw [Threads.to_same] at hj; cases hj
      · rw [Threads.to_ne _ _ _ e] at hj; exact hne j y d hj

end DG
