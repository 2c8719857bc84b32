import Verif.Proofs.CallParam

/-! `remove` and `reset`. -/

namespace DG
open Spec
variable {K : Type} [DecidableEq K] [Zero K]

theorem varEqNum_iff (val : Option K) (x : K) : PyVal.varEqNum val x = true ↔ val = some x ∧ x ≠ 0 := by
  unfold PyVal.varEqNum
  cases val with
  | none => simp
  | some v =>
    simp only [Option.some.injEq]
    by_cases h : v = 0
    · subst h
      simp only [if_true, Bool.false_eq_true, false_iff]
      rintro ⟨rfl, h⟩
      exact h rfl
    · rw [if_neg h, decide_eq_true_iff]
      constructor
      · rintro rfl; exact ⟨rfl, h⟩
      · exact fun h => h.1

theorem paramEq_iff (w : World K) (a b : OpParam K) : paramEq w a b = true ↔ SameParam w a b := by
  cases a <;> cases b <;> simp only [paramEq, SameParam]
  · exact decide_eq_true_iff
  · exact varEqNum_iff _ _
  · exact varEqNum_iff _ _
  · next v u =>
    cases hv : w.vars[v]? <;> cases hu : w.vars[u]? <;> simp

theorem paramsEq_iff (w : World K) : ∀ l m : List (OpParam K), paramsEq w l m = true ↔ List.Forall₂ (SameParam w) l m
  | [], [] => by simp [paramsEq]
  | [], _ :: _ => by simp [paramsEq]
  | _ :: _, [] => by simp [paramsEq]
  | a :: l, b :: m => by
    simp only [paramsEq, Bool.and_eq_true, List.forall₂_cons]
    rw [paramEq_iff, paramsEq_iff w l m]

theorem opEq_iff {w : World K} {x y : OpObj K} {k k' : OpCls} (hx : w.classes[x.cls]? = some k) (hy : w.classes[y.cls]? = some k')
    (hp : k.kind.isParametric = true → k'.kind.isParametric = true) : ∃ b, opEq w x y = .ok b ∧ (b = true ↔ SameOp w x y) := by
  unfold opEq
  simp only [hx, hy]
  by_cases h : k.kind.isParametric = true
  · rw [if_pos h, if_pos (hp h)]
    refine ⟨_, rfl, ?_⟩
    simp only [Bool.and_eq_true, baseEq, decide_eq_true_iff]
    rw [paramsEq_iff]
    constructor
    · rintro ⟨h1, h2, h3⟩
      exact ⟨k, k', hx, hy, h2.symm, h3.symm, fun _ => h1⟩
    · rintro ⟨a, a', h1, h2, h3, h4, h5⟩
      rw [hx] at h1; rw [hy] at h2
      cases h1; cases h2
      exact ⟨h5 h, h3.symm, h4.symm⟩
  · rw [if_neg h]
    refine ⟨_, rfl, ?_⟩
    simp only [Bool.and_eq_true, baseEq, decide_eq_true_iff]
    constructor
    · rintro ⟨h2, h3⟩
      exact ⟨k, k', hx, hy, h2.symm, h3.symm, fun e => absurd e h⟩
    · rintro ⟨a, a', h1, h2, h3, h4, h5⟩
      rw [hx] at h1; rw [hy] at h2
      cases h1; cases h2
      exact ⟨h3.symm, h4.symm⟩

theorem indexLoop_ok {w : World K} {o : Nat} {y : OpObj K} {k' : OpCls} (ho : w.ops[o]? = some y) (hk : w.classes[y.cls]? = some k') :
    ∀ (l : List Nat) (n : Nat), (∀ a ∈ l, ∃ x k, w.ops[a]? = some x ∧ w.classes[x.cls]? = some k ∧
      (k.kind.isParametric = true → k'.kind.isParametric = true)) →
    (∃ i, EqualAt w l o i ∧ (∀ j < i, ¬ EqualAt w l o j) ∧ indexLoop w o y l n = .ok (n + i)) ∨
    ((∀ i, ¬ EqualAt w l o i) ∧ indexLoop w o y l n = .error .valueError)
  | [], n, _ => .inr ⟨by rintro i ⟨a, h, -⟩; simp at h, rfl⟩
  | a :: l, n, hl => by
    obtain ⟨x, k, h1, h2, h3⟩ := hl a (by simp)
    obtain ⟨b, h4, h5⟩ := opEq_iff h2 hk h3
    have hs : ∀ i, EqualAt w (a :: l) o (i + 1) ↔ EqualAt w l o i := fun i => by simp [EqualAt]
    unfold indexLoop
    by_cases e : a = o
    · rw [if_pos e]
      exact .inl ⟨0, ⟨a, rfl, .inl e⟩, by simp, rfl⟩
    · rw [if_neg e]
      simp only [h1, h4]
      cases b with
      | true => exact .inl ⟨0, ⟨a, rfl, .inr ⟨x, y, h1, ho, h5.1 rfl⟩⟩, by simp, rfl⟩
      | false =>
        have h0 : ¬ EqualAt w (a :: l) o 0 := by
          rintro ⟨a', h, h'⟩
          simp only [List.getElem?_cons_zero, Option.some.injEq] at h
          subst h
          rcases h' with h' | ⟨x', y', g1, g2, g3⟩
          · exact e h'
          · rw [h1] at g1; rw [ho] at g2
            cases g1; cases g2
            cases h5.2 g3
        rcases indexLoop_ok ho hk l (n + 1) (fun a ha => hl a (by simp [ha])) with ⟨i, g1, g2, g3⟩ | ⟨g1, g2⟩
        · refine .inl ⟨i + 1, (hs i).2 g1, fun j hj => ?_, by rw [g3, Nat.add_assoc, Nat.add_comm 1 i]⟩
          cases j with
          | zero => exact h0
          | succ j => rw [hs]; exact g2 j (by omega)
        · refine .inr ⟨fun j => ?_, g2⟩
          cases j with
          | zero => exact h0
          | succ j => rw [hs]; exact g1 j

theorem indexLoop_cases {w : World K} {o : Nat} {y : OpObj K} {k' : OpCls} (ho : w.ops[o]? = some y) (hk : w.classes[y.cls]? = some k') :
    ∀ (l : List Nat) (n : Nat), (∀ a ∈ l, ∃ x k, w.ops[a]? = some x ∧ w.classes[x.cls]? = some k) →
    (∃ i, EqualAt w l o i ∧ ¬ Incomparable w l o i ∧ (∀ j < i, ¬ EqualAt w l o j ∧ ¬ Incomparable w l o j) ∧ indexLoop w o y l n = .ok (n + i)) ∨
    (∃ i, Incomparable w l o i ∧ (∀ j < i, ¬ EqualAt w l o j ∧ ¬ Incomparable w l o j) ∧ indexLoop w o y l n = .error .attributeError) ∨
    ((∀ i, ¬ EqualAt w l o i ∧ ¬ Incomparable w l o i) ∧ indexLoop w o y l n = .error .valueError)
  | [], n, _ => .inr (.inr ⟨fun i => ⟨by rintro ⟨a, h, -⟩; simp at h, by rintro ⟨a, _, _, _, _, h, -⟩; simp at h⟩, rfl⟩)
  | a :: l, n, hl => by
    obtain ⟨x, k, h1, h2⟩ := hl a (by simp)
    have hs : ∀ i, EqualAt w (a :: l) o (i + 1) ↔ EqualAt w l o i := fun i => by simp [EqualAt]
    have hs' : ∀ i, Incomparable w (a :: l) o (i + 1) ↔ Incomparable w l o i := fun i => by simp [Incomparable]
    have inc0 : Incomparable w (a :: l) o 0 ↔ a ≠ o ∧ k.kind.isParametric = true ∧ k'.kind.isParametric = false := by
      constructor
      · rintro ⟨a', x', y', c, c', g1, g2, g3, g4, g5, g6, g7, g8⟩
        simp only [List.getElem?_cons_zero, Option.some.injEq] at g1
        subst g1
        rw [h1] at g3; cases g3
        rw [ho] at g4; cases g4
        rw [h2] at g5; cases g5
        rw [hk] at g6; cases g6
        exact ⟨g2, g7, g8⟩
      · rintro ⟨g1, g2, g3⟩
        exact ⟨a, x, y, k, k', rfl, g1, h1, ho, h2, hk, g2, g3⟩
    unfold indexLoop
    by_cases e : a = o
    · rw [if_pos e]
      exact .inl ⟨0, ⟨a, rfl, .inl e⟩, fun h => (inc0.1 h).1 e, by simp, rfl⟩
    · rw [if_neg e]
      by_cases hb : k.kind.isParametric = true ∧ k'.kind.isParametric = false
      · refine .inr (.inl ⟨0, inc0.2 ⟨e, hb⟩, by simp, ?_⟩)
        simp only [h1, opEq, h2, hk, hb.1, hb.2]
        rfl
      · have h3 : k.kind.isParametric = true → k'.kind.isParametric = true := by
          intro h
          cases h' : k'.kind.isParametric with
          | true => rfl
          | false => exact absurd ⟨h, h'⟩ hb
        obtain ⟨b, h4, h5⟩ := opEq_iff h2 hk h3
        have hn0 : ¬ Incomparable w (a :: l) o 0 := fun h => hb (inc0.1 h).2
        simp only [h1, h4]
        cases b with
        | true => exact .inl ⟨0, ⟨a, rfl, .inr ⟨x, y, h1, ho, h5.1 rfl⟩⟩, hn0, by simp, rfl⟩
        | false =>
          have h0 : ¬ EqualAt w (a :: l) o 0 := by
            rintro ⟨a', h, h'⟩
            simp only [List.getElem?_cons_zero, Option.some.injEq] at h
            subst h
            rcases h' with h' | ⟨x', y', g1, g2, g3⟩
            · exact e h'
            · rw [h1] at g1; rw [ho] at g2
              cases g1; cases g2
              cases h5.2 g3
          rcases indexLoop_cases ho hk l (n + 1) (fun a ha => hl a (by simp [ha])) with ⟨i, g1, g1', g2, g3⟩ | ⟨i, g1, g2, g3⟩ | ⟨g1, g2⟩
          · refine .inl ⟨i + 1, (hs i).2 g1, by rw [hs']; exact g1', fun j hj => ?_, by rw [g3, Nat.add_assoc, Nat.add_comm 1 i]⟩
            cases j with
            | zero => exact ⟨h0, hn0⟩
            | succ j => rw [hs, hs']; exact g2 j (by omega)
          · refine .inr (.inl ⟨i + 1, (hs' i).2 g1, fun j hj => ?_, g3⟩)
            cases j with
            | zero => exact ⟨h0, hn0⟩
            | succ j => rw [hs, hs']; exact g2 j (by omega)
          · refine .inr (.inr ⟨fun j => ?_, g2⟩)
            cases j with
            | zero => exact ⟨h0, hn0⟩
            | succ j => rw [hs, hs']; exact g1 j

omit [DecidableEq K] [Zero K] in
theorem each_resetItem : ∀ (ks : List Nat) (w : World K), ∃ bits, M.each (ks.map Lbl.obj) resetItem w = (.ok (), { w with bits := bits }) ∧
    bits.length = w.bits.length ∧ ∀ (k : Nat) (b : BitObj), w.bits[k]? = some b →
      bits[k]? = some { b with value := if k ∈ ks then none else b.value }
  | [], w => ⟨w.bits, rfl, rfl, fun k b h => by simp [h]⟩
  | x :: ks, w => by
    have h0 : ∃ bits, resetItem (.obj x) w = (.ok (), { w with bits := bits }) ∧ bits.length = w.bits.length ∧
        ∀ (k : Nat) (b : BitObj), w.bits[k]? = some b → bits[k]? = some { b with value := if k = x then none else b.value } := by
      unfold resetItem M.write
      dsimp only
      cases hx : w.bits[x]? with
      | none =>
        refine ⟨w.bits, rfl, rfl, fun k b hb => ?_⟩
        have : k ≠ x := by rintro rfl; rw [hx] at hb; cases hb
        rw [if_neg this, hb]
      | some b0 =>
        refine ⟨_, rfl, by simp, fun k b hb => ?_⟩
        by_cases hk : k = x
        · subst hk
          rw [hb] at hx
          cases hx
          rw [List.getElem?_set_self (List.getElem?_eq_some_iff.1 hb).1]
          simp
        · rw [List.getElem?_set_ne (Ne.symm hk), hb, if_neg hk]
    obtain ⟨b1, g1, g2, g3⟩ := h0
    obtain ⟨b2, f1, f2, f3⟩ := each_resetItem ks { w with bits := b1 }
    refine ⟨b2, ?_, by rw [f2]; exact g2, fun k b hb => ?_⟩
    · show M.each (Lbl.obj x :: ks.map Lbl.obj) resetItem w = _
      show (resetItem (.obj x) >>= fun _ => M.each (ks.map Lbl.obj) resetItem) w = _
      rw [bind_def, g1]
      exact f1
    · rw [f3 k _ (g3 k b hb)]
      by_cases h1 : k = x <;> by_cases h2 : k ∈ ks <;> simp [h1, h2]

omit [DecidableEq K] [Zero K] in
theorem resetCirc_keep {w : World K} {c : Nat} {C : Circ} (hC : w.circs[c]? = some C) {ks : List Nat}
    (hb : seen (bitsOf c w).1 = .ok (ks.map Lbl.obj)) :
    ∃ r bits, (bitsOf c w).1 = .ok r ∧ resetCirc c true w = (.ok (), World.setCirc { w with bits := bits } c { C with
        ops := [], ctx := none, c := { C.c with cache := some r }, locked := false, varsFrozen := C.varsFrozen && !C.param }) ∧
      bits.length = w.bits.length ∧ ∀ (k : Nat) (b : BitObj), w.bits[k]? = some b →
        bits[k]? = some { b with value := if k ∈ ks then none else b.value } := by
  have e0 : ∀ C' : Circ, C'.c = C.c → bitsOf c (w.setCirc c C') = ((bitsOf c w).1, w.setCirc c { C' with c := (C.c.flat w.bitEnv).2 }) := by
    intro C' h
    unfold bitsOf
    rw [setCirc_get hC, hC]
    dsimp only
    rw [h, setCirc_setCirc]
    rfl
  cases hr : (bitsOf c w).1 with
  | error e => rw [hr] at hb; cases hb
  | ok r =>
    rw [hr] at hb
    have hb : r.cy.iter = .ok (ks.map Lbl.obj) := hb
    have hc : (C.c.flat w.bitEnv).2 = { C.c with cache := some r } := by
      obtain ⟨w', hw'⟩ : ∃ w', bitsOf c w = (.ok r, w') := ⟨_, Prod.ext hr rfl⟩
      unfold bitsOf at hw'
      rw [hC] at hw'
      dsimp only at hw'
      unfold Bank.flat at hw' ⊢
      cases hcc : C.c.cache with
      | some r' =>
        rw [hcc] at hw'
        cases hw'
        show C.c = Bank.mk C.c.regs (some r)
        rw [← hcc]
      | none =>
        rw [hcc] at hw'
        dsimp only at hw' ⊢
        split at hw'
        · cases hw'
        · cases hw'; rfl
    obtain ⟨bits, g1, g2, g3⟩ := each_resetItem ks (w.setCirc c { C with ops := [], ctx := none, c := { C.c with cache := some r } })
    refine ⟨r, bits, rfl, ?_, g2, g3⟩
    unfold resetCirc
    rw [bind_def]
    have h1 : circ c w = (.ok C, w) := by unfold circ M.deref; dsimp only; rw [hC]
    rw [h1]
    dsimp only
    rw [bind_def]
    have h2 : modCirc c (fun C => { C with ops := [], ctx := none }) w = (.ok (), w.setCirc c { C with ops := [], ctx := none }) := by
      unfold modCirc M.write; dsimp only; rw [hC]
    rw [h2]
    dsimp only
    rw [bind_def]
    have h3 : resetRegisters c true (w.setCirc c { C with ops := [], ctx := none }) =
        (.ok (), { w.setCirc c { C with ops := [], ctx := none, c := { C.c with cache := some r } } with bits := bits }) := by
      unfold resetRegisters resetBits
      dsimp only
      rw [bind_def, e0 { C with ops := [], ctx := none } rfl, hr, hc]
      dsimp only
      rw [hb]
      exact g1
    rw [h3]
    dsimp only
    unfold unlockCirc modCirc M.write
    dsimp only
    rw [setCirc_get hC]
    dsimp only
    cases hp : C.param <;> simp [World.setCirc]

omit [DecidableEq K] [Zero K] in
theorem resetCirc_drop {w : World K} {c : Nat} {C : Circ} (hC : w.circs[c]? = some C) :
    resetCirc c false w = (.ok (), w.setCirc c { C with ops := [], ctx := none, q := C.q.clear, c := C.c.clear, locked := false, varsFrozen := C.varsFrozen && !C.param }) := by
  unfold resetCirc
  rw [bind_def]
  have h1 : circ c w = (.ok C, w) := by unfold circ M.deref; dsimp only; rw [hC]
  rw [h1]
  dsimp only
  rw [bind_def]
  have h2 : modCirc c (fun C => { C with ops := [], ctx := none }) w = (.ok (), w.setCirc c { C with ops := [], ctx := none }) := by
    unfold modCirc M.write; dsimp only; rw [hC]
  rw [h2]
  dsimp only
  rw [bind_def]
  unfold resetRegisters unlockCirc modCirc M.write
  dsimp only
  rw [setCirc_get hC]
  dsimp only
  rw [setCirc_setCirc, setCirc_get hC]
  dsimp only
  rw [setCirc_setCirc]
  cases hp : C.param <;> simp

end DG
