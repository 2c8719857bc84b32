import Verif.Spec.QirModule
import Verif.Proofs.Qir

/-! The life of a QIR module. -/

namespace DG
open Spec
variable {K : Type} {uniq : List String → String → String}

namespace BaseModule

theorem hasTy_iff (args : List (QirArg K)) (tys : List QirTy) : args.map Qir.argTy = tys.map some ↔ List.Forall₂ HasTy args tys := by
  induction args generalizing tys with
  | nil => cases tys <;> simp
  | cons a as ih =>
    cases tys with
    | nil => simp
    | cons t ts =>
      simp only [List.map_cons, List.cons.injEq, List.forall₂_cons, ih]
      refine and_congr_left fun _ => ?_
      constructor
      · intro h
        cases a <;> cases t <;> simp [Qir.argTy] at h <;> constructor
      · rintro ⟨⟩ <;> rfl

theorem qis_iff (name callee : String) (tys : List QirTy) : Qir.qis.get? name = some (callee, tys) ↔ (name, callee, tys) ∈ baseInstructions := by
  constructor
  · intro h
    have h1 := PyDict.get?_mem h
    have : ∀ p ∈ Qir.qis, p ∈ baseInstructions := by decide +kernel
    exact this _ h1
  · intro h
    have : ∀ p ∈ baseInstructions, Qir.qis.get? p.1 = some p.2 := by decide +kernel
    exact this _ h

theorem execute_iff (i : QirInstr K) (c : LInstr K) : Qir.execute i = .ok c ↔ Emits i c := by
  unfold Emits Qir.execute
  constructor
  · intro h
    dsimp only at h
    split at h
    · cases h
    · next callee tys hf =>
      split at h
      · next ht =>
        cases h
        refine ⟨callee, tys, ?_, (hasTy_iff _ _).1 ht, rfl⟩
        split at hf
        · next e => exact .inl ⟨.inl e, (qis_iff _ _ _).1 hf⟩
        · next e => exact .inl ⟨.inr e, (qis_iff _ _ _).1 hf⟩
        · next e => exact .inr ⟨e, hf⟩
        · cases hf
      · cases h
  · rintro ⟨callee, tys, h, ht, rfl⟩
    have ht' := (hasTy_iff _ _).2 ht
    rcases h with ⟨h1 | h1, h2⟩ | ⟨h1, h2⟩
    · simp [h1, (qis_iff _ _ _).2 h2, ht']
    · simp [h1, (qis_iff _ _ _).2 h2, ht']
    · simp [h1, h2, ht']

theorem emit_iff (l : List (QirInstr K)) (cs : List (LInstr K)) : emit l = (cs, none) ↔ List.Forall₂ Emits l cs := by
  induction l generalizing cs with
  | nil => cases cs <;> simp [emit]
  | cons i is ih =>
    unfold emit
    cases h : Qir.execute i with
    | error e =>
      simp only [Prod.mk.injEq, reduceCtorEq, and_false, false_iff]
      rintro (_ | ⟨h1, -⟩)
      rw [← execute_iff, h] at h1
      cases h1
    | ok c =>
      dsimp only
      constructor
      · intro e
        simp only [Prod.mk.injEq] at e
        obtain ⟨rfl, e⟩ := e
        exact .cons ((execute_iff _ _).1 h) ((ih _).1 (Prod.ext rfl e))
      · rintro (_ | ⟨h1, h2⟩)
        rw [← execute_iff, h] at h1
        cases h1
        rw [(ih _).2 h2]

theorem record_iff (i : QirInstr K) (c : LInstr K) : record i = .ok c ↔ Records i c := by
  unfold record Records
  split
  · next h => simp [h]
  · next j rest h =>
    rw [h]
    constructor
    · intro e; cases e; exact ⟨j, rest, rfl, rfl⟩
    · rintro ⟨j', rest', e, rfl⟩; cases e; rfl
  · next a rest h h2 =>
    rw [h2]
    constructor
    · intro e; cases e
    · rintro ⟨j', rest', e, rfl⟩; cases e; exact absurd rfl (h j')

theorem emitOutput_iff (l : List (QirInstr K)) (cs : List (LInstr K)) : emitOutput l = (cs, none) ↔ List.Forall₂ Records l cs := by
  induction l generalizing cs with
  | nil => cases cs <;> simp [emitOutput]
  | cons i is ih =>
    unfold emitOutput
    cases h : record i with
    | error e =>
      simp only [Prod.mk.injEq, reduceCtorEq, and_false, false_iff]
      rintro (_ | ⟨h1, -⟩)
      rw [← record_iff, h] at h1
      cases h1
    | ok c =>
      dsimp only
      constructor
      · intro e
        simp only [Prod.mk.injEq] at e
        obtain ⟨rfl, e⟩ := e
        exact .cons ((record_iff _ _).1 h) ((ih _).1 (Prod.ext rfl e))
      · rintro (_ | ⟨h1, h2⟩)
        rw [← record_iff, h] at h1
        cases h1
        rw [(ih _).2 h2]

theorem build_iff (M : BaseModule K) (d : QirDef K) : M.build = (d, none) ↔ MainOf M.body M.measurements M.output M.retCmd d := by
  unfold build MainOf
  dsimp only
  constructor
  · intro h
    split at h
    · cases h
    · next b hb =>
      split at h
      · cases h
      · next m hm =>
        split at h
        · cases h
        · next o ho =>
          cases h
          exact ⟨b, m, o, (emit_iff _ _).1 hb, (emit_iff _ _).1 hm, (emitOutput_iff _ _).1 ho, rfl⟩
  · rintro ⟨b, m, o, hb, hm, ho, rfl⟩
    rw [(emit_iff _ _).2 hb]
    dsimp only
    rw [(emit_iff _ _).2 hm]
    dsimp only
    rw [(emitOutput_iff _ _).2 ho]

/-- A function that raised an exception has no return. -/
theorem build_error {M : BaseModule K} {d : QirDef K} {e : Err} (h : M.build = (d, some e)) : d.ret = none := by
  unfold build at h
  dsimp only at h
  split at h
  · cases h; rfl
  · split at h
    · cases h; rfl
    · split at h
      · cases h; rfl
      · cases h

theorem verify_append (l : List (QirDef K)) (d : QirDef K) : verify (l ++ [d]) = (verify l && verify [d]) := by simp [verify]

/-- A module that is not compiled has no function, or one that is not valid. -/
structure Inv (M : BaseModule K) : Prop where
  compiled : M.compiled = true → M.qir = some M.defs ∧ M.ret = .live
  fresh : M.compiled = false → M.defs = [] ∨ verify M.defs = false

/-- The module after a compilation that failed. -/
def Bad (M : BaseModule K) : Prop := M.compiled = false ∧ verify M.defs = false

theorem compileNow_spec (strict : Bool) (M : BaseModule K) (hc : M.compiled = false) :
    (∃ M', M.compileNow strict = (.ok (), M') ∧ M'.compiled = true ∧ M'.qir = some M'.defs ∧ M'.ret = .live ∧ M'.retCmd = M.retCmd ∧ M'.body = M.body ∧
      M'.measurements = M.measurements ∧ M'.output = M.output ∧
      ∃ d, M'.defs = M.defs ++ [d] ∧ MainOf M.body M.measurements M.output M.retCmd d ∧ (strict = true → verify M.defs = true ∧ M.retCmd = none)) ∨
    (∃ e M', M.compileNow strict = (.error e, M') ∧ Bad M' ∧
      ¬ ((∃ d, MainOf M.body M.measurements M.output M.retCmd d) ∧ (strict = true → verify M.defs = true ∧ M.retCmd = none))) := by
  unfold compileNow
  dsimp only
  cases hb : M.build with
  | mk d e =>
    cases e with
    | some e =>
      refine .inr ⟨.py e, _, rfl, ⟨hc, ?_⟩, ?_⟩
      · dsimp only
        rw [verify_append]
        simp [verify, build_error hb]
      · rintro ⟨⟨d', h⟩, -⟩
        rw [← build_iff, hb] at h
        cases h
    | none =>
      dsimp only
      have hd := (build_iff M d).1 hb
      have hr : d.ret = some M.retCmd := by
        obtain ⟨b, m, o, -, -, -, rfl⟩ := hd
        rfl
      have hv : verify (M.defs ++ [d]) = true ↔ verify M.defs = true ∧ M.retCmd = none := by
        rw [verify_append]
        cases hm : M.retCmd <;> simp [verify, hr, hm]
      by_cases hs : (!verify (M.defs ++ [d]) && strict) = true
      · rw [if_pos hs]
        simp only [Bool.and_eq_true, Bool.not_eq_true'] at hs
        refine .inr ⟨_, _, rfl, ⟨hc, hs.1⟩, ?_⟩
        rintro ⟨-, h⟩
        rw [hv.2 (h hs.2)] at hs
        cases hs.1
      · rw [if_neg hs]
        refine .inl ⟨_, rfl, rfl, rfl, rfl, rfl, rfl, rfl, rfl, d, rfl, hd, fun h => hv.1 ?_⟩
        simpa [h] using hs

theorem reset_spec (rm : Bool) (M : BaseModule K) :
    ((reset uniq rm M).1 = .ok () ∧ M.ret = .live ∧ (reset uniq rm M).2.compiled = false ∧ (reset uniq rm M).2.defs = [] ∧ (reset uniq rm M).2.ret = .erased ∧
      (reset uniq rm M).2.body = (if rm then [] else keepInternal M.body) ∧
      (reset uniq rm M).2.measurements = (if rm then [] else keepInternal M.measurements) ∧
      (reset uniq rm M).2.output = (if rm then [] else keepInternal M.output) ∧
      (reset uniq rm M).2.retCmd = (if rm then none else M.retCmd)) ∨
    (∃ e, (reset uniq rm M).1 = .error e ∧ M.ret ≠ .live ∧ (reset uniq rm M).2.compiled = M.compiled ∧ (reset uniq rm M).2.defs = []) := by
  unfold reset
  dsimp only
  cases h : M.ret <;> dsimp only
  · exact .inr ⟨_, rfl, by simp, rfl, rfl⟩
  · left; cases rm <;> simp
  · exact .inr ⟨_, rfl, by simp, rfl, rfl⟩

theorem Inv.reset {M : BaseModule K} (h : Inv M) (rm : Bool) : Inv (M.reset uniq rm).2 := by
  rcases reset_spec (uniq := uniq) rm M with ⟨-, -, h1, h2, -⟩ | ⟨e, -, h1, h2, h3⟩
  · exact ⟨fun hc => (by rw [h1] at hc; cases hc), fun _ => .inl h2⟩
  · refine ⟨fun hc => ?_, fun _ => .inl h3⟩
    rw [h2] at hc
    exact absurd (h.compiled hc).2 h1

theorem inv_compileNow (strict : Bool) {M : BaseModule K} (hc : M.compiled = false) : Inv (M.compileNow strict).2 := by
  rcases compileNow_spec strict M hc with ⟨M', h1, h2, h3, h4, -⟩ | ⟨e, M', h1, h2, -⟩
  · rw [h1]; exact ⟨fun _ => ⟨h3, h4⟩, fun h => by rw [h2] at h; cases h⟩
  · rw [h1]; exact ⟨fun h => (by rw [h2.1] at h; cases h), fun _ => .inr h2.2⟩

theorem compile_compiled {M : BaseModule K} (h : Inv M) (hc : M.compiled = true) (strict : Bool) :
    ∃ M1, M.reset uniq false = (.ok (), M1) ∧ M1.compiled = false ∧ M1.defs = [] ∧ M1.body = keepInternal M.body ∧
      M1.measurements = keepInternal M.measurements ∧ M1.output = keepInternal M.output ∧ M1.retCmd = M.retCmd ∧
      M.compile uniq true strict = M1.compileNow strict := by
  rcases reset_spec (uniq := uniq) false M with ⟨h0, -, h1, h2, -, h3, h4, h5, h6⟩ | ⟨e, -, h1, -⟩
  · refine ⟨_, Prod.ext h0 rfl, h1, h2, by simpa using h3, by simpa using h4, by simpa using h5, by simpa using h6, ?_⟩
    unfold compile
    rw [hc]
    simp only [if_true, Bool.not_true, Bool.false_eq_true, if_false]
    generalize M.reset uniq false = z at h0
    obtain ⟨r, M1⟩ := z
    cases h0
    rfl
  · exact absurd (h.compiled hc).2 h1

theorem Inv.compile {M : BaseModule K} (h : Inv M) (force strict : Bool) : Inv (M.compile uniq force strict).2 := by
  cases hc : M.compiled with
  | false =>
    unfold BaseModule.compile
    rw [hc]
    exact inv_compileNow strict hc
  | true =>
    cases force with
    | false =>
      unfold BaseModule.compile
      rw [hc]
      exact h
    | true =>
      obtain ⟨M1, -, h1, -, -, -, -, -, e⟩ := compile_compiled (uniq := uniq) h hc strict
      rw [e]
      exact inv_compileNow strict h1

theorem Inv.getQir {M : BaseModule K} (h : Inv M) : Inv (M.getQir uniq).2 := by
  have := h.compile (uniq := uniq) false true
  unfold BaseModule.getQir
  split
  · exact h
  · generalize M.compile uniq false true = z at this
    obtain ⟨_ | _, M1⟩ := z <;> exact this

theorem Inv.getBitcode {M : BaseModule K} (h : Inv M) : Inv (M.getBitcode uniq).2 := by
  have := h.compile (uniq := uniq) false true
  unfold BaseModule.getBitcode
  split
  · exact h
  · generalize M.compile uniq false true = z at this
    obtain ⟨_ | _, M1⟩ := z <;> exact this

/-- Only `ret`, `compiled`, `qir` and `defs` matter for the invariant. -/
theorem Inv.same {M M' : BaseModule K} (h : Inv M) (h1 : M'.compiled = M.compiled) (h2 : M'.qir = M.qir) (h3 : M'.defs = M.defs) (h4 : M'.ret = M.ret) : Inv M' :=
  ⟨fun hc => by rw [h2, h3, h4]; exact h.compiled (h1 ▸ hc), fun hc => by rw [h3]; exact h.fresh (h1 ▸ hc)⟩

/-- What adding instructions and functions, and setting the return value, leaves. -/
structure Kept (M M' : BaseModule K) : Prop where
  compiled : M'.compiled = M.compiled
  qir : M'.qir = M.qir
  defs : M'.defs = M.defs
  ret : M'.ret = M.ret

theorem addInstruction_kept (block : String) (i : QirInstr K) (M : BaseModule K) : Kept M (M.addInstruction block i).2 := by
  unfold addInstruction
  split
  · exact ⟨rfl, rfl, rfl, rfl⟩
  · split
    · exact ⟨rfl, rfl, rfl, rfl⟩
    · split <;> exact ⟨rfl, rfl, rfl, rfl⟩

theorem addExternalInstruction_kept (block name : String) (args : List (QirArg K)) (M : BaseModule K) : Kept M (M.addExternalInstruction block name args).2 := by
  unfold addExternalInstruction
  split
  · exact ⟨rfl, rfl, rfl, rfl⟩
  · exact addInstruction_kept _ _ _

theorem setReturn_kept (cmd : Option (QirArg K)) (force : Bool) (M : BaseModule K) : Kept M (M.setReturn cmd force).2 := by
  unfold setReturn
  split <;> exact ⟨rfl, rfl, rfl, rfl⟩

/-- Every call other than `compile`, `reset`, `qir` and `bitcode`. -/
theorem run_kept (e : ModCall K) (M : BaseModule K) :
    Kept M (e.run uniq M).2 ∨ (∃ f s, e = .compile f s) ∨ (∃ rm, e = .reset rm) ∨ e = .qir ∨ e = .bitcode := by
  cases e with
  | add block type name args =>
    left
    unfold ModCall.run
    dsimp only
    split
    · exact ⟨rfl, rfl, rfl, rfl⟩
    · exact addInstruction_kept _ _ _
  | addExternal block name args => exact .inl (addExternalInstruction_kept _ _ _ _)
  | declare name tys => exact .inl ⟨rfl, rfl, rfl, rfl⟩
  | setReturn cmd force => exact .inl (setReturn_kept _ _ _)
  | compile f s => exact .inr (.inl ⟨f, s, rfl⟩)
  | reset rm => exact .inr (.inr (.inl ⟨rm, rfl⟩))
  | qir => exact .inr (.inr (.inr (.inl rfl)))
  | bitcode => exact .inr (.inr (.inr (.inr rfl)))

theorem Inv.run {M : BaseModule K} (h : Inv M) (e : ModCall K) : Inv (e.run uniq M).2 := by
  rcases run_kept (uniq := uniq) e M with k | ⟨f, s, rfl⟩ | ⟨rm, rfl⟩ | rfl | rfl
  · exact h.same k.compiled k.qir k.defs k.ret
  · exact h.compile f s
  · exact h.reset rm
  · exact h.getQir
  · exact h.getBitcode

theorem history_inv {M : BaseModule K} (h : ModHistory uniq M) : Inv M := by
  induction h with
  | new => exact ⟨fun h => (by cases h), fun _ => .inl rfl⟩
  | call _ _ ih => exact ih.run _

/-- Whether `compile` succeeds for a module that is not compiled. -/
theorem compile_fresh (force strict : Bool) {M : BaseModule K} (hc : M.compiled = false) : M.compile uniq force strict = M.compileNow strict := by
  unfold compile
  rw [hc]
  rfl

theorem getQir_eq (M : BaseModule K) (hc : M.compiled = false) :
    (∃ M', M.compileNow true = (.ok (), M') ∧ M.getQir uniq = (.ok M'.qir, M') ∧ M.getBitcode uniq = (.ok (some M'.defs), M')) ∨
    (∃ e M', M.compileNow true = (.error e, M') ∧ M.getQir uniq = (.error e, M') ∧ M.getBitcode uniq = (.error e, M')) := by
  unfold getQir getBitcode
  rw [hc, compile_fresh _ _ hc]
  generalize M.compileNow true = z
  obtain ⟨_ | _, M'⟩ := z
  · exact .inr ⟨_, _, rfl, rfl, rfl⟩
  · exact .inl ⟨_, rfl, rfl, rfl⟩

/-- A compiled module stays as it is. -/
theorem run_compiled {M : BaseModule K} (hc : M.compiled = true) {e : ModCall K} (he : NoRecompile e) : Kept M (e.run uniq M).2 := by
  rcases run_kept (uniq := uniq) e M with k | ⟨f, s, rfl⟩ | ⟨rm, rfl⟩ | rfl | rfl
  · exact k
  · cases (show f = false from he)
    show Kept M (M.compile uniq false s).2
    unfold compile
    rw [hc]
    exact ⟨rfl, rfl, rfl, rfl⟩
  · exact he.elim
  · show Kept M (M.getQir uniq).2
    unfold getQir; rw [hc]; exact ⟨rfl, rfl, rfl, rfl⟩
  · show Kept M (M.getBitcode uniq).2
    unfold getBitcode; rw [hc]; exact ⟨rfl, rfl, rfl, rfl⟩

theorem Kept.trans {M1 M2 M3 : BaseModule K} (h : Kept M1 M2) (h' : Kept M2 M3) : Kept M1 M3 :=
  ⟨h'.compiled.trans h.compiled, h'.qir.trans h.qir, h'.defs.trans h.defs, h'.ret.trans h.ret⟩

theorem runAll_compiled (es : List (ModCall K)) (he : ∀ e ∈ es, NoRecompile e) {M : BaseModule K} (hc : M.compiled = true) : Kept M (runAll uniq es M) := by
  induction es generalizing M with
  | nil => exact ⟨rfl, rfl, rfl, rfl⟩
  | cons e es ih =>
    have h1 := run_compiled (uniq := uniq) hc (he e (by simp))
    exact h1.trans (ih (fun e' h' => he e' (by simp [h'])) (by rw [h1.compiled, hc]))

/-- A module whose compilation failed stays like that. -/
theorem Bad.compileNow {M : BaseModule K} (h : Bad M) : ∃ e M', M.compileNow true = (.error e, M') ∧ Bad M' := by
  rcases compileNow_spec true M h.1 with ⟨M', -, -, -, -, -, -, -, -, d, -, -, h2⟩ | ⟨e, M', h1, h2, -⟩
  · have := (h2 rfl).1
    rw [h.2] at this
    cases this
  · exact ⟨e, M', h1, h2⟩

theorem Bad.run {M : BaseModule K} (h : Bad M) {e : ModCall K} (he : Strict e) : Bad (e.run uniq M).2 := by
  obtain ⟨er, M', h1, h2⟩ := h.compileNow
  rcases run_kept (uniq := uniq) e M with k | ⟨f, s, rfl⟩ | ⟨rm, rfl⟩ | rfl | rfl
  · exact ⟨k.compiled.trans h.1, by rw [k.defs]; exact h.2⟩
  · cases (show s = true from he)
    show Bad (M.compile uniq f true).2
    rw [compile_fresh _ _ h.1, h1]
    exact h2
  · exact he.elim
  · show Bad (M.getQir uniq).2
    rcases getQir_eq (uniq := uniq) M h.1 with ⟨M'', g1, -⟩ | ⟨e, M'', g1, g2, -⟩
    · rw [g1] at h1; cases h1
    · rw [g2]; rw [g1] at h1; cases h1; exact h2
  · show Bad (M.getBitcode uniq).2
    rcases getQir_eq (uniq := uniq) M h.1 with ⟨M'', g1, -⟩ | ⟨e, M'', g1, -, g2⟩
    · rw [g1] at h1; cases h1
    · rw [g2]; rw [g1] at h1; cases h1; exact h2

theorem Bad.runAll (es : List (ModCall K)) (he : ∀ e ∈ es, Strict e) {M : BaseModule K} (h : Bad M) : Bad (runAll uniq es M) := by
  induction es generalizing M with
  | nil => exact h
  | cons e es ih => exact ih (fun e' h' => he e' (by simp [h'])) (h.run (he e (by simp)))

/-- Equal but for the return instruction of a function that is gone. -/
def Alike (M N : BaseModule K) : Prop := N = { M with ret := N.ret } ∧ (M.compiled = true → M.ret = .live ∧ N.ret = .live)

theorem Alike.compileNow {M N : BaseModule K} (h : Alike M N) (hc : M.compiled = false) (strict : Bool) :
    (M.compileNow strict).1 = (N.compileNow strict).1 ∧ Alike (M.compileNow strict).2 (N.compileNow strict).2 := by
  obtain ⟨h1, -⟩ := h
  rw [h1]
  generalize N.ret = r
  have hb : ({ M with ret := r } : BaseModule K).build = M.build := rfl
  unfold BaseModule.compileNow
  rw [hb]
  dsimp only
  cases hd : M.build with
  | mk d e =>
    cases e with
    | some e => exact ⟨rfl, rfl, fun h => by rw [show M.compiled = true from h] at hc; cases hc⟩
    | none =>
      dsimp only
      split
      · exact ⟨rfl, rfl, fun _ => ⟨rfl, rfl⟩⟩
      · exact ⟨rfl, rfl, fun _ => ⟨rfl, rfl⟩⟩

theorem Alike.refl_of {M : BaseModule K} (h : M.compiled = true → M.ret = .live) : Alike M M := ⟨rfl, fun hc => ⟨h hc, h hc⟩⟩

/-- Alike modules which are compiled are equal. -/
theorem Alike.eq {M N : BaseModule K} (h : Alike M N) (hc : M.compiled = true) : N = M := by
  obtain ⟨h1, h2⟩ := h
  obtain ⟨h3, h4⟩ := h2 hc
  rw [h1, h4, ← h3]

theorem Alike.run {M N : BaseModule K} (h : Alike M N) (hi : Inv M) {e : ModCall K} (he : NoReset e) :
    (e.run uniq M).1 = (e.run uniq N).1 ∧ Alike (e.run uniq M).2 (e.run uniq N).2 := by
  by_cases hc : M.compiled = true
  · rw [h.eq hc]
    exact ⟨rfl, .refl_of fun hc => ((hi.run (uniq := uniq) e).compiled hc).2⟩
  · have hc : M.compiled = false := by simpa using hc
    have hN : N.compiled = false := by rw [h.1]; exact hc
    have hcomp := h.compileNow hc
    cases e with
    | add block type name args =>
      unfold ModCall.run
      dsimp only
      split
      · exact ⟨rfl, h⟩
      · rw [h.1]
        generalize N.ret = r
        unfold addInstruction
        split
        · exact ⟨rfl, rfl, fun h => by rw [show M.compiled = true from h] at hc; cases hc⟩
        · split
          · exact ⟨rfl, rfl, fun h => by rw [show M.compiled = true from h] at hc; cases hc⟩
          · split
            · exact ⟨rfl, rfl, fun h => by rw [show M.compiled = true from h] at hc; cases hc⟩
            · exact ⟨rfl, rfl, fun h => by rw [show M.compiled = true from h] at hc; cases hc⟩
    | addExternal block name args =>
      unfold ModCall.run addExternalInstruction
      rw [h.1]
      dsimp only
      generalize N.ret = r
      cases M.externals.get? name with
      | none => exact ⟨rfl, rfl, fun h => by rw [show M.compiled = true from h] at hc; cases hc⟩
      | some f =>
        dsimp only
        unfold addInstruction
        split
        · exact ⟨rfl, rfl, fun h => by rw [show M.compiled = true from h] at hc; cases hc⟩
        · split
          · exact ⟨rfl, rfl, fun h => by rw [show M.compiled = true from h] at hc; cases hc⟩
          · split
            · exact ⟨rfl, rfl, fun h => by rw [show M.compiled = true from h] at hc; cases hc⟩
            · exact ⟨rfl, rfl, fun h => by rw [show M.compiled = true from h] at hc; cases hc⟩
    | declare name tys =>
      rw [h.1]
      exact ⟨rfl, rfl, fun h => by rw [show M.compiled = true from h] at hc; cases hc⟩
    | setReturn cmd force =>
      rw [h.1]
      generalize N.ret = r
      unfold ModCall.run setReturn
      dsimp only
      split
      · exact ⟨rfl, rfl, fun h => by rw [show M.compiled = true from h] at hc; cases hc⟩
      · exact ⟨rfl, rfl, fun h => by rw [show M.compiled = true from h] at hc; cases hc⟩
    | compile f s =>
      unfold ModCall.run
      dsimp only
      rw [compile_fresh f s hc, compile_fresh f s hN, (hcomp s).1]
      exact ⟨rfl, (hcomp s).2⟩
    | reset rm => exact he.elim
    | qir =>
      obtain ⟨g1, g2⟩ := hcomp true
      unfold ModCall.run
      dsimp only
      rcases getQir_eq (uniq := uniq) M hc with ⟨M1, a1, a2, -⟩ | ⟨e1, M1, a1, a2, -⟩ <;>
        rcases getQir_eq (uniq := uniq) N hN with ⟨N1, b1, b2, -⟩ | ⟨e2, N1, b1, b2, -⟩ <;> rw [a1, b1] at g1 g2 <;> rw [a2, b2]
      · refine ⟨?_, g2⟩
        dsimp only at g2 ⊢
        rw [g2.1]
      · cases g1
      · cases g1
      · cases g1
        exact ⟨rfl, g2⟩
    | bitcode =>
      obtain ⟨g1, g2⟩ := hcomp true
      unfold ModCall.run
      dsimp only
      rcases getQir_eq (uniq := uniq) M hc with ⟨M1, a1, -, a2⟩ | ⟨e1, M1, a1, -, a2⟩ <;>
        rcases getQir_eq (uniq := uniq) N hN with ⟨N1, b1, -, b2⟩ | ⟨e2, N1, b1, -, b2⟩ <;> rw [a1, b1] at g1 g2 <;> rw [a2, b2]
      · refine ⟨?_, g2⟩
        dsimp only at g2 ⊢
        rw [g2.1]
      · cases g1
      · cases g1
      · cases g1
        exact ⟨rfl, g2⟩

theorem Alike.results (es : List (ModCall K)) (he : ∀ e ∈ es, NoReset e) {M N : BaseModule K} (h : Alike M N) (hi : Inv M) :
    results uniq es M = results uniq es N := by
  induction es generalizing M N with
  | nil => rfl
  | cons e es ih =>
    obtain ⟨h1, h2⟩ := h.run (uniq := uniq) hi (he e (by simp))
    unfold Spec.results
    rw [h1, ih (fun e' h' => he e' (by simp [h'])) h2 (hi.run e)]

/-! ## Modules of circuits -/

/-- The module that `qir_module` builds. -/
def of (Q : QirModule K) : BaseModule K :=
  { body := Q.body, measurements := Q.measurements, output := Q.output, externals := Q.externals, functions := Q.functions }

/-- `Q'` can be made of `Q` by calls. -/
def Made (uniq : List String → String → String) (Q Q' : QirModule K) : Prop :=
  ∃ es : List (ModCall K), (∀ e ∈ es, Adds e) ∧ (∀ r ∈ results uniq es (of Q), r = .ok none) ∧ runAll uniq es (of Q) = of Q'

theorem results_append (es es' : List (ModCall K)) (M : BaseModule K) :
    results uniq (es ++ es') M = results uniq es M ++ results uniq es' (runAll uniq es M) := by
  induction es generalizing M with
  | nil => rfl
  | cons e es ih =>
    rw [List.cons_append, Spec.results, ih]
    rfl

theorem Made.refl (Q : QirModule K) : Made uniq Q Q := ⟨[], by simp, by simp [results], rfl⟩

theorem Made.trans {Q1 Q2 Q3 : QirModule K} (h : Made uniq Q1 Q2) (h' : Made uniq Q2 Q3) : Made uniq Q1 Q3 := by
  obtain ⟨es, a1, a2, a3⟩ := h
  obtain ⟨es', b1, b2, b3⟩ := h'
  refine ⟨es ++ es', ?_, ?_, ?_⟩
  · intro e he
    rcases List.mem_append.1 he with h | h
    · exact a1 e h
    · exact b1 e h
  · intro r hr
    rw [results_append, a3] at hr
    rcases List.mem_append.1 hr with h | h
    · exact a2 r h
    · exact b2 r h
  · unfold runAll at a3 b3 ⊢
    rw [List.foldl_append, a3, b3]

theorem Made.one {Q Q' : QirModule K} (e : ModCall K) (he : Adds e) (h : e.run uniq (of Q) = (.ok none, of Q')) : Made uniq Q Q' := by
  refine ⟨[e], by simpa using he, ?_, ?_⟩
  · intro r hr
    simp only [results, List.mem_singleton] at hr
    rw [hr, h]
  · show (e.run uniq (of Q)).2 = _
    rw [h]

/-- The instructions of the block `output` record results. -/
def Outputs (Q : QirModule K) : Prop := ∀ i ∈ Q.output, ∃ j, i.args = [.result j]

theorem place_result {b : Bank} {n x : Nat} {a : QirArg K} (h : Qir.place b n QirArg.result x = .ok a) : ∃ j, a = .result j := by
  unfold Qir.place at h
  split at h
  · cases h
  · unfold Qir.constant at h
    split at h
    · cases h; exact ⟨_, rfl⟩
    · split at h
      · cases h; exact ⟨_, rfl⟩
      · cases h

theorem measure_made {C : Circ} {name : String} (ps : List (Nat × Nat)) {Q Q' : QirModule K} (ho : Outputs Q) (h : Qir.measure C name ps Q = .ok Q') :
    Made uniq Q Q' ∧ Outputs Q' := by
  induction ps generalizing Q with
  | nil => cases h; exact ⟨.refl _, ho⟩
  | cons p ps ih =>
    obtain ⟨q, b⟩ := p
    unfold Qir.measure at h
    split at h
    · cases h
    · next x hx =>
      split at h
      · cases h
      · next y hy =>
        obtain ⟨j, rfl⟩ := place_result hy
        obtain ⟨h1, h2⟩ := ih (by
          intro i hi
          rcases List.mem_append.1 hi with hi | hi
          · exact ho i hi
          · simp only [List.mem_singleton] at hi; rw [hi]; exact ⟨j, rfl⟩) h
        refine ⟨.trans (.trans (Q2 := { Q with measurements := Q.measurements ++ [⟨.measurement, name, [x, .result j], none⟩] }) ?_ ?_) h1, h2⟩
        · exact .one (.add "measurements" .measurement name [x, .result j]) trivial (by
            simp [ModCall.run, addInstruction, of, Except.map])
        · exact .one (.add "output" .output "out" [.result j]) trivial (by
            simp [ModCall.run, addInstruction, of, Except.map])

theorem step_made {ext : Bool} {C : Circ} {k : OpCls} {op : OpObj K} {m m' : Bool} {Q Q' : QirModule K} (ho : Outputs Q)
    (h : Qir.step uniq ext C k op m Q = .ok (m', Q')) : Made uniq Q Q' ∧ Outputs Q' := by
  unfold Qir.step at h
  split at h
  · split at h
    · split at h
      · cases h
      · next hm => cases h; exact measure_made _ ho hm
    · cases h
  · next name _ =>
    split at h
    · cases h
    · split at h
      · cases h
      · next hg =>
        cases h
        unfold Qir.gate at hg
        split at hg
        · cases hg
        · split at hg
          · cases hg
          · split at hg
            · cases hg
            · next as _ _ ps _ =>
              cases hg
              exact ⟨.one (.add "body" .base name (ps ++ as)) trivial (by simp [ModCall.run, addInstruction, of, Except.map]), ho⟩
  · next name _ =>
    split at h
    · split at h
      · cases h
      · next Q1 he =>
        unfold Qir.addExternal at he
        split at he
        · cases he
        · next n _ =>
          cases he
          split at h
          · cases h
          · split at h
            · cases h
            · next hg =>
              cases h
              unfold Qir.gate at hg
              split at hg
              · cases hg
              · split at hg
                · cases hg
                · split at hg
                  · cases hg
                  · next as _ _ ps _ =>
                    cases hg
                    generalize List.replicate n QirTy.qubit ++ List.replicate (if k.kind.isParametric = true then k.numParams.getD 0 else 0) QirTy.double = tys
                    refine ⟨.trans (Q2 := { Q with functions := Q.functions ++ [uniq Q.functions (Qir.qisName name)],
                                                   externals := Q.externals.set name (uniq Q.functions (Qir.qisName name), tys) }) (.one (.declare name tys)
                      trivial rfl) (.one (.addExternal "body" name (ps ++ as)) trivial ?_), ho⟩
                    simp [ModCall.run, addExternalInstruction, addInstruction, of, Except.map, PyDict.get?_set_same]
    · cases h
  · cases h

theorem loop_made {ext : Bool} {w : World K} {C : Circ} (os : List Nat) {m : Bool} {Q Q' : QirModule K} (ho : Outputs Q)
    (h : Qir.loop uniq ext w C os m Q = .ok Q') : Made uniq Q Q' ∧ Outputs Q' := by
  induction os generalizing m Q with
  | nil => cases h; exact ⟨.refl _, ho⟩
  | cons o os ih =>
    unfold Qir.loop at h
    split at h
    · cases h
    · split at h
      · cases h
      · split at h
        · cases h
        · next hs =>
          obtain ⟨h1, h2⟩ := step_made ho hs
          obtain ⟨h3, h4⟩ := ih h2 h
          exact ⟨h1.trans h3, h4⟩

theorem executeAll_emits (l : List (QirInstr K)) (cs : List (LInstr K)) : Qir.executeAll l = .ok cs → List.Forall₂ Emits l cs := by
  induction l generalizing cs with
  | nil => intro h; cases h; exact .nil
  | cons i is ih =>
    intro h
    unfold Qir.executeAll at h
    split at h
    · cases h
    · next c hc =>
      split at h
      · cases h
      · next l hl =>
        cases h
        exact .cons ((execute_iff _ _).1 hc) (ih _ hl)

theorem compile_made {Q : QirModule K} (ho : Outputs Q) {P : QirProgram K} (h : Qir.compile Q = .ok P) :
    ∃ blocks, P = [blocks] ∧ MainOf Q.body Q.measurements Q.output none ⟨blocks, some none⟩ := by
  unfold Qir.compile at h
  split at h
  · cases h
  · next b hb =>
    split at h
    · cases h
    · next m hm =>
      cases h
      refine ⟨_, rfl, b, m, Q.output.map Qir.record, executeAll_emits _ _ hb, executeAll_emits _ _ hm, ?_, rfl⟩
      rw [List.forall₂_map_right_iff, List.forall₂_same]
      intro i hi
      obtain ⟨j, hj⟩ := ho i hi
      exact ⟨j, [], hj, by simp [Qir.record, hj]⟩

/-- `circuit.to_qir()` builds and compiles a module. -/
theorem toQir_made {c : Nat} {ext : Bool} {w w1 : World K} {P : QirProgram K} (e : toQir uniq c ext w = (.ok P, w1)) :
    ∃ (es : List (ModCall K)) (blocks : List (List (LInstr K))), (∀ e ∈ es, Adds e) ∧ (∀ r ∈ results uniq es ({} : BaseModule K), r = .ok none) ∧ P = [blocks] ∧
      ((runAll uniq es ({} : BaseModule K)).getQir uniq).1 = .ok (some [⟨blocks, some none⟩]) := by
  unfold toQir at e
  rw [bind_def] at e
  generalize qubitsOf c w = z at e
  obtain ⟨_ | r, w2⟩ := z
  · cases e
  dsimp only at e
  rw [bind_def] at e
  generalize bitsOf c w2 = z at e
  obtain ⟨_ | s, w3⟩ := z
  · cases e
  dsimp only at e
  rw [bind_def] at e
  generalize circ c w3 = z at e
  obtain ⟨_ | C, w4⟩ := z
  · cases e
  dsimp only at e
  rw [bind_def] at e
  simp only [M.read, id] at e
  cases hQ : Qir.loop uniq ext w4 C C.ops false { numQubits := r.cy.stop, numBits := s.cy.stop } with
  | error er => rw [hQ] at e; cases e
  | ok Q =>
    rw [hQ] at e
    have hP : Qir.compile Q = .ok P := congrArg Prod.fst e
    obtain ⟨⟨es, h1, h2, h3⟩, ho⟩ := loop_made (uniq := uniq) C.ops (Q := { numQubits := r.cy.stop, numBits := s.cy.stop }) (by intro i hi; cases hi) hQ
    obtain ⟨blocks, rfl, hb⟩ := compile_made ho hP
    refine ⟨es, blocks, h1, h2, rfl, ?_⟩
    have h3 : runAll uniq es ({} : BaseModule K) = of Q := h3
    rw [h3]
    have hbuild := (build_iff (of Q) ⟨blocks, some none⟩).2 hb
    have : (of Q).compileNow true = (.ok (), ((of Q).compileNow true).2) ∧ ((of Q).compileNow true).2.qir = some [⟨blocks, some none⟩] := by
      unfold compileNow
      rw [hbuild]
      exact ⟨rfl, rfl⟩
    rcases getQir_eq (uniq := uniq) (of Q) rfl with ⟨M', g1, g2, -⟩ | ⟨e, M', g1, -⟩
    · rw [g2]
      rw [g1] at this
      exact congrArg Except.ok this.2
    · rw [g1] at this
      cases this.1

end BaseModule

end DG
