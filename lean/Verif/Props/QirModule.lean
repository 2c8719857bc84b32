import Verif.Proofs.QirModule
import Verif.Props.Qir

/-!
# Properties C88, C89: QIR modules over their histories

`e.run uniq M` is the call `e` of a method of the module `M` (`BaseModule`), see `Model/QirModule.lean`; a module that has just been created is `{}`.
See `Spec/QirModule.lean` for the vocabulary.
-/

namespace DG.Props
open Spec BaseModule
variable {K : Type} {uniq : List String → String → String}

/-! ## C88 -/

/-- C88: instructions are appended to the block that is named; other blocks, and what is compiled, stay. -/
theorem C88_add (block name : String) (type : InstrType) (args : List (QirArg K)) (M : BaseModule K) :
    (block = "body" ∨ block = "measurements" ∨ block = "output") ∧ type ≠ .external →
    ∃ M', (ModCall.add block type name args).run uniq M = (.ok none, M') ∧
      M' = { M with body := M.body ++ (if block = "body" then [⟨type, name, args, none⟩] else []),
                    measurements := M.measurements ++ (if block = "measurements" then [⟨type, name, args, none⟩] else []),
                    output := M.output ++ (if block = "output" then [⟨type, name, args, none⟩] else []) } := by
  rintro ⟨rfl | rfl | rfl, h⟩ <;> simp [ModCall.run, h, addInstruction, Except.map]

/-- C88: other blocks are refused. -/
theorem C88_block (block name : String) (type : InstrType) (args : List (QirArg K)) (M : BaseModule K) (h : type ≠ .external)
    (h1 : block ≠ "body") (h2 : block ≠ "measurements") (h3 : block ≠ "output") :
    (ModCall.add block type name args).run uniq M = (.error (.py .keyError), M) := by
  simp [ModCall.run, h, addInstruction, Except.map, h1, h2, h3]

/-- C88: a second return value is refused unless it is forced, and so is an instruction that calls a function that has not been declared, or that has type
`EXTERNAL` without a function. Nothing is changed. -/
theorem C88_refused (M : BaseModule K) :
    (∀ cmd, M.retCmd ≠ none → (ModCall.setReturn cmd false).run uniq M = (.error (.py .valueError), M)) ∧
    (∀ block name args, (∀ f tys, (name, (f, tys)) ∉ M.externals) → (ModCall.addExternal block name args).run uniq M = (.error (.py .valueError), M)) ∧
    (∀ block name args, (ModCall.add block .external name args).run uniq M = (.error (.py .valueError), M)) := by
  refine ⟨fun cmd h => ?_, fun block name args h => ?_, fun block name args => rfl⟩
  · have h' : M.retCmd.isSome = true := Option.isSome_iff_ne_none.2 h
    simp [ModCall.run, setReturn, h', Except.map]
  · have hn : ∀ (d : PyDict String (String × List QirTy)), (∀ f tys, (name, (f, tys)) ∉ d) → d.get? name = none := by
      intro d
      induction d with
      | nil => intro _; rfl
      | cons p d ih =>
        obtain ⟨k, f, tys⟩ := p
        intro h
        have hk : k ≠ name := fun e => h f tys (by rw [e]; exact List.mem_cons_self ..)
        simp only [PyDict.get?, if_neg hk]
        exact ih fun f tys hm => h f tys (List.mem_cons_of_mem _ hm)
    simp [ModCall.run, addExternalInstruction, hn _ h, Except.map]

/-- Calls that add instructions or functions or set the return value. -/
def Edits (e : ModCall K) : Prop := Adds e ∨ ∃ cmd force, e = .setReturn cmd force

theorem edits_kept {e : ModCall K} (h : Edits e) (M : BaseModule K) : Kept M (e.run uniq M).2 := by
  rcases run_kept (uniq := uniq) e M with k | ⟨f, s, rfl⟩ | ⟨rm, rfl⟩ | rfl | rfl
  · exact k
  all_goals
    rcases h with h | ⟨_, _, h⟩
    · cases h
    · cases h

theorem runAll_edits (es : List (ModCall K)) (he : ∀ e ∈ es, Edits e) (M : BaseModule K) : Kept M (runAll uniq es M) := by
  induction es generalizing M with
  | nil => exact ⟨rfl, rfl, rfl, rfl⟩
  | cons e es ih => exact (edits_kept (he e (by simp)) M).trans (ih (fun e' h' => he e' (by simp [h'])) _)

/-- A module that was created, or reset. -/
def Started (uniq : List String → String → String) (M : BaseModule K) : Prop :=
  M = {} ∨ ∃ M0 rm, ModHistory uniq M0 ∧ (ModCall.reset rm).run uniq M0 = (.ok none, M)

theorem started {M : BaseModule K} (h : Started uniq M) : M.compiled = false ∧ M.defs = [] := by
  rcases h with rfl | ⟨M0, rm, -, h⟩
  · exact ⟨rfl, rfl⟩
  · have h2 : M = (BaseModule.reset uniq rm M0).2 := (congrArg Prod.snd h).symm
    have h1 : (BaseModule.reset uniq rm M0).1.map (fun _ => none) = (.ok none : Except ModErr (Option (List (QirDef K)))) := congrArg Prod.fst h
    rcases reset_spec (uniq := uniq) rm M0 with ⟨-, -, g1, g2, -⟩ | ⟨e, g1, -⟩
    · rw [h2]; exact ⟨g1, g2⟩
    · rw [g1] at h1; cases h1

/-- C88: after a module has been created or reset, and instructions and functions have been added: its `qir` and `bitcode` are the program of the instructions
of its blocks, in order, if all of these can be executed and no return value has been set, and otherwise an exception is raised. -/
theorem C88_program {M0 : BaseModule K} (h0 : Started uniq M0) (es : List (ModCall K)) (he : ∀ e ∈ es, Edits e) {M : BaseModule K} (hM : M = runAll uniq es M0)
    (P : List (QirDef K)) :
    ((ModCall.qir.run uniq M).1 = .ok (some P) ↔ M.retCmd = none ∧ ∃ d, P = [d] ∧ MainOf M.body M.measurements M.output none d) ∧
    ((ModCall.bitcode.run uniq M).1 = .ok (some P) ↔ M.retCmd = none ∧ ∃ d, P = [d] ∧ MainOf M.body M.measurements M.output none d) := by
  obtain ⟨h1, h2⟩ := started h0
  have k := runAll_edits (uniq := uniq) es he M0
  rw [← hM] at k
  have hc : M.compiled = false := k.compiled.trans h1
  have hd : M.defs = [] := k.defs.trans h2
  have huniq : ∀ d d' : QirDef K, MainOf M.body M.measurements M.output M.retCmd d → MainOf M.body M.measurements M.output M.retCmd d' → d = d' := by
    intro d d' g g'
    have := ((build_iff M d).2 g).symm.trans ((build_iff M d').2 g')
    exact congrArg Prod.fst this
  have hrun : ∀ r : Except ModErr (Option (List (QirDef K))),
      ((∃ M', M.compileNow true = (.ok (), M') ∧ r = .ok (some M'.defs)) ∨ (∃ e M', M.compileNow true = (.error e, M') ∧ r = .error e)) →
      (r = .ok (some P) ↔ M.retCmd = none ∧ ∃ d, P = [d] ∧ MainOf M.body M.measurements M.output none d) := by
    intro r hr
    rcases compileNow_spec true M hc with ⟨M', g1, -, -, -, -, -, -, -, d, g2, g3, g4⟩ | ⟨e, M', g1, -, g2⟩
    · have hr : r = .ok (some [d]) := by
        rcases hr with ⟨M'', e1, e2⟩ | ⟨e, M'', e1, -⟩
        · rw [g1] at e1; cases e1
          rw [e2, g2, hd]; rfl
        · rw [g1] at e1; cases e1
      have hn := (g4 rfl).2
      rw [hr]
      constructor
      · intro h
        cases h
        exact ⟨hn, d, rfl, hn ▸ g3⟩
      · rintro ⟨-, d', rfl, hd'⟩
        rw [huniq d d' g3 (by rw [hn]; exact hd')]
    · have hr : ∃ e, r = .error e := by
        rcases hr with ⟨M'', e1, e2⟩ | ⟨e, M'', e1, e2⟩
        · rw [g1] at e1; cases e1
        · exact ⟨e, e2⟩
      obtain ⟨e', rfl⟩ := hr
      constructor
      · intro h; cases h
      · rintro ⟨hn, d', -, hd'⟩
        exact absurd ⟨⟨d', by rw [hn]; exact hd'⟩, fun _ => ⟨by rw [hd]; rfl, hn⟩⟩ g2
  constructor
  · apply hrun
    show (∃ M', _ ∧ (M.getQir uniq).1 = _) ∨ (∃ e M', _ ∧ (M.getQir uniq).1 = _)
    rcases getQir_eq (uniq := uniq) M hc with ⟨M', g1, g2, -⟩ | ⟨e, M', g1, g2, -⟩
    · refine .inl ⟨M', g1, ?_⟩
      rw [g2]
      rcases compileNow_spec true M hc with ⟨M'', a1, -, a2, -⟩ | ⟨e, M'', a1, -⟩
      · rw [g1] at a1; cases a1; rw [a2]
      · rw [g1] at a1; cases a1
    · exact .inr ⟨e, M', g1, by rw [g2]⟩
  · apply hrun
    show (∃ M', _ ∧ (M.getBitcode uniq).1 = _) ∨ (∃ e M', _ ∧ (M.getBitcode uniq).1 = _)
    rcases getQir_eq (uniq := uniq) M hc with ⟨M', g1, -, g2⟩ | ⟨e, M', g1, -, g2⟩
    · exact .inl ⟨M', g1, by rw [g2]⟩
    · exact .inr ⟨e, M', g1, by rw [g2]⟩

/-- C88: once `compile`, `qir` or `bitcode` has succeeded, `qir` and `bitcode` return the same program whatever is called, and `compile()` raises `CompileError`,
until `reset` or `compile(force=True)` is called. -/
theorem C88_frozen {M : BaseModule K} (h : ModHistory uniq M) {e : ModCall K} (he : (∃ f s, e = .compile f s) ∨ e = .qir ∨ e = .bitcode)
    {r : Option (List (QirDef K))} {M' : BaseModule K} (hr : e.run uniq M = (.ok r, M')) :
    ∃ P, (r = none ∨ r = some P) ∧ ∀ es : List (ModCall K), (∀ e ∈ es, NoRecompile e) →
      (ModCall.qir.run uniq (runAll uniq es M')).1 = .ok (some P) ∧ (ModCall.bitcode.run uniq (runAll uniq es M')).1 = .ok (some P) ∧
      ∀ strict, (ModCall.compile false strict).run uniq (runAll uniq es M') = (.error .compile, runAll uniq es M') := by
  have hi := (history_inv h).run (uniq := uniq) e
  rw [hr] at hi
  have hc : M'.compiled = true ∧ (r = none ∨ r = some M'.defs) := by
    have hnow : ∀ (N : BaseModule K) (s : Bool), N.compiled = false → ∀ N', N.compileNow s = (.ok (), N') → N'.compiled = true ∧ N'.qir = some N'.defs := by
      intro N s hN N' hN'
      rcases compileNow_spec s N hN with ⟨N'', a1, a2, a3, -⟩ | ⟨e, N'', a1, -⟩
      · rw [hN'] at a1; cases a1; exact ⟨a2, a3⟩
      · rw [hN'] at a1; cases a1
    rcases he with ⟨f, s, rfl⟩ | rfl | rfl
    · have h1 : ((M.compile uniq f s).1.map fun _ => (none : Option (List (QirDef K)))) = .ok r := congrArg Prod.fst hr
      have h2 : (M.compile uniq f s).2 = M' := congrArg Prod.snd hr
      have h3 : r = none ∧ (M.compile uniq f s).1 = .ok () := by
        generalize (M.compile uniq f s).1 = z at h1
        cases z <;> cases h1
        exact ⟨rfl, rfl⟩
      refine ⟨?_, .inl h3.1⟩
      cases hM : M.compiled with
      | false =>
        rw [compile_fresh f s hM] at h2 h3
        exact (hnow M s hM M' (Prod.ext h3.2 h2)).1
      | true =>
        cases f with
        | false =>
          have : M.compile uniq false s = (.error .compile, M) := by unfold BaseModule.compile; rw [hM]; rfl
          rw [this] at h3; cases h3.2
        | true =>
          obtain ⟨M1, -, k1, -, -, -, -, -, k2⟩ := compile_compiled (uniq := uniq) (history_inv h) hM s
          rw [k2] at h2 h3
          exact (hnow M1 s k1 M' (Prod.ext h3.2 h2)).1
    · have hr : M.getQir uniq = (.ok r, M') := hr
      cases hM : M.compiled with
      | false =>
        rcases getQir_eq (uniq := uniq) M hM with ⟨N, g1, g2, -⟩ | ⟨e, N, g1, g2, -⟩
        · rw [g2] at hr; cases hr
          have := hnow M true hM M' g1
          exact ⟨this.1, .inr this.2⟩
        · rw [g2] at hr; cases hr
      | true =>
        have : M.getQir uniq = (.ok M.qir, M) := by unfold getQir; rw [hM]; rfl
        rw [this] at hr; cases hr
        exact ⟨hM, .inr ((history_inv h).compiled hM).1⟩
    · have hr : M.getBitcode uniq = (.ok r, M') := hr
      cases hM : M.compiled with
      | false =>
        rcases getQir_eq (uniq := uniq) M hM with ⟨N, g1, -, g2⟩ | ⟨e, N, g1, -, g2⟩
        · rw [g2] at hr; cases hr
          exact ⟨(hnow M true hM M' g1).1, .inr rfl⟩
        · rw [g2] at hr; cases hr
      | true =>
        have : M.getBitcode uniq = (.ok (some M.defs), M) := by unfold getBitcode; rw [hM]; rfl
        rw [this] at hr; cases hr
        exact ⟨hM, .inr rfl⟩
  refine ⟨M'.defs, hc.2, fun es hes => ?_⟩
  have k := runAll_compiled (uniq := uniq) es hes hc.1
  generalize runAll uniq es M' = N at k
  have hN : N.compiled = true := k.compiled.trans hc.1
  refine ⟨?_, ?_, fun strict => ?_⟩
  · show (N.getQir uniq).1 = _
    unfold getQir
    rw [hN, k.qir, (hi.compiled hc.1).1]
    rfl
  · show (N.getBitcode uniq).1 = _
    unfold getBitcode
    rw [hN, k.defs]
    rfl
  · unfold ModCall.run BaseModule.compile
    rw [hN]
    rfl

/-- C88: once a module that is not compiled, or is recompiled, could not be compiled, no program is returned, whatever is called, until `reset` or
`compile(strict=False)` is called; not even if the faulty return value is replaced. -/
theorem C88_failed {M : BaseModule K} (h : ModHistory uniq M) {force strict : Bool} (hf : M.compiled = false ∨ force = true) {err : ModErr} {M' : BaseModule K}
    (hr : (ModCall.compile force strict).run uniq M = (.error err, M')) (es : List (ModCall K)) (hes : ∀ e ∈ es, Strict e) :
    (∃ e, (ModCall.qir.run uniq (runAll uniq es M')).1 = .error e) ∧ (∃ e, (ModCall.bitcode.run uniq (runAll uniq es M')).1 = .error e) ∧
    ∀ force, ∃ e, ((ModCall.compile force true).run uniq (runAll uniq es M')).1 = .error e := by
  have hbad : Bad M' := by
    have h1 : ((M.compile uniq force strict).1.map fun _ => (none : Option (List (QirDef K)))) = .error err := congrArg Prod.fst hr
    have h2 : (M.compile uniq force strict).2 = M' := congrArg Prod.snd hr
    have hnow : ∀ N : BaseModule K, N.compiled = false → M.compile uniq force strict = N.compileNow strict → Bad M' := by
      intro N hN e
      rw [e] at h1 h2
      rcases compileNow_spec strict N hN with ⟨N', a1, -⟩ | ⟨e, N', a1, a2, -⟩
      · rw [a1] at h1; cases h1
      · rw [a1] at h2; cases h2; exact a2
    cases hM : M.compiled with
    | false => exact hnow M hM (compile_fresh _ _ hM)
    | true =>
      rw [hM] at hf
      cases hf.resolve_left (by simp)
      obtain ⟨M1, -, k1, -, -, -, -, -, k2⟩ := compile_compiled (uniq := uniq) (history_inv h) hM strict
      exact hnow M1 k1 k2
  have hb := hbad.runAll (uniq := uniq) es hes
  generalize runAll uniq es M' = N at hb
  obtain ⟨e, N', g1, -⟩ := hb.compileNow
  refine ⟨⟨e, ?_⟩, ⟨e, ?_⟩, fun force => ⟨e, ?_⟩⟩
  · rcases getQir_eq (uniq := uniq) N hb.1 with ⟨N'', a1, -⟩ | ⟨e', N'', a1, a2, -⟩
    · rw [a1] at g1; cases g1
    · rw [g1] at a1; cases a1
      show (N.getQir uniq).1 = _
      rw [a2]
  · rcases getQir_eq (uniq := uniq) N hb.1 with ⟨N'', a1, -⟩ | ⟨e', N'', a1, -, a2⟩
    · rw [a1] at g1; cases g1
    · rw [g1] at a1; cases a1
      show (N.getBitcode uniq).1 = _
      rw [a2]
  · show ((N.compile uniq force true).1.map fun _ => (none : Option (List (QirDef K)))) = .error e
    rw [compile_fresh _ _ hb.1, g1]
    rfl

/-- C88: `circuit.to_qir()` returns the program of a module to which instructions have been added. -/
theorem C88_circuit {c : Nat} {ext : Bool} {w w1 : World K} {P : QirProgram K} (e : toQir uniq c ext w = (.ok P, w1)) :
    ∃ (es : List (ModCall K)) (blocks : List (List (LInstr K))), (∀ e ∈ es, Adds e) ∧ (∀ r ∈ results uniq es ({} : BaseModule K), r = .ok none) ∧ P = [blocks] ∧
      (ModCall.qir.run uniq (runAll uniq es ({} : BaseModule K))).1 = .ok (some [⟨blocks, some none⟩]) :=
  toQir_made e

/-! ## C89 -/

/-- C89: `compile(force=True)` of a compiled module, in all cases: it compiles the instructions that are in the module now, except for calls of external functions,
which are removed. -/
theorem C89_recompile {M : BaseModule K} (h : ModHistory uniq M) (hc : M.compiled = true) (strict : Bool) {M' : BaseModule K} :
    ((∃ d, MainOf (internal M.body) (internal M.measurements) (internal M.output) M.retCmd d) ∧ (strict = true → M.retCmd = none) →
      ∃ M' d, (ModCall.compile true strict).run uniq M = (.ok none, M') ∧ MainOf (internal M.body) (internal M.measurements) (internal M.output) M.retCmd d ∧
        (ModCall.qir.run uniq M').1 = .ok (some [d]) ∧ M'.body = internal M.body ∧ M'.measurements = internal M.measurements ∧
        M'.output = internal M.output ∧ M'.retCmd = M.retCmd) ∧
    ((ModCall.compile true strict).run uniq M = (.ok none, M') →
      (∃ d, MainOf (internal M.body) (internal M.measurements) (internal M.output) M.retCmd d) ∧ (strict = true → M.retCmd = none)) := by
  obtain ⟨M1, -, k1, k2, k3, k4, k5, k6, k7⟩ := compile_compiled (uniq := uniq) (history_inv h) hc strict
  have hint : ∀ l : List (QirInstr K), keepInternal l = internal l := by
    intro l
    unfold keepInternal internal
    congr 1
    funext i
    simp
  rw [hint] at k3 k4 k5
  rw [← k3, ← k4, ← k5, ← k6]
  have hrun : (ModCall.compile true strict).run uniq M = ((M1.compileNow strict).1.map fun _ => none, (M1.compileNow strict).2) := by
    rw [← k7]
    rfl
  rw [hrun]
  rcases compileNow_spec strict M1 k1 with ⟨N, g1, g2, g3, -, g5, g6, g7, g8, d, g9, g10, g11⟩ | ⟨e, N, g1, -, g2⟩
  · rw [g1]
    refine ⟨fun _ => ⟨N, d, rfl, g10, ?_, g6, g7, g8, g5⟩, fun _ => ⟨⟨d, g10⟩, fun hs => (g11 hs).2⟩⟩
    show (N.getQir uniq).1 = _
    unfold getQir
    rw [g2, g3, g9, k2]
    rfl
  · rw [g1]
    refine ⟨fun ⟨a, b⟩ => absurd ⟨a, fun hs => ⟨by rw [k2]; rfl, b hs⟩⟩ g2, fun h => ?_⟩
    cases congrArg Prod.fst h

/-- C89, for modules without calls of external functions: `compile(force=True)` compiles the instructions that are in the module now.
Missing: calls of external functions, see `C89_external_violated`. -/
theorem C89_recompile_partial {M : BaseModule K} (h : ModHistory uniq M) (hc : M.compiled = true) (hr : M.retCmd = none)
    (hx : ∀ i ∈ M.body ++ M.measurements ++ M.output, i.type ≠ .external) {d : QirDef K} (hd : MainOf M.body M.measurements M.output none d) :
    ∃ M', (ModCall.compile true true).run uniq M = (.ok none, M') ∧ (ModCall.qir.run uniq M').1 = .ok (some [d]) ∧ M'.body = M.body ∧
      M'.measurements = M.measurements ∧ M'.output = M.output := by
  have hint : ∀ l : List (QirInstr K), (∀ i ∈ l, i.type ≠ .external) → internal l = l := fun l hl => List.filter_eq_self.2 (by simpa using hl)
  have h1 := hint M.body fun i hi => hx i (by simp [hi])
  have h2 := hint M.measurements fun i hi => hx i (by simp [hi])
  have h3 := hint M.output fun i hi => hx i (by simp [hi])
  have := (C89_recompile h hc true (M' := M)).1
  rw [h1, h2, h3, hr] at this
  obtain ⟨M', d', g1, g2, g3, g4, g5, g6, -⟩ := this ⟨⟨d, hd⟩, fun _ => rfl⟩
  refine ⟨M', g1, ?_, g4, g5, g6⟩
  rw [g3]
  have e1 := (build_iff M d).2 (by rw [hr]; exact hd)
  have e2 := (build_iff M d').2 (by rw [hr]; exact g2)
  rw [e1] at e2
  rw [show d = d' from congrArg Prod.fst e2]

/-- C89: after `reset()`, the module behaves like one that has just been created: whatever is called then, except `reset`, returns or raises the same.
Missing: further calls of `reset`, see `C89_twice_violated` and `C89_uncompiled_violated`. -/
theorem C89_reset_partial {M : BaseModule K} (h : ModHistory uniq M) {M' : BaseModule K} (hr : (ModCall.reset true).run uniq M = (.ok none, M'))
    (es : List (ModCall K)) (hes : ∀ e ∈ es, NoReset e) : results uniq es M' = results uniq es {} := by
  have h1 : ((M.reset uniq true).1.map fun _ => (none : Option (List (QirDef K)))) = .ok none := congrArg Prod.fst hr
  have h2 : (M.reset uniq true).2 = M' := congrArg Prod.snd hr
  have ha : Alike M' {} := by
    unfold BaseModule.reset at h1 h2
    dsimp only at h1 h2
    cases hM : M.ret <;> rw [hM] at h1 h2 <;> dsimp only at h1 h2
    · cases h1
    · subst h2; exact ⟨rfl, fun h => by cases h⟩
    · cases h1
  have hi := (history_inv h).run (uniq := uniq) (ModCall.reset true)
  rw [hr] at hi
  exact ha.results es hes hi

/-- C89: resetting a module whose compilation has got to its end succeeds. -/
theorem C89_reset {M : BaseModule K} (h : ModHistory uniq M) (hc : M.compiled = true) (rm : Bool) : ((ModCall.reset rm).run uniq M).1 = .ok none := by
  show ((M.reset uniq rm).1.map fun _ => (none : Option (List (QirDef K)))) = .ok none
  rcases reset_spec (uniq := uniq) rm M with ⟨h1, -⟩ | ⟨e, -, h1, -⟩
  · rw [h1]; rfl
  · exact absurd ((history_inv h).compiled hc).2 h1

/-! ## Demos -/

/-- A module with two gates, one of them external, and a measurement. -/
def moduleCallsDemo : List (ModCall Int) :=
  [.add "body" .base "rx" [.dbl 7, .qubit 0], .declare "swap" [.qubit, .qubit], .addExternal "body" "swap" [.qubit 0, .qubit 1],
    .add "measurements" .measurement "mz" [.qubit 1, .result 0], .add "output" .output "out" [.result 0]]

def moduleDemo : BaseModule Int := runAll uniqDemo moduleCallsDemo {}

/-- The calls meet the hypotheses of `C88_program`. -/
example : (∀ e ∈ moduleCallsDemo, Edits e) ∧ results uniqDemo moduleCallsDemo {} = List.replicate 5 (.ok none) :=
  ⟨by simp [moduleCallsDemo, Edits, Adds], by decide +kernel⟩

theorem history_runAll (es : List (ModCall K)) {M : BaseModule K} (h : ModHistory uniq M)
    (hr : ∀ r ∈ results uniq es M, r ≠ .error (.py .undefinedBehaviour)) : ModHistory uniq (runAll uniq es M) := by
  induction es generalizing M with
  | nil => exact h
  | cons e es ih =>
    simp only [results, List.mem_cons, forall_eq_or_imp] at hr
    exact ih (.call h hr.1) hr.2

theorem moduleDemo_history : ModHistory uniqDemo moduleDemo := history_runAll _ .new (by decide +kernel)

/-- The program of the demo module. -/
def moduleProgramDemo : QirDef Int :=
  ⟨[[.call "__quantum__rt__initialize" [.other], .other],
    [.call "__quantum__qis__rx__body" [.dbl 7, .qubit 0], .call "__quantum__qis__swap__body" [.qubit 0, .qubit 1], .other],
    [.call "__quantum__qis__mz__body" [.qubit 1, .result 0], .other],
    [.call "__quantum__rt__result_record_output" [.result 0, .other], .ret]], some none⟩

example : (ModCall.qir.run uniqDemo moduleDemo).1 = .ok (some [moduleProgramDemo]) := by decide +kernel

/-- The module after it has been compiled: the hypotheses of `C88_frozen` are met. -/
def compiledModuleDemo : BaseModule Int := (ModCall.qir.run uniqDemo moduleDemo).2

theorem compiledModuleDemo_history : ModHistory uniqDemo compiledModuleDemo := .call moduleDemo_history (by decide +kernel)

example : compiledModuleDemo.compiled = true ∧ compiledModuleDemo.retCmd = none := by decide +kernel

/-- An instruction that is added after that is not in `qir`. -/
example : (ModCall.qir.run uniqDemo (runAll uniqDemo [.add "body" .base "x" [.qubit 0]] compiledModuleDemo)).1 = .ok (some [moduleProgramDemo]) := by
  decide +kernel

/-- A module with a return value cannot be compiled, which meets the hypotheses of `C88_failed`; it cannot either if the return value is removed again. -/
example : results uniqDemo [.setReturn (some (.result 0)) false, .compile false true, .setReturn none true, .qir, .reset false, .qir] moduleDemo =
    [.ok none, .error .compile, .ok none, .error .compile, .ok none,
      .ok (some [{ moduleProgramDemo with blocks := moduleProgramDemo.blocks.set 1 [.call "__quantum__qis__rx__body" [.dbl 7, .qubit 0], .other] }])] := by
  decide +kernel

/-- C89 is violated: `compile(force=True)` drops the calls of external functions, although nothing has been changed. -/
theorem C89_external_violated :
    (ModCall.qir.run uniqDemo compiledModuleDemo).1 = .ok (some [moduleProgramDemo]) ∧
    results uniqDemo [.compile true true, .qir] compiledModuleDemo = [.ok none,
      .ok (some [{ moduleProgramDemo with blocks := moduleProgramDemo.blocks.set 1 [.call "__quantum__qis__rx__body" [.dbl 7, .qubit 0], .other] }])] := by
  decide +kernel

/-- A module without external functions: the hypotheses of `C89_recompile_partial` are met. -/
def plainModuleDemo : BaseModule Int := runAll uniqDemo [.add "body" .base "x" [.qubit 0], .qir, .add "body" .base "z" [.qubit 0]] {}

theorem plainModuleDemo_history : ModHistory uniqDemo plainModuleDemo := history_runAll _ .new (by decide +kernel)

example : plainModuleDemo.compiled = true ∧ plainModuleDemo.retCmd = none ∧
    ∀ i ∈ plainModuleDemo.body ++ plainModuleDemo.measurements ++ plainModuleDemo.output, i.type ≠ .external := by decide +kernel

/-- The instruction that was added after the first compilation is compiled now. -/
example : results uniqDemo [.qir, .compile true true, .qir] plainModuleDemo =
    [.ok (some [⟨[[.call "__quantum__rt__initialize" [.other], .other], [.call "__quantum__qis__x__body" [.qubit 0], .other], [.other], [.ret]], some none⟩]),
      .ok none,
      .ok (some [⟨[[.call "__quantum__rt__initialize" [.other], .other],
        [.call "__quantum__qis__x__body" [.qubit 0], .call "__quantum__qis__z__body" [.qubit 0], .other], [.other], [.ret]], some none⟩])] := by decide +kernel

/-- The demo module meets the hypotheses of `C89_reset_partial`. -/
example : ((ModCall.reset true).run uniqDemo compiledModuleDemo).1 = .ok none := by decide +kernel

/-- C89 is violated: resetting a module that has not been compiled raises `AttributeError`, but removes the calls of external functions. -/
theorem C89_uncompiled_violated :
    results uniqDemo [.reset false, .qir] moduleDemo = [.error (.py .attributeError),
      .ok (some [{ moduleProgramDemo with blocks := moduleProgramDemo.blocks.set 1 [.call "__quantum__qis__rx__body" [.dbl 7, .qubit 0], .other] }])] := by
  decide +kernel

/-- C89 is violated: resetting a module twice erases the return instruction twice. -/
theorem C89_twice_violated : results uniqDemo [.reset true, .reset true] compiledModuleDemo = [.ok none, .error (.py .undefinedBehaviour)] := by
  decide +kernel

end DG.Props
