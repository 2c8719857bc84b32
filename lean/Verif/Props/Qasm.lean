import Verif.Proofs.QasmInj
import Verif.Proofs.QasmAlone

/-!
# Properties C62, C63, C79, C80: OpenQASM

`toQasm custom num c rl gd` is `circuit.to_qasm(reg_labels=rl, gate_definitions=gd)`, where numbers are printed by `num`, and `custom` gives the
lower-case names of the classes made by `create_operation`. See `Spec/Qasm.lean` for the vocabulary.
-/

namespace DG.Props
open Spec
variable {K : Type} [DecidableEq K] [Zero K]

/-! ## C62 -/

/-- The text of a circuit with qubits, in all cases: it is returned if and only if every operation has an export (a library gate or an operation of
`create_operation`, whose qubits are in the circuit), and then it declares the registers and has the exports as statements, in order. -/
theorem C62_text {A : Call K → Prop} {w : World K} (h : Reach A w) {c : Nat} {C : Circ} (hC : w.circs[c]? = some C) (hp : C.param = false) {L LC : Layout}
    (hL : Shows C.q L) (hLC : Shows C.c LC) (hne : L.items ≠ []) (custom : Nat → Option String) (num : K → String) (rl gd : Bool) (t : String) :
    (toQasm custom num c rl gd w).1 = .ok t ↔
      ∃ S, List.Forall₂ (Exports custom num w (refNames rl "q" L) L) C.ops S ∧
        t = qasmText (if gd then C.ops.filterMap (definitionOf custom w) else [])
          (regLines "qreg" (declNames rl "q" L) L ++ regLines "creg" (declNames rl "c" LC) LC) (S.map QStmt.text) :=
  toQasm_ok h hC hp hL hLC hne custom num rl gd t

/-- C62, for circuits with qubits, and for `reg_labels=True` only if all labels of quantum registers are truthy and have different texts: every
reference in a statement names a declared register and has an index below its declared size, and a reference denotes only one qubit.
Missing: other labels, and circuits without qubits; see the violations below. -/
theorem C62_partial {A : Call K → Prop} {w : World K} (h : Reach A w) {c : Nat} {C : Circ} (hC : w.circs[c]? = some C) (hp : C.param = false) {L LC : Layout}
    (hL : Shows C.q L) (hLC : Shows C.c LC) (hne : L.items ≠ []) (custom : Nat → Option String) (num : K → String) (rl gd : Bool)
    (hlab : rl = true → (∀ p ∈ L, p.1.truthy = true) ∧ (L.map fun p => p.1.text).Nodup) {t : String} (ht : (toQasm custom num c rl gd w).1 = .ok t) :
    (∃ defs S, List.Forall₂ (Exports custom num w (refNames rl "q" L) L) C.ops S ∧
      t = qasmText defs (regLines "qreg" (refNames rl "q" L) L ++ regLines "creg" (declNames rl "c" LC) LC) (S.map QStmt.text) ∧
      ∀ s ∈ S, ∀ r ∈ s.refs, ∃ n, r.2 < n ∧ "qreg " ++ refText (r.1, n) ++ ";" ∈ regLines "qreg" (refNames rl "q" L) L) ∧
    ((refNames rl "q" L).Nodup ∧ ∀ q q' r, Denotes (refNames rl "q" L) L q r → Denotes (refNames rl "q" L) L q' r → q = q') := by
  have hnames : declNames rl "q" L = refNames rl "q" L := by
    cases rl with
    | false => rfl
    | true =>
      unfold declNames refNames
      apply List.ext_getElem?
      intro j
      rw [List.getElem?_mapIdx, List.getElem?_mapIdx]
      cases hj : L[j]? with
      | none => rfl
      | some p => simp [(hlab rfl).1 p (mem_of_get? hj)]
  have hnodup : (refNames rl "q" L).Nodup := by
    cases rl with
    | true =>
      have : refNames true "q" L = L.map fun p => p.1.text := by
        apply List.ext_getElem?
        intro j
        simp [refNames]
      rw [this]
      exact (hlab rfl).2
    | false =>
      rw [List.nodup_iff_getElem?_ne_getElem?]
      intro i j hij hj e
      have hj' : j < L.length := by simpa [refNames] using hj
      have h1 : (refNames false "q" L)[i]? = some (plainName "q" L.length i) := by
        simp [refNames, List.getElem?_eq_getElem (show i < L.length by omega)]
      have h2 : (refNames false "q" L)[j]? = some (plainName "q" L.length j) := by
        simp [refNames, List.getElem?_eq_getElem hj']
      rw [h1, h2] at e
      have := plainName_inj (by omega) hj' (Option.some.inj e)
      omega
  obtain ⟨S, h1, h2⟩ := (toQasm_ok h hC hp hL hLC hne custom num rl gd t).1 ht
  rw [hnames] at h2
  have valid : ∀ {q r}, Denotes (refNames rl "q" L) L q r → ∃ n, r.2 < n ∧ "qreg " ++ refText (r.1, n) ++ ";" ∈ regLines "qreg" (refNames rl "q" L) L := by
    rintro q ⟨s, i⟩ ⟨j, ⟨l, ks, a1, a2⟩, a3⟩
    refine ⟨ks.length, (List.getElem?_eq_some_iff.1 a2).1, ?_⟩
    apply List.mem_iff_getElem?.2
    refine ⟨j, ?_⟩
    have e : "qreg " = "qreg" ++ " " := rfl
    simp only [regLines, List.getElem?_zipWith, a3, a1, e]
  refine ⟨⟨_, S, h1, h2, ?_⟩, hnodup, ?_⟩
  · intro s hs r hr
    obtain ⟨i, hi⟩ := List.getElem?_of_mem hs
    obtain ⟨hlt, hi⟩ := List.getElem?_eq_some_iff.1 hi
    have := (List.forall₂_iff_get.1 h1).2 i (by rw [h1.length_eq]; exact hlt) hlt
    simp only [List.get_eq_getElem, hi] at this
    obtain ⟨op, k, np, nq, -, -, -, -, -, -, g7⟩ := this
    rcases g7 with ⟨-, g7⟩ | ⟨-, rs, g8, g9, -⟩
    · rw [g7] at hr; cases hr
    · rw [g9] at hr
      obtain ⟨j, hj⟩ := List.getElem?_of_mem (List.mem_of_mem_take hr)
      obtain ⟨hlt, hj⟩ := List.getElem?_eq_some_iff.1 hj
      have := (List.forall₂_iff_get.1 g8).2 j (by rw [g8.length_eq]; exact hlt) hlt
      simp only [List.get_eq_getElem, hj] at this
      exact valid this
  · rintro q q' r ⟨j, ⟨l, ks, a1, a2⟩, a3⟩ ⟨j', ⟨l', ks', b1, b2⟩, b3⟩
    have hj : j = j' := by
      by_contra hne'
      obtain ⟨hlt, -⟩ := List.getElem?_eq_some_iff.1 a3
      exact (List.nodup_iff_injective_getElem.1 hnodup).ne (a₁ := ⟨j, hlt⟩) (a₂ := ⟨j', (List.getElem?_eq_some_iff.1 b3).1⟩)
        (fun e => hne' (by simpa using e)) (by rw [(List.getElem?_eq_some_iff.1 a3).2, (List.getElem?_eq_some_iff.1 b3).2])
    subst hj
    rw [a1] at b1
    cases b1
    rw [a2] at b2
    exact Option.some.inj b2

/-- C62: a circuit of library gates can be exported, in programs that neither assign to the qubits of operations nor call
`reset(keep_registers=False)`. -/
theorem C62_total {A : Call K → Prop} (hA : ∀ e, A e → KeepsRegisters e ∧ KeepsOperands e) {w : World K} (h : Reach A w) {c : Nat} {C : Circ}
    (hC : w.circs[c]? = some C) (hp : C.param = false) {L LC : Layout} (hL : Shows C.q L) (hLC : Shows C.c LC) (hne : L.items ≠ [])
    (custom : Nat → Option String) (num : K → String) (rl gd : Bool) (hg : ∀ o ∈ C.ops, PlainGate custom w o) :
    ∃ t, (toQasm custom num c rl gd w).1 = .ok t := by
  have hi := QInv.reach (s := true) (u := true) (by simp) (h.imp fun e he => keeps_true_true e (hA e he))
  obtain ⟨L', h1, h2, -, h4, -⟩ := hi.bank C (mem_of_get? hC)
  cases Bank.shows_unique h1.shows hL
  have hin : ∀ o ∈ C.ops, ∀ op, w.ops[o]? = some op → ∀ q ∈ op.qubits.getD [], q ∈ L.items := by
    intro o ho op hop q hq
    apply h4 q
    simp only [World.usedIf, if_true, World.used, List.mem_flatMap]
    exact ⟨o, ho, by rw [hop]; exact hq⟩
  have hden : ∀ q ∈ L.items, ∃ r, Denotes (refNames rl "q" L) L q r := by
    intro q hq
    obtain ⟨s, i, -, hd⟩ := qubitRef_ok h1 rl hq
    exact ⟨_, hd⟩
  have hdens : ∀ qs : List Nat, (∀ q ∈ qs, q ∈ L.items) → ∃ rs, List.Forall₂ (Denotes (refNames rl "q" L) L) qs rs := by
    intro qs
    induction qs with
    | nil => intro _; exact ⟨[], .nil⟩
    | cons q qs ih =>
      intro hq
      obtain ⟨rs, hrs⟩ := ih fun x hx => hq x (by simp [hx])
      obtain ⟨r, hr⟩ := hden q (hq q (by simp))
      exact ⟨r :: rs, .cons hr hrs⟩
  have hparams : ∀ xs : List K, List.Forall₂ (ParamText num w) (xs.map OpParam.num) (xs.map num) := by
    intro xs
    induction xs with
    | nil => exact .nil
    | cons x xs ih => exact .cons rfl ih
  have hex : ∀ o ∈ C.ops, ∃ s, Exports custom num w (refNames rl "q" L) L o s := by
    intro o ho
    obtain ⟨op, k, name, np, nq, xs, qs, g1, g2, g3, g4, g5, g6, g7, g8, -⟩ := hg o ho
    obtain ⟨rs, hrs⟩ := hdens qs fun q hq => hin o ho op g1 q (by rw [g7]; exact hq)
    have hnq := (library_np g4).2
    have hne' : qs ≠ [] := by rintro rfl; exact hnq g8.symm
    have hlen : rs.length = nq := by rw [← hrs.length_eq, g8]
    refine ⟨⟨name, xs.map num, rs⟩, op, k, np, nq, g1, g2, .inl ⟨g3, g4⟩, fun h3 => by rw [g5, List.length_map, g6, h3], by simp [g6], ?_, .inr ⟨?_, rs, ?_, ?_, hlen⟩⟩
    · rw [g5, List.take_of_length_le (by simp [g6])]
      exact hparams xs
    · rw [g7]; exact hne'
    · rw [g7]; exact hrs
    · rw [List.take_of_length_le (by omega)]
  have hall : ∀ os : List Nat, (∀ o ∈ os, ∃ s, Exports custom num w (refNames rl "q" L) L o s) →
      ∃ S, List.Forall₂ (Exports custom num w (refNames rl "q" L) L) os S := by
    intro os
    induction os with
    | nil => intro _; exact ⟨[], .nil⟩
    | cons o os ih =>
      intro ho
      obtain ⟨S, hS⟩ := ih fun x hx => ho x (by simp [hx])
      obtain ⟨s, hs⟩ := ho o (by simp)
      exact ⟨s :: S, .cons hs hS⟩
  obtain ⟨S, hS⟩ := hall C.ops hex
  exact ⟨_, (toQasm_ok h hC hp hL hLC hne custom num rl gd _).2 ⟨S, hS, rfl⟩⟩

/-- A parametric circuit cannot be exported. -/
theorem C62_parametric {w : World K} {c : Nat} {C : Circ} (hC : w.circs[c]? = some C) (hp : C.param = true) (custom : Nat → Option String) (num : K → String)
    (rl gd : Bool) : toQasm custom num c rl gd w = (.error .circuitError, w) := by
  simp [toQasm, bind, M.bind, circ, M.deref, hC, M.raiseIf, hp]

/-- No class was made by `create_operation`. -/
def noCustom : Nat → Option String := fun _ => none

/-- Integers are printed in the usual way. -/
def intText : Int → String := toString

/-- A circuit with two quantum registers and a classical register, and gates on both registers. -/
def qasmDemo : Prog Int :=
  .seq (.call (.newClass ⟨"RX", .parametric, ⟨false, some 1, none, none⟩, some 1⟩)) <|
  .seq (.call (.newClass ⟨"SWAP", .plain, ⟨false, some 2, none, none⟩, none⟩)) <|
  .seq (.call (.newCirc false (some 2) (some 1))) <|
  .seq (.call (.addQReg 0 1 (some (.str "anc")))) <|
  .withCtx 0 <|
  .seq (.call (.construct 0 (some [.num 7]) (.qubits (some [1])))) <|
  .seq (.call (.construct 1 none (.qubits (some [2, 0])))) <|
  .call (.construct 1 none (.qubits (some [0, 1])))

/-- The demo program meets the hypotheses of `C62_text`, `C62_partial`, `C62_total`. -/
theorem qasmDemo_reach : Reach (fun e => KeepsRegisters e ∧ KeepsOperands e) qasmDemo.final :=
  ⟨qasmDemo, by simp [qasmDemo, Prog.All, KeepsRegisters, KeepsOperands], qasmDemo.visits_run _⟩

theorem qasmDemo_shows : ∃ C, qasmDemo.final.circs[0]? = some C ∧ Shows C.q [(.str "qreg0", [0, 1]), (.str "anc", [2])] := shows_circ Circ.q (by decide +kernel)

example : opsOf qasmDemo.final 0 = [0, 1, 2] := by decide +kernel

example : (toQasm noCustom intText 0 false false qasmDemo.final).1 = .ok
    "OPENQASM 2.0;\ninclude \"qelib1.inc\";\n\nqreg q0[2];\nqreg q1[1];\ncreg c[1];\n\nrx(7) q0[1];\nswap q1[0], q0[0];\nswap q0[0], q0[1];" := by
  decide +kernel

example : (toQasm noCustom intText 0 true true qasmDemo.final).1 = .ok
    ("OPENQASM 2.0;\ninclude \"qelib1.inc\";\n\ngate swap a, b { cx b, a; cx a, b; cx b, a; }\n\ngate swap a, b { cx b, a; cx a, b; cx b, a; }\n\n" ++
      "qreg qreg0[2];\nqreg anc[1];\ncreg creg0[1];\n\nrx(7) qreg0[1];\nswap anc[0], qreg0[0];\nswap qreg0[0], qreg0[1];") := by
  decide +kernel

/-- A circuit with the registers of these labels, one qubit each, and an `X` on each qubit of `on`. -/
def labelQasmDemo (labels : List RLabel) (on : List Nat) : Prog Int :=
  .seq (.call (.newClass ⟨"X", .plain, ⟨false, some 1, none, none⟩, none⟩)) <|
  .seq (.call (.newCirc false none none)) <|
  .seq (labels.foldr (fun l p => .seq (.call (.addQReg 0 1 (some l))) p) .skip) <|
  .withCtx 0 <| on.foldr (fun q p => .seq (.call (.construct 0 none (.qubits (some [q])))) p) .skip

/-- C62 is violated: a register with a falsy label is declared under its default name, but referred to by its label. -/
theorem C62_falsy_violated : (toQasm noCustom intText 0 true false (labelQasmDemo [.int 0] [0]).final).1 =
    .ok "OPENQASM 2.0;\ninclude \"qelib1.inc\";\n\nqreg q[1];\n\nx 0[0];" := by decide +kernel

/-- C62 is violated: labels that are different but print in the same way give the same name to two registers, and the same reference to two qubits. -/
theorem C62_clash_violated : (toQasm noCustom intText 0 true false (labelQasmDemo [.int 1, .str "1"] [0, 1]).final).1 =
    .ok "OPENQASM 2.0;\ninclude \"qelib1.inc\";\n\nqreg 1[1];\nqreg 1[1];\n\nx 1[0];\nx 1[0];" := by decide +kernel

/-- C62 is violated: a quantum and a classical register may have the same label, which is then declared twice. -/
theorem C62_twice_violated : (toQasm noCustom intText 0 true false
    (Prog.seq (labelQasmDemo [.str "a"] [0]) (.seq (.call (.unlock 0)) (.call (.addCReg 0 1 (some (.str "a")))))).final).1 =
    .ok "OPENQASM 2.0;\ninclude \"qelib1.inc\";\n\nqreg a[1];\ncreg a[1];\n\nx a[0];" := by decide +kernel

/-- An operation gets its qubit after it was appended to a circuit without qubits. -/
def noQubitsDemo : Prog Int :=
  .seq (.call (.newClass ⟨"X", .plain, ⟨false, some 1, none, none⟩, none⟩)) <|
  .seq (.call (.newCirc false none none)) <|
  .seq (.call (.newQubit (.str "a"))) <|
  .seq (.call (.construct 0 none (.qubits none))) <|
  .seq (.call (.append 0 0)) <| .call (.setQubits 0 [0])

/-- C62 is violated: without qubits the text has a reference to a register that is not declared. -/
theorem C62_undeclared_violated : (toQasm noCustom intText 0 false false noQubitsDemo.final).1 =
    .ok "OPENQASM 2.0;\ninclude \"qelib1.inc\";\n\nx q[0];" := by decide +kernel

/-! ## C63 -/

/-- C63, for circuits of library gates with numbers as parameters and without conditions: circuits with the same text have registers of the same
sizes, and the same gates with the same parameters on qubits at the same places. The numbers must be readable: printed in different ways and
without the characters `,`, `)` and line breaks. The circuits may belong to different programs. Missing: operations of `create_operation`,
variables and conditions; see the violations below. -/
theorem C63_partial {A A' : Call K → Prop} {w w' : World K} (h : Reach A w) (h' : Reach A' w') {c c' : Nat} {C C' : Circ} (hC : w.circs[c]? = some C)
    (hC' : w'.circs[c']? = some C') {L L' LC LC' : Layout} (hL : Shows C.q L) (hL' : Shows C'.q L') (hLC : Shows C.c LC)
    (hLC' : Shows C'.c LC') (hne : L.items ≠ []) (hne' : L'.items ≠ []) {custom custom' : Nat → Option String} {num : K → String} (hnum : Readable num)
    (hg : ∀ o ∈ C.ops, PlainGate custom w o) (hg' : ∀ o ∈ C'.ops, PlainGate custom' w' o) {t : String}
    (ht : (toQasm custom num c false false w).1 = .ok t) (ht' : (toQasm custom' num c' false false w').1 = .ok t) :
    L.map (fun p => p.2.length) = L'.map (fun p => p.2.length) ∧ LC.map (fun p => p.2.length) = LC'.map (fun p => p.2.length) ∧
    List.Forall₂ (SameGate w L w' L') C.ops C'.ops := by
  have hp : C.param = false := by
    cases hb : C.param with
    | false => rfl
    | true => rw [C62_parametric hC hb] at ht; cases ht
  have hp' : C'.param = false := by
    cases hb : C'.param with
    | false => rfl
    | true => rw [C62_parametric hC' hb] at ht'; cases ht'
  obtain ⟨S, h1, h2⟩ := (toQasm_ok h hC hp hL hLC hne custom num false false t).1 ht
  obtain ⟨S', h1', h2'⟩ := (toQasm_ok h' hC' hp' hL' hLC' hne' custom' num false false t).1 ht'
  simp only [Bool.false_eq_true, if_false] at h2 h2'
  have hne0 : ∀ {L LC : Layout}, L.items ≠ [] → regLines "qreg" (declNames false "q" L) L ++ regLines "creg" (declNames false "c" LC) LC ≠ [] := by
    intro L LC hne e
    have := congrArg List.length (List.append_eq_nil_iff.1 e).1
    rw [regLines_length] at this
    exact hne (by rw [List.eq_nil_of_length_eq_zero this]; rfl)
  have hfree : ∀ {L LC : Layout}, ∀ s ∈ regLines "qreg" (declNames false "q" L) L ++ regLines "creg" (declNames false "c" LC) LC, Free '\n' s ∧ s ≠ "" := by
    intro L LC s hs
    rcases List.mem_append.1 hs with hs | hs
    · exact regLines_free (by unfold Free; decide) (by unfold Free; decide) L s hs
    · exact regLines_free (by unfold Free; decide) (by unfold Free; decide) LC s hs
  obtain ⟨e1, e2⟩ := qasmText_inj (hne0 hne) (hne0 hne') hfree hfree
    (fun s hs => by obtain ⟨x, hx, rfl⟩ := List.mem_map.1 hs; exact text_free (forall₂_clean hnum hg h1 x hx))
    (fun s hs => by obtain ⟨x, hx, rfl⟩ := List.mem_map.1 hs; exact text_free (forall₂_clean hnum hg' h1' x hx)) (h2.symm.trans h2')
  obtain ⟨e3, e4⟩ := regLines_split e1
  have hs := regLines_inj (by unfold Free; decide) e3
  exact ⟨hs, regLines_inj (by unfold Free; decide) e4, forall₂_same hnum (by simpa using congrArg List.length hs) hg hg' h1 h1' e2⟩

/-- Integers are readable. -/
theorem intText_readable : Readable intText := by
  have pos : ∀ (n : Nat), ∀ c ∈ (toString n).toList, c.isDigit = true := by
    intro n c hc
    by_contra h0
    exact digits_free (by simpa using h0) n hc
  have neg : ∀ n : Nat, (intText (Int.negSucc n)).toList = '-' :: (toString (n + 1)).toList := by
    intro n
    have : intText (Int.negSucc n) = "-" ++ toString (n + 1) := rfl
    rw [this]; simp
  have start : ∀ m n : Nat, (toString m).toList ≠ '-' :: (toString (n + 1)).toList := by
    intro m n e
    have := pos m '-' (by rw [e]; simp)
    exact absurd this (by decide)
  constructor
  · rintro (m | m) (n | n) h
    · rw [toString_nat_inj (show toString m = toString n from h)]
    · have := congrArg String.toList h
      rw [neg n] at this
      exact absurd this (start m n)
    · have := congrArg String.toList h
      rw [neg m] at this
      exact absurd this.symm (start n m)
    · have := congrArg String.toList h
      rw [neg m, neg n] at this
      simp only [List.cons.injEq, true_and] at this
      have := toString_nat_inj (String.toList_inj.1 this)
      simp only [Int.negSucc.injEq]
      omega
  · intro x
    have key : ∀ c ∈ (intText x).toList, c.isDigit = true ∨ c = '-' := by
      intro c hc
      cases x with
      | ofNat n => exact .inl (pos n c hc)
      | negSucc n =>
        rw [neg n] at hc
        rcases List.mem_cons.1 hc with rfl | hc
        · exact .inr rfl
        · exact .inl (pos _ c hc)
    refine ⟨fun hc => ?_, fun hc => ?_, fun hc => ?_⟩ <;> rcases key _ hc with h | h <;> revert h <;> decide

/-- All gates of the demo program are plain. -/
theorem qasmDemo_plain : ∀ o ∈ opsOf qasmDemo.final 0, PlainGate noCustom qasmDemo.final o := by
  have e : opsOf qasmDemo.final 0 = [0, 1, 2] := by decide +kernel
  have h0 : qasmDemo.final.ops[0]? = some ⟨0, some [1], some 1, none, none, [.num 7], none, none⟩ := by decide +kernel
  have h1 : qasmDemo.final.ops[1]? = some ⟨1, some [2, 0], some 2, none, none, [], none, none⟩ := by decide +kernel
  have h2 : qasmDemo.final.ops[2]? = some ⟨1, some [0, 1], some 2, none, none, [], none, none⟩ := by decide +kernel
  have hk : qasmDemo.final.classes.map (fun k => k.name) = ["RX", "SWAP"] := by decide +kernel
  obtain ⟨k0, k1, hk⟩ : ∃ k0 k1, qasmDemo.final.classes = [k0, k1] := by
    match hc : qasmDemo.final.classes with
    | [k0, k1] => exact ⟨k0, k1, rfl⟩
    | [] => rw [hc] at hk; simp at hk
    | [_] => rw [hc] at hk; simp at hk
    | _ :: _ :: _ :: _ => rw [hc] at hk; simp at hk
  rename_i hn
  rw [hk] at hn
  simp only [List.map_cons, List.map_nil, List.cons.injEq, and_true] at hn
  rw [e]
  intro o ho
  simp only [List.mem_cons, List.not_mem_nil, or_false] at ho
  rcases ho with rfl | rfl | rfl
  · exact ⟨_, k0, "rx", 1, 1, [7], [1], h0, by rw [hk]; rfl, rfl, by rw [hn.1]; decide, rfl, rfl, rfl, rfl, rfl⟩
  · exact ⟨_, k1, "swap", 0, 2, [], [2, 0], h1, by rw [hk]; rfl, rfl, by rw [hn.2]; decide, rfl, rfl, rfl, rfl, rfl⟩
  · exact ⟨_, k1, "swap", 0, 2, [], [0, 1], h2, by rw [hk]; rfl, rfl, by rw [hn.2]; decide, rfl, rfl, rfl, rfl, rfl⟩

/-- Two circuits with an operation of `create_operation` that has a parameter. -/
def customQasmDemo (x : Int) : Prog Int :=
  .seq (.call (.newClass ⟨"CustomOperation", .parametric, ⟨false, some 1, none, none⟩, some 1⟩)) <|
  .seq (.call (.newCirc false (some 1) none)) <|
  .withCtx 0 <| .call (.construct 0 (some [.num x]) (.qubits (some [0])))

/-- C63 is violated: the parameters of operations of `create_operation` are not exported. -/
theorem C63_custom_violated :
    (toQasm (fun _ => some "my") intText 0 false false (customQasmDemo 1).final).1 = .ok "OPENQASM 2.0;\ninclude \"qelib1.inc\";\n\nqreg q[1];\n\nmy q[0];" ∧
    (toQasm (fun _ => some "my") intText 0 false false (customQasmDemo 2).final).1 = .ok "OPENQASM 2.0;\ninclude \"qelib1.inc\";\n\nqreg q[1];\n\nmy q[0];" ∧
    ((customQasmDemo 1).final.ops.map fun op => op.params) = [[.num 1]] ∧ ((customQasmDemo 2).final.ops.map fun op => op.params) = [[.num 2]] := by
  decide +kernel

/-- A circuit with an `X`, which is conditional if `cond`. -/
def condQasmDemo (cond : Bool) : Prog Int :=
  .seq (.call (.newClass ⟨"X", .plain, ⟨false, some 1, none, none⟩, none⟩)) <|
  .seq (.call (.newCirc false (some 1) (some 1))) <|
  .withCtx 0 <| .seq (.call (.construct 0 none (.qubits (some [0])))) <| if cond then .call (.conditional 0 [0]) else .skip

/-- C63 is violated: conditions are not exported. -/
theorem C63_condition_violated :
    (toQasm noCustom intText 0 false false (condQasmDemo true).final).1 = (toQasm noCustom intText 0 false false (condQasmDemo false).final).1 ∧
    (toQasm noCustom intText 0 false false (condQasmDemo false).final).1 = .ok "OPENQASM 2.0;\ninclude \"qelib1.inc\";\n\nqreg q[1];\ncreg c[1];\n\nx q[0];" ∧
    ((condQasmDemo true).final.ops.map fun op => op.cond) = [some [0]] ∧ ((condQasmDemo false).final.ops.map fun op => op.cond) = [none] := by
  decide +kernel

/-! ## C79 -/

/-- C79: with `gate_definitions=True` the definition of a gate is in the text if and only if the circuit uses the gate (and the gate comes with a
definition); without it there are no definitions. Missing: that there is only one definition, see below. -/
theorem C79_partial {A : Call K → Prop} {w : World K} (h : Reach A w) {c : Nat} {C : Circ} (hC : w.circs[c]? = some C) (hp : C.param = false) {L LC : Layout}
    (hL : Shows C.q L) (hLC : Shows C.c LC) (hne : L.items ≠ []) (custom : Nat → Option String) (num : K → String) (rl gd : Bool) {t : String}
    (ht : (toQasm custom num c rl gd w).1 = .ok t) :
    ∃ defs regs stmts, t = qasmText defs regs stmts ∧ (gd = false → defs = []) ∧
      (gd = true → ∀ name d, (name, d) ∈ definitions → (d ∈ defs ↔ ∃ o ∈ C.ops, ∃ op k, w.ops[o]? = some op ∧ w.classes[op.cls]? = some k ∧
        custom op.cls = none ∧ k.name = name)) := by
  obtain ⟨S, h1, h2⟩ := (toQasm_ok h hC hp hL hLC hne custom num rl gd t).1 ht
  refine ⟨_, _, _, h2, by rintro rfl; simp, ?_⟩
  rintro rfl name d hd
  simp only [if_true, List.mem_filterMap]
  have look : ∀ n, definitions.lookup n = some d ↔ n = name := by
    intro n
    have hd' := hd
    simp only [definitions, List.mem_cons, Prod.mk.injEq, List.not_mem_nil, or_false] at hd
    constructor
    · intro hn
      simp only [definitions, List.lookup_cons] at hn
      repeat' split at hn
      all_goals first
        | (rename_i hx; rcases hd with ⟨rfl, rfl⟩ | ⟨rfl, rfl⟩ | ⟨rfl, rfl⟩ | ⟨rfl, rfl⟩ <;> first | (simpa using hx) | (exact absurd hn (by decide)))
        | (simp at hn)
    · rintro rfl
      rcases hd with ⟨rfl, rfl⟩ | ⟨rfl, rfl⟩ | ⟨rfl, rfl⟩ | ⟨rfl, rfl⟩ <;> decide
  constructor
  · rintro ⟨o, ho, hdef⟩
    unfold definitionOf at hdef
    split at hdef
    · cases hdef
    · next op hop =>
      split at hdef
      · next k hk hcu => exact ⟨o, ho, op, k, hop, hk, hcu, (look _).1 hdef⟩
      · cases hdef
  · rintro ⟨o, ho, op, k, hop, hk, hcu, hn⟩
    refine ⟨o, ho, ?_⟩
    unfold definitionOf
    rw [hop]
    dsimp only
    rw [hk, hcu]
    exact (look _).2 hn

/-- C79 is violated: a gate that is used twice is defined twice. -/
theorem C79_repeated_violated : (toQasm noCustom intText 0 false true qasmDemo.final).1 = .ok
    ("OPENQASM 2.0;\ninclude \"qelib1.inc\";\n\ngate swap a, b { cx b, a; cx a, b; cx b, a; }\n\ngate swap a, b { cx b, a; cx a, b; cx b, a; }\n\n" ++
      "qreg q0[2];\nqreg q1[1];\ncreg c[1];\n\nrx(7) q0[1];\nswap q1[0], q0[0];\nswap q0[0], q0[1];") := by decide +kernel

/-! ## C80 -/

/-- C80: `op.to_qasm()` returns `t` if and only if `t` is the text described by `AloneText`: the OpenQASM name, the parameters, and references to
the first qubits of `q` if the operation has qubits. In all other cases it raises an exception. Nothing is changed. -/
theorem C80_alone (custom : Nat → Option String) (num : K → String) (w : World K) (o : Nat) :
    (∀ t, (opToQasm custom num o w).1 = .ok t ↔ AloneText custom num w o t) ∧ (opToQasm custom num o w).2 = w := by
  cases ho : w.ops[o]? with
  | none =>
    refine ⟨fun t => ⟨fun h => ?_, fun h => ?_⟩, ?_⟩
    · simp [opToQasm, bind, M.bind, opObj, M.deref, ho] at h
    · obtain ⟨op, k, -, -, -, -, h, -⟩ := h
      rw [ho] at h; cases h
    · simp [opToQasm, bind, M.bind, opObj, M.deref, ho]
  | some op =>
    cases hk : w.classes[op.cls]? with
    | none =>
      refine ⟨fun t => ⟨fun h => ?_, fun h => ?_⟩, ?_⟩
      · simp [opToQasm, bind, M.bind, opObj, M.deref, ho, clsObj, hk] at h
      · obtain ⟨op', k, -, -, -, -, h, h', -⟩ := h
        cases ho.symm.trans h
        rw [hk] at h'; cases h'
      · simp [opToQasm, bind, M.bind, opObj, M.deref, ho, clsObj, hk]
    | some k =>
      refine ⟨fun t => ?_, by simp [opToQasm, bind, M.bind, opObj, M.deref, ho, clsObj, hk]⟩
      rw [← Proofs.aloneText_ok custom num ho hk t]
      simp [opToQasm, bind, M.bind, opObj, M.deref, ho, clsObj, hk]

/-- C80: operations that differ only in their qubits, not in how many they have, have the same text: the text does not say which qubits the
operation is applied to. -/
theorem C80_qubits (custom : Nat → Option String) (num : K → String) {w w' : World K} {o o' : Nat} {op op' : OpObj K} (ho : w.ops[o]? = some op)
    (ho' : w'.ops[o']? = some op') (hcl : w'.classes = w.classes) (hv : w'.vars = w.vars) (hc : op'.cls = op.cls) (hp : op'.params = op.params)
    (hq : op'.qubits.map List.length = op.qubits.map List.length) (hn : op'.numQubits = op.numQubits) (t : String) :
    (opToQasm custom num o w).1 = .ok t ↔ (opToQasm custom num o' w').1 = .ok t := by
  rw [(C80_alone custom num w o).1, (C80_alone custom num w' o').1]
  have hz : op'.qubits.getD [] = [] ↔ op.qubits.getD [] = [] := by
    generalize op.qubits = x at hq ⊢
    generalize op'.qubits = y at hq ⊢
    rcases x with _ | ⟨_ | _⟩ <;> rcases y with _ | ⟨_ | _⟩ <;> simp_all
  have hnum : ∀ k n, NumQubits k op' n ↔ NumQubits k op n := by intro k n; simp only [NumQubits, hn]
  have hpt : ParamText num w' = ParamText num w := by
    funext p s
    cases p <;> simp only [ParamText, hv]
  constructor
  · rintro ⟨x, k, name, np, nq, ps, h1, h2, h3, h4, h5, h6, h7, rfl⟩
    cases ho.symm.trans h1
    refine ⟨op', k, name, np, nq, ps, ho', by rw [hcl, hc, h2], ?_, by rwa [hp], h5, by rwa [hp, hpt], ?_, ?_⟩
    · simpa only [hc, ne_eq, hz, hnum] using h3
    · simpa only [ne_eq, hz, hnum] using h7
    · simp only [hz]
  · rintro ⟨x, k, name, np, nq, ps, h1, h2, h3, h4, h5, h6, h7, rfl⟩
    cases ho'.symm.trans h1
    refine ⟨op, k, name, np, nq, ps, ho, by rw [← hcl, ← hc, h2], ?_, by rwa [← hp], h5, by rwa [← hp, ← hpt], ?_, ?_⟩
    · simpa only [← hc, ne_eq, ← hz, ← hnum] using h3
    · simpa only [ne_eq, ← hz, ← hnum] using h7
    · simp only [hz]

/-- The texts of the operations of the demo program; the last two differ only in their qubits. -/
theorem qasmDemo_alone : (opToQasm noCustom intText 0 qasmDemo.final).1 = .ok "rx(7) q[0]" ∧
    (opToQasm noCustom intText 1 qasmDemo.final).1 = .ok "swap q[0], q[1]" ∧
    (opToQasm noCustom intText 2 qasmDemo.final).1 = .ok "swap q[0], q[1]" := by decide +kernel

/-- The hypotheses of `C80_qubits` hold for them. -/
example : ((qasmDemo.final.ops.drop 1).map fun op => (op.cls, op.qubits, op.numQubits)) = [(1, some [2, 0], some 2), (1, some [0, 1], some 2)] := by
  decide +kernel

end DG.Props
