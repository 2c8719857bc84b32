import Verif.Props.QirMeaning

/-!
# Property C85: compiled programs that do not mean what the circuit means
-/

noncomputable section

namespace DG.Props
open Spec Sim

/-! ## Several registers -/

/-- Two quantum registers with one qubit each, and `X` on the qubit of the second register. -/
def registersDemo : Prog ℝ :=
  libraryQirDemo <|
  .seq (.call (.newCirc false (some 1) none)) <|
  .seq (.call (.addQReg 0 1 none)) <|
  .withCtx 0 <|
  .call (.construct 0 none (.qubits (some [1])))

theorem registersDemo_reach : Reach (fun e => KeepsRegisters e ∧ KeepsOperands e ∧ SetsNoBit e) registersDemo.final :=
  ⟨registersDemo, by simp [registersDemo, libraryQirDemo, Prog.All, KeepsRegisters, KeepsOperands, SetsNoBit], registersDemo.visits_run _⟩

theorem registersDemo_shows : ∃ C, registersDemo.final.circs[0]? = some C ∧ Shows C.q [(.str "qreg0", [0]), (.str "qreg1", [1])] :=
  shows_circ Circ.q (by decide +kernel)

theorem registersDemo_ops : opsOf registersDemo.final 0 = [0] ∧ registersDemo.final.active = none := by decide +kernel

theorem registersDemo_object : (registersDemo.final.ops.map fun op => (op.cls, op.qubits, op.params.length, op.cond, op.bits)) = [(0, some [1], 0, none, none)] := by
  decide +kernel

theorem registersDemo_class : (registersDemo.final.classes[0]?).map (fun k => (k.name, k.kind, k.ar.numControl)) = some ("X", .plain, none) := by decide +kernel

/-- Qubits and results as numbers. -/
def argCode : QirArg ℝ → Nat × Nat
  | .qubit i => (0, i)
  | .result i => (1, i)
  | .dbl _ => (2, 0)
  | .other => (3, 0)

/-- The calls of the instruction set, with numbers for qubits and results. -/
def callCodes (l : List (String × List (QirArg ℝ))) : List (String × List (Nat × Nat)) := l.map fun c => (c.1, c.2.map argCode)

/-- The program consists of one function, and the calls of the instruction set in it are these. -/
def callsOf (r : Except Err (QirProgram ℝ)) : Option (List (String × List (Nat × Nat))) :=
  match r with
  | .ok [f] => some (callCodes (qisCalls f))
  | _ => none

theorem argCode_inj {x y : QirArg ℝ} (h : argCode x = argCode y) (hy : (argCode y).1 < 2) : x = y := by
  cases x <;> cases y <;> simp_all [argCode]

theorem argCodes_inj : ∀ {x y : List (QirArg ℝ)}, x.map argCode = y.map argCode → (∀ a ∈ y, (argCode a).1 < 2) → x = y
  | [], [], _, _ => rfl
  | [], _ :: _, h, _ => by cases h
  | _ :: _, [], h, _ => by cases h
  | a :: x, b :: y, h, hy => by
    simp only [List.map_cons, List.cons.injEq] at h
    rw [argCode_inj h.1 (hy b (by simp)), argCodes_inj h.2 fun a ha => hy a (by simp [ha])]

theorem callCodes_inj : ∀ {x y : List (String × List (QirArg ℝ))}, callCodes x = callCodes y → (∀ c ∈ y, ∀ a ∈ c.2, (argCode a).1 < 2) → x = y
  | [], [], _, _ => rfl
  | [], _ :: _, h, _ => by cases h
  | _ :: _, [], h, _ => by cases h
  | a :: x, b :: y, h, hy => by
    simp only [callCodes, List.map_cons, List.cons.injEq, Prod.mk.injEq] at h
    rw [callCodes_inj (x := x) (y := y) h.2 fun a ha => hy a (by simp [ha])]
    rw [Prod.ext h.1.1 (argCodes_inj h.1.2 (hy b (by simp)))]

theorem callsOf_eq {uniq : List String → String → String} {c : Nat} {w : World ℝ} {args : List (String × List (QirArg ℝ))}
    (h : callsOf (toQir uniq c false w).1 = some (callCodes args)) (hn : ∀ c ∈ args, ∀ a ∈ c.2, (argCode a).1 < 2) :
    ∃ f w1, toQir uniq c false w = (.ok [f], w1) ∧ qisCalls f = args := by
  generalize toQir uniq c false w = z at h
  obtain ⟨r, w1⟩ := z
  unfold callsOf at h
  dsimp only at h
  split at h
  · next f => exact ⟨f, w1, rfl, callCodes_inj (Option.some.inj h) hn⟩
  · cases h

theorem registersDemo_calls : callsOf (toQir uniqDemo 0 false registersDemo.final).1 = some (callCodes [("__quantum__qis__x__body", [.qubit 0])]) := by
  decide +kernel

/-- Different states have different vectors. -/
theorem stores_unique {n : Nat} {b : Bool} {mem : List ℂ} {ψ φ : State n ℂ} (h : Stores b mem ψ) (h' : Stores b mem φ) : ψ = φ := by
  funext x
  exact Option.some.inj ((h.2 x).symm.trans (h'.2 x))

/-- `X` on a qubit. -/
theorem exec_flip {c : SCircuit} {u : Nat → ℝ} {o q : Nat} {s s' : SimState c.qubits.length} (h : Exec c u [⟨o, .single .x, [q], none, none⟩] s s') :
    ∃ t, qubitAt c t = q ∧ s'.ψ = applyGate t (Spec.mat2 0 1 1 0) s.ψ := by
  cases h with
  | cons a b =>
    cases b
    cases a with
    | blocked hb => obtain ⟨bs, b, h1, -⟩ := hb; cases h1
    | measure _ h2 _ => cases h2
    | gate _ h1 h2 =>
      cases h2 with
      | single t ha =>
        cases ha
        refine ⟨t, by simpa using h1.symm, ?_⟩
        dsimp only
        rw [gateOf_mat2]

/-- A measurement of the only qubit of a circuit into bit `a`, and one into bit `b` if bit `a` is not 0. -/
theorem exec_twice {c : SCircuit} {u : Nat → ℝ} {o o' q a b : Nat} {s s' : SimState c.qubits.length}
    (h : Exec c u [⟨o, .measurement, [q], none, some [a]⟩, ⟨o', .measurement, [q], some [a], some [b]⟩] s s') :
    ∃ t, qubitAt c t = q ∧ (outcome t s.ψ (u s.drawn) = false → s'.bits = Function.update s.bits a (some false)) := by
  cases h with
  | cons x y =>
    cases y with
    | cons y z =>
      cases z
      cases x with
      | blocked hb => obtain ⟨bs, b, h1, -⟩ := hb; cases h1
      | gate _ _ h2 => cases h2
      | @measure ts _ _ hq =>
        obtain ⟨t, rfl⟩ : ∃ t, ts = [t] := by
          have := congrArg List.length hq
          simp only [List.length_map, List.length_singleton] at this
          exact List.length_eq_one_iff.1 this.symm
        refine ⟨t, by simpa using hq.symm, fun ho => ?_⟩
        have hbits : writeBits s.bits ((Option.getD (some [a]) []).zip (measureAll u [t] s.drawn s.ψ).1) = Function.update s.bits a (some false) := by
          simp [measureAll, writeBits, ho]
        dsimp only at y
        rw [hbits] at y
        have hbl : Blocked (⟨o', .measurement, [q], some [a], some [b]⟩ : SOp) (Function.update s.bits a (some false)) := ⟨[a], a, rfl, by simp, by simp⟩
        cases y with
        | blocked => rfl
        | gate h1 => exact absurd hbl h1
        | measure h1 => exact absurd hbl h1

theorem flips_differ : applyGate (1 : Fin 2) (Spec.mat2 0 1 1 0) (zeroState 2) ≠ applyGate (0 : Fin 2) (Spec.mat2 0 1 1 0) (zeroState 2) := by
  intro h
  have := congrFun h ![false, true]
  have z1 : (Function.update ![false, true] (1 : Fin 2) false) = fun _ => false := by decide
  have z2 : (Function.update ![false, true] (1 : Fin 2) true) ≠ fun _ => false := by decide
  have z3 : (Function.update ![false, true] (0 : Fin 2) false) ≠ fun _ => false := by decide
  have z4 : (Function.update ![false, true] (0 : Fin 2) true) ≠ fun _ => false := by decide
  simp [applyGate, Spec.mat2, zeroState, z1, z2, z3, z4] at this

/-- C85 is violated for circuits with several registers, where qubits are numbered in each register: the circuit that flips qubit 1 is compiled to a program that flips
qubit 0, and the states are different. -/
theorem C85_registers_violated (u : Nat → ℝ) (hu : ∀ k, 0 ≤ u k ∧ u k < 1) (records : Nat → Record) :
    ∃ (f : List (List (LInstr ℝ))) (w1 : World ℝ) (s : QirState 2) (mem : List ℂ) (recs : Nat → Record) (w' : World ℝ),
      toQir uniqDemo 0 false registersDemo.final = (.ok [f], w1) ∧ QirExec u (qisCalls f) (QirState.start _) s ∧
      simulateCirc u 0 false records registersDemo.final = (.ok (some (mem, recs)), w') ∧ ¬ Stores false mem s.ψ := by
  obtain ⟨C, hC, hL⟩ := registersDemo_shows
  have ho : C.ops = [0] := by
    have := registersDemo_ops.1
    rw [opsOf, hC] at this
    exact this
  obtain ⟨op, hop, e1, e2, e3, e4, e5⟩ : ∃ op, registersDemo.final.ops[0]? = some op ∧ op.cls = 0 ∧ op.qubits = some [1] ∧ op.params = [] ∧ op.cond = none ∧
      op.bits = none := by
    have := congrArg (fun l => l[0]?) registersDemo_object
    simp only [List.getElem?_map, List.getElem?_cons_zero, Option.map_eq_some_iff, Prod.mk.injEq] at this
    obtain ⟨op, h1, h2, h3, h4, h5, h6⟩ := this
    exact ⟨op, h1, h2, h3, List.length_eq_zero_iff.1 h4, h5, h6⟩
  obtain ⟨k, hk, k1, k2, k3⟩ : ∃ k, registersDemo.final.classes[0]? = some k ∧ k.name = "X" ∧ k.kind = .plain ∧ k.ar.numControl = none := by
    have := registersDemo_class
    simp only [Option.map_eq_some_iff, Prod.mk.injEq] at this
    obtain ⟨k, h1, h2⟩ := this
    exact ⟨k, h1, h2⟩
  obtain ⟨f, w1, e, hq⟩ := callsOf_eq (args := [("__quantum__qis__x__body", [.qubit 0])]) registersDemo_calls (by simp [argCode])
  have hr : List.Forall₂ (Reads registersDemo.final) C.ops [⟨0, .single .x, [1], none, none⟩] := by
    rw [ho]
    refine .cons ⟨op, k, hop, by rw [e1]; exact hk, rfl, e2, e4.symm, e5.symm, .inr ⟨[], e3, ?_, ?_⟩⟩ .nil
    · rw [k1, k2]; exact .x
    · rw [k2]; simp
  obtain ⟨mem, recs, C', s, m1, -, m3, m4⟩ := C81_simulate (fun e he => ⟨he.1, he.2.1⟩) registersDemo_reach hC (.inl registersDemo_ops.2) hL (by decide) (by decide) hr
    (by simp [GoodOperands, arity]) u hu records
  refine ⟨f, w1, ⟨applyGate 0 (Spec.mat2 0 1 1 0) (zeroState 2), fun _ => none, 0⟩, mem, recs, _, e, ?_, m1, fun hst => ?_⟩
  · rw [hq]
    exact .cons (.gate (.x (0 : Fin 2))) .nil
  · have hψ := stores_unique m4 hst
    obtain ⟨t, h1, h2⟩ := exec_flip m3
    have ht : t = (1 : Fin 2) := by
      revert h1
      change Fin 2 at t
      fin_cases t
      · intro h; exact absurd h (by decide)
      · intro; rfl
    rw [h2, ht] at hψ
    exact flips_differ hψ

/-! ## Conditional measurements -/

/-- One qubit, measured into bit 0 and, if bit 0 is not 0, into bit 1. -/
def twiceDemo : Prog ℝ :=
  libraryQirDemo <|
  .seq (.call (.newCirc false (some 1) (some 2))) <|
  .withCtx 0 <|
  .seq (.call (.construct 11 none (.qubits (some [0])))) <|
  .seq (.call (.measureInto 0 [0])) <|
  .seq (.call (.construct 11 none (.qubits (some [0])))) <|
  .seq (.call (.measureInto 1 [1])) <|
  .call (.conditional 1 [0])

theorem twiceDemo_reach : Reach (fun e => KeepsRegisters e ∧ KeepsOperands e ∧ SetsNoBit e) twiceDemo.final :=
  ⟨twiceDemo, by simp [twiceDemo, libraryQirDemo, Prog.All, KeepsRegisters, KeepsOperands, SetsNoBit], twiceDemo.visits_run _⟩

theorem twiceDemo_shows : ∃ C, twiceDemo.final.circs[0]? = some C ∧ Shows C.q [(.str "qreg0", [0])] := shows_circ Circ.q (by decide +kernel)

theorem twiceDemo_ops : opsOf twiceDemo.final 0 = [0, 1] ∧ twiceDemo.final.active = none ∧ twiceDemo.final.bits.map (·.value) = [none, none] := by decide +kernel

theorem twiceDemo_objects : (twiceDemo.final.ops.map fun op => (op.cls, op.qubits, op.cond, op.bits)) =
    [(11, some [0], none, some [0]), (11, some [0], some [0], some [1])] := by
  decide +kernel

theorem twiceDemo_class : (twiceDemo.final.classes[11]?).map (fun k => k.kind) = some .measurement := by decide +kernel

theorem twiceDemo_calls : callsOf (toQir uniqDemo 0 false twiceDemo.final).1 =
    some (callCodes [("__quantum__qis__mz__body", [.qubit 0, .result 0]), ("__quantum__qis__mz__body", [.qubit 0, .result 1])]) := by
  decide +kernel

theorem twice_simulated {w : World ℝ} (h : Reach (fun e => KeepsRegisters e ∧ KeepsOperands e ∧ SetsNoBit e) w) {c : Nat} {C : Circ} (hC : w.circs[c]? = some C)
    (ha : w.active = none) (hL : Shows C.q [(.str "qreg0", [0])])
    (hr : List.Forall₂ (Reads w) C.ops [⟨0, .measurement, [0], none, some [0]⟩, ⟨1, .measurement, [0], some [0], some [1]⟩])
    (hv : ∀ x ∈ w.bits.map (·.value), x = none) (hlen : 1 < w.bits.length) (u : Nat → ℝ) (hu : ∀ k, 0 ≤ u k ∧ u k < 1) (records : Nat → Record) :
    ∃ (mem : List ℂ) (recs : Nat → Record) (w' : World ℝ), simulateCirc u c false records w = (.ok (some (mem, recs)), w') ∧ bitValue w' 1 = none := by
  obtain ⟨mem, recs, C', s, m1, -, m3, -⟩ := C81_simulate (fun e he => ⟨he.1, he.2.1⟩) h hC (.inl ha) hL (by decide) (by decide) hr (by simp [GoodOperands]) u hu records
  have hunset : ∀ b, bitValue w b = none := by
    intro b
    unfold bitValue
    split
    · next x hx => rw [hv x.value (List.mem_map_of_mem (mem_of_get? hx))]; rfl
    · rfl
  have hb : s.bits = Function.update (bitValue w) 0 (some false) := by
    obtain ⟨t, -, h2⟩ := exec_twice m3
    have ht : t = (0 : Fin 1) := Subsingleton.elim (α := Fin 1) _ _
    refine h2 ?_
    rw [ht]
    show outcome (0 : Fin 1) (zeroState 1) (u 0) = false
    simp only [outcome, born_zero, if_pos (hu 0).2]
  refine ⟨mem, recs, _, m1, ?_⟩
  rw [bitValue_withValues _ s.bits rfl hlen, hb]
  simp [hunset]

theorem twice_program (u : Nat → ℝ) : ∃ s : QirState 1, QirExec u [("__quantum__qis__mz__body", [.qubit 0, .result 0]), ("__quantum__qis__mz__body", [.qubit 0, .result 1])]
    (QirState.start 1) s ∧ s.results 1 ≠ none :=
  ⟨_, .cons (.measure (t := 0)) (.cons (.measure (t := 0)) .nil), by simp⟩

/-- C85 is violated for measurements with a condition, which is lost: the program always has a result 1, but when the circuit is simulated, bit 1 stays unset. -/
theorem C85_condition_violated (u : Nat → ℝ) (hu : ∀ k, 0 ≤ u k ∧ u k < 1) (records : Nat → Record) :
    ∃ (f : List (List (LInstr ℝ))) (w1 : World ℝ) (s : QirState 1) (mem : List ℂ) (recs : Nat → Record) (w' : World ℝ),
      toQir uniqDemo 0 false twiceDemo.final = (.ok [f], w1) ∧ QirExec u (qisCalls f) (QirState.start _) s ∧ s.results 1 ≠ none ∧
      simulateCirc u 0 false records twiceDemo.final = (.ok (some (mem, recs)), w') ∧ bitValue w' 1 = none := by
  obtain ⟨C, hC, hL⟩ := twiceDemo_shows
  have ho : C.ops = [0, 1] := by
    have := twiceDemo_ops.1
    rw [opsOf, hC] at this
    exact this
  obtain ⟨k, hk, hkd⟩ : ∃ k, twiceDemo.final.classes[11]? = some k ∧ k.kind = .measurement := by
    have := twiceDemo_class
    simpa [Option.map_eq_some_iff] using this
  have key : ∀ (i : Nat) (a : Nat × Option (List Nat) × Option (List Nat) × Option (List Nat)),
      [(11, some [0], none, some [0]), (11, some [0], some [0], some [1])][i]? = some a →
      ∃ op, twiceDemo.final.ops[i]? = some op ∧ op.cls = a.1 ∧ op.qubits = a.2.1 ∧ op.cond = a.2.2.1 ∧ op.bits = a.2.2.2 := by
    intro i a ha
    rw [← twiceDemo_objects, List.getElem?_map, Option.map_eq_some_iff] at ha
    obtain ⟨op, ho, rfl⟩ := ha
    exact ⟨op, ho, rfl, rfl, rfl, rfl⟩
  obtain ⟨o0, a0, b0, c0, d0, e0⟩ := key 0 _ rfl
  obtain ⟨o1, a1, b1, c1, d1, e1⟩ := key 1 _ rfl
  obtain ⟨f, w1, e, hq⟩ := callsOf_eq (args := [("__quantum__qis__mz__body", [.qubit 0, .result 0]), ("__quantum__qis__mz__body", [.qubit 0, .result 1])])
    twiceDemo_calls (by simp [argCode])
  have hr : List.Forall₂ (Reads twiceDemo.final) C.ops [⟨0, .measurement, [0], none, some [0]⟩, ⟨1, .measurement, [0], some [0], some [1]⟩] := by
    rw [ho]
    exact .cons ⟨o0, k, a0, by rw [b0]; exact hk, rfl, c0, d0.symm, e0.symm, .inl ⟨hkd, rfl⟩⟩
      (.cons ⟨o1, k, a1, by rw [b1]; exact hk, rfl, c1, d1.symm, e1.symm, .inl ⟨hkd, rfl⟩⟩ .nil)
  have hvals : ∀ x ∈ twiceDemo.final.bits.map (·.value), x = none := by rw [twiceDemo_ops.2.2]; simp
  have hlen : 1 < twiceDemo.final.bits.length := by
    have := congrArg List.length twiceDemo_ops.2.2
    rw [List.length_map] at this
    rw [this]
    decide
  obtain ⟨mem, recs, w', m1, m2⟩ := twice_simulated twiceDemo_reach hC twiceDemo_ops.2.1 hL hr hvals hlen u hu records
  obtain ⟨sq, x1, x2⟩ := twice_program u
  exact ⟨f, w1, sq, mem, recs, w', e, by rw [hq]; exact x1, x2, m1, m2⟩

end DG.Props
