import Verif.Proofs.RunEffect
import Verif.Props.Qasm

/-!
# Property C81: from the program to the state

`simulateCirc u c le records` is `simulate(circuit, little_endian=le)` for circuit `c` of the current state of the program, where `u` are the random
numbers. See `Spec/Simulation.lean` for the semantics of circuits (`Exec`), and `Spec/Run.lean` for how operation objects are read.
-/

noncomputable section

namespace DG.Props
open Spec Sim

/-- The qubits of the operations of a circuit are in the circuit. -/
theorem ops_inside {A : Call ℝ → Prop} (hA : ∀ e, A e → KeepsRegisters e ∧ KeepsOperands e) {w : World ℝ} (h : Reach A w) {c : Nat} {C : Circ}
    (hC : w.circs[c]? = some C) {L : Layout} (hL : Shows C.q L) {S : List SOp} (hS : List.Forall₂ (Reads w) C.ops S) (hg : ∀ s ∈ S, GoodOperands s) :
    seen (qubitsOf c w).1 = .ok (L.items.map Lbl.obj) ∧ L.items.Nodup ∧
      ∀ s ∈ S, GateOp ⟨L.items, S⟩ s ∨ MeasureOp ⟨L.items, S⟩ s := by
  have hi := QInv.reach (s := true) (u := true) (by simp) (h.imp fun e he => keeps_true_true e (hA e he))
  obtain ⟨L', h1, h2, -, h4, -⟩ := hi.bank C (mem_of_get? hC)
  cases Bank.shows_unique h1.shows hL
  refine ⟨(seen_qubits hC h1 (h2 (.inl rfl))).1, h1.nodup, ?_⟩
  intro s hs
  obtain ⟨o, ho, op, k, g1, g2, g3, g4, g5, g6, g7⟩ := forall₂_mem_right hS hs
  have hin : ∀ q ∈ s.qubits, q ∈ L.items := by
    intro q hq
    apply h4 q
    simp only [World.usedIf, if_true, World.used, List.mem_flatMap]
    exact ⟨o, ho, by rw [g1]; simp only [g4, Option.getD_some]; exact hq⟩
  rcases g7 with ⟨-, g7⟩ | ⟨xs, -, g7, -⟩
  · exact .inr ⟨g7, hin⟩
  · have hsup := means_supported g7
    rcases hg s hs with hm | ⟨h5, h6⟩
    · rw [hm] at hsup; exact absurd hsup (by simp [Supported])
    · exact .inl ⟨hsup, h5, h6, hin⟩

/-- C81: for every program that neither assigns to the qubits of operations nor calls `reset(keep_registers=False)`, and every circuit at any point of
its execution (in a context if there is no controlled gate with parameters, see `C81_context_violated`): if the circuit has between 1 and 30 qubits and its operations are gates of the library and measurements, then
`simulate(circuit)` returns the state that the textbook semantics gives for these operations, the bits get the measured values, and nothing
else has changed. -/
theorem C81_simulate {A : Call ℝ → Prop} (hA : ∀ e, A e → KeepsRegisters e ∧ KeepsOperands e) {w : World ℝ} (h : Reach A w) {c : Nat}
    {C : Circ} (hC : w.circs[c]? = some C) (hact : w.active = none ∨ ¬ NeedsNoContext w C.ops) {L : Layout} (hL : Shows C.q L) (h1 : 1 ≤ L.items.length) (h30 : L.items.length ≤ 30)
    {S : List SOp} (hS : List.Forall₂ (Reads w) C.ops S) (hg : ∀ s ∈ S, GoodOperands s) (u : Nat → ℝ) (hu : ∀ k, 0 ≤ u k ∧ u k < 1)
    (records : Nat → Record) :
    ∃ (mem : List ℂ) (recs : Nat → Record) (C' : Circ) (s : SimState L.items.length),
      simulateCirc u c false records w = (.ok (some (mem, recs)), { w.setCirc c C' with bits := withValues w s.bits }) ∧ bare C' = bare C ∧
      Exec ⟨L.items, S⟩ u S ⟨zeroState _, bitValue w, 0⟩ s ∧ Stores false mem s.ψ := by
  obtain ⟨g1, g2, g3⟩ := ops_inside hA h hC hL hS hg
  obtain ⟨s, t, e1, e2, e3, e4, -, -⟩ := simulate_all (c := ⟨L.items, S⟩) ⟨g2, h1, h30⟩ g3 u hu (bitValue w) records
  obtain ⟨C', k1, k2⟩ := simulateCirc_eq h hC g1 (by intro e; simp [e] at h1) hS hact u false records
  rw [e1] at k2
  refine ⟨s.mem, s.records, C', t, ?_, k1, e2, e3⟩
  rw [k2, ← e4]

/-- C81: without measurements the same holds for both orders of the qubits, and the bits stay as they were. -/
theorem C81_gates {A : Call ℝ → Prop} (hA : ∀ e, A e → KeepsRegisters e ∧ KeepsOperands e) {w : World ℝ} (h : Reach A w) {c : Nat}
    {C : Circ} (hC : w.circs[c]? = some C) (hact : w.active = none ∨ ¬ NeedsNoContext w C.ops) {L : Layout} (hL : Shows C.q L) (h1 : 1 ≤ L.items.length) (h30 : L.items.length ≤ 30)
    {S : List SOp} (hS : List.Forall₂ (Reads w) C.ops S) (hg : ∀ s ∈ S, GoodOperands s ∧ s.kind ≠ .measurement) (u : Nat → ℝ) (le : Bool)
    (records : Nat → Record) :
    ∃ (mem : List ℂ) (recs : Nat → Record) (C' : Circ) (s : SimState L.items.length),
      simulateCirc u c le records w = (.ok (some (mem, recs)), w.setCirc c C') ∧ bare C' = bare C ∧
      Exec ⟨L.items, S⟩ u S ⟨zeroState _, bitValue w, 0⟩ s ∧ Stores le mem s.ψ := by
  obtain ⟨g1, g2, g3⟩ := ops_inside hA h hC hL hS fun s hs => (hg s hs).1
  have g4 : ∀ s ∈ S, GateOp ⟨L.items, S⟩ s := by
    intro s hs
    rcases g3 s hs with g | g
    · exact g
    · exact absurd g.1 (hg s hs).2
  obtain ⟨s, t, e1, e2, e3, e4, -⟩ := simulate_gates (c := ⟨L.items, S⟩) ⟨g2, h1, h30⟩ g4 u le (bitValue w) records
  obtain ⟨C', k1, k2⟩ := simulateCirc_eq h hC g1 (by intro e; simp [e] at h1) hS hact u le records
  rw [e1] at k2
  refine ⟨s.mem, s.records, C', t, ?_, k1, e2, e3⟩
  rw [k2]
  dsimp only
  rw [e4, withValues_same (BitVals.reach h)]
  rfl

/-- C81 is violated in contexts: if some context is open, of any circuit, then circuits with a controlled gate with parameters cannot be simulated. -/
theorem C81_context_violated {A : Call ℝ → Prop} (hA : ∀ e, A e → KeepsRegisters e ∧ KeepsOperands e) {w : World ℝ} (h : Reach A w) {c : Nat}
    {C : Circ} (hC : w.circs[c]? = some C) {L : Layout} (hL : Shows C.q L) (h1 : 1 ≤ L.items.length)
    {S : List SOp} (hS : List.Forall₂ (Reads w) C.ops S) (hg : ∀ s ∈ S, GoodOperands s ∧ s.cond = none)
    (hact : w.active ≠ none) (hn : NeedsNoContext w C.ops) (u : Nat → ℝ) (records : Nat → Record) :
    (simulateCirc u c false records w).1 = .error .typeError := by
  obtain ⟨g1, -, -⟩ := ops_inside hA h hC hL hS fun s hs => (hg s hs).1
  exact simulateCirc_context h hC g1 (by intro e; simp [e] at h1) hS hact hn u false records

/-- C81: to the program, a simulation that does not raise an exception is nothing but reading the qubits of the circuit and setting bits. So what holds
after every execution of programs also holds if there are simulations in them. -/
theorem C81_effect {u : Nat → ℝ} {c : Nat} {le : Bool} {records : Nat → Record} {w w' : World ℝ} {r : Option (List ℂ × (Nat → Record))}
    (h : simulateCirc u c le records w = (.ok r, w')) :
    ∃ q : Prog ℝ, (q.All fun e => e = .readQubits c ∨ ∃ b v, e = .setBit b v true) ∧ q.run w = (.ok (), w') :=
  simulate_effect h

/-- `Hadamard(0)`, `CX(0, 1)`, `X(1).conditional(0)` and a measurement of both qubits into two bits. -/
def runDemo : Prog ℝ :=
  .seq (.call (.newClass ⟨"Hadamard", .plain, ⟨false, some 1, none, none⟩, none⟩)) <|
  .seq (.call (.newClass ⟨"CX", .controlled, ⟨true, none, some 1, some 1⟩, none⟩)) <|
  .seq (.call (.newClass ⟨"X", .plain, ⟨false, some 1, none, none⟩, none⟩)) <|
  .seq (.call (.newClass ⟨"Measurement", .measurement, ⟨false, none, none, none⟩, none⟩)) <|
  .seq (.call (.newCirc false (some 2) (some 2))) <|
  .withCtx 0 <|
  .seq (.call (.construct 0 none (.qubits (some [0])))) <|
  .seq (.call (.construct 1 none (.split (some [0]) (some [1])))) <|
  .seq (.call (.construct 2 none (.qubits (some [1])))) <|
  .seq (.call (.conditional 2 [0])) <|
  .seq (.call (.construct 3 none (.qubits (some [0, 1])))) <|
  .call (.measureInto 3 [0, 1])

theorem runDemo_reach : Reach (fun e => KeepsRegisters e ∧ KeepsOperands e) runDemo.final :=
  ⟨runDemo, by simp [runDemo, Prog.All, KeepsRegisters, KeepsOperands], runDemo.visits_run _⟩

theorem runDemo_shows : ∃ C, runDemo.final.circs[0]? = some C ∧ Shows C.q [(.str "qreg0", [0, 1])] := shows_circ Circ.q (by decide +kernel)

/-- What the simulator is given. -/
def runDemoOps : List SOp :=
  [⟨0, .single .hadamard, [0], none, none⟩, ⟨1, .controlled 1 .x, [0, 1], none, none⟩, ⟨2, .single .x, [1], some [0], none⟩,
    ⟨3, .measurement, [0, 1], none, some [0, 1]⟩]

theorem runDemo_ops : opsOf runDemo.final 0 = [0, 1, 2, 3] ∧ runDemo.final.active = none := by decide +kernel

theorem runDemo_qubits : (runDemo.final.ops.map fun op => (op.cls, op.qubits, op.params.length)) =
    [(0, some [0], 0), (1, some [0, 1], 0), (2, some [1], 0), (3, some [0, 1], 0)] := by decide +kernel

theorem runDemo_bits : (runDemo.final.ops.map fun op => (op.cond, op.bits)) = [(none, none), (none, none), (some [0], none), (none, some [0, 1])] := by
  decide +kernel

theorem runDemo_classes : (runDemo.final.classes.map fun k => (k.name, k.kind, k.ar.numControl)) =
    [("Hadamard", .plain, none), ("CX", .controlled, some 1), ("X", .plain, none), ("Measurement", .measurement, none)] := by decide +kernel

/-- The operations of the demo program are read like this. -/
theorem runDemo_reads : List.Forall₂ (Reads runDemo.final) [0, 1, 2, 3] runDemoOps := by
  have key : ∀ (i : Nat) (a : Nat × Option (List Nat) × Nat) (b : Option (List Nat) × Option (List Nat)),
      [(0, some [0], 0), (1, some [0, 1], 0), (2, some [1], 0), (3, some [0, 1], 0)][i]? = some a →
      [(none, none), (none, none), (some [0], none), (none, some [0, 1])][i]? = some b →
      ∃ op, runDemo.final.ops[i]? = some op ∧ op.cls = a.1 ∧ op.qubits = a.2.1 ∧ op.params.length = a.2.2 ∧ op.cond = b.1 ∧ op.bits = b.2 := by
    intro i a b ha hb
    rw [← runDemo_qubits, List.getElem?_map] at ha
    rw [← runDemo_bits, List.getElem?_map] at hb
    rw [Option.map_eq_some_iff] at ha
    obtain ⟨op, ho, rfl⟩ := ha
    rw [ho] at hb
    cases hb
    exact ⟨op, ho, rfl, rfl, rfl, rfl, rfl⟩
  have keyc : ∀ (i : Nat) (a : String × OpKind × Option Nat),
      [("Hadamard", OpKind.plain, none), ("CX", .controlled, some 1), ("X", .plain, none), ("Measurement", .measurement, none)][i]? = some a →
      ∃ k, runDemo.final.classes[i]? = some k ∧ k.name = a.1 ∧ k.kind = a.2.1 ∧ k.ar.numControl = a.2.2 := by
    intro i a ha
    rw [← runDemo_classes, List.getElem?_map, Option.map_eq_some_iff] at ha
    obtain ⟨k, hk, rfl⟩ := ha
    exact ⟨k, hk, rfl, rfl, rfl⟩
  obtain ⟨o0, a0, b0, c0, d0, e0, f0⟩ := key 0 _ _ rfl rfl
  obtain ⟨o1, a1, b1, c1, d1, e1, f1⟩ := key 1 _ _ rfl rfl
  obtain ⟨o2, a2, b2, c2, d2, e2, f2⟩ := key 2 _ _ rfl rfl
  obtain ⟨o3, a3, b3, c3, d3, e3, f3⟩ := key 3 _ _ rfl rfl
  obtain ⟨k0, g0, h0, i0, j0⟩ := keyc 0 _ rfl
  obtain ⟨k1, g1, h1, i1, j1⟩ := keyc 1 _ rfl
  obtain ⟨k2, g2, h2, i2, j2⟩ := keyc 2 _ rfl
  obtain ⟨k3, g3, h3, i3, j3⟩ := keyc 3 _ rfl
  refine .cons ⟨o0, k0, a0, by rw [b0]; exact g0, rfl, c0, e0.symm, f0.symm, .inr ⟨[], List.length_eq_zero_iff.1 d0, ?_, ?_⟩⟩
    (.cons ⟨o1, k1, a1, by rw [b1]; exact g1, rfl, c1, e1.symm, f1.symm, .inr ⟨[], List.length_eq_zero_iff.1 d1, ?_, fun _ => j1⟩⟩
    (.cons ⟨o2, k2, a2, by rw [b2]; exact g2, rfl, c2, e2.symm, f2.symm, .inr ⟨[], List.length_eq_zero_iff.1 d2, ?_, ?_⟩⟩
    (.cons ⟨o3, k3, a3, by rw [b3]; exact g3, rfl, c3, e3.symm, f3.symm, .inl ⟨i3, rfl⟩⟩ .nil)))
  · rw [h0, i0]; exact .hadamard
  · rw [i0]; simp
  · rw [h1, i1]; exact .cx
  · rw [h2, i2]; exact .x
  · rw [i2]; simp

theorem runDemo_good : ∀ s ∈ runDemoOps, GoodOperands s := by
  simp [runDemoOps, GoodOperands, arity]

/-- `C81_simulate` for the demo program. -/
example (u : Nat → ℝ) (hu : ∀ k, 0 ≤ u k ∧ u k < 1) (records : Nat → Record) : ∃ (mem : List ℂ) (recs : Nat → Record) (w' : World ℝ) (s : SimState 2),
    simulateCirc u 0 false records runDemo.final = (.ok (some (mem, recs)), w') ∧
    Exec ⟨[0, 1], runDemoOps⟩ u runDemoOps ⟨zeroState _, bitValue runDemo.final, 0⟩ s ∧ Stores false mem s.ψ := by
  obtain ⟨C, hC, hL⟩ := runDemo_shows
  have ho : C.ops = [0, 1, 2, 3] := by
    have := runDemo_ops.1
    rw [opsOf, hC] at this
    exact this
  obtain ⟨mem, recs, C', s, g1, -, g2, g3⟩ := C81_simulate (fun e he => he) runDemo_reach hC (.inl runDemo_ops.2) hL (by decide) (by decide)
    (ho ▸ runDemo_reads) runDemo_good u hu records
  exact ⟨mem, recs, _, s, g1, g2, g3⟩

/-- A circuit with two qubits. -/
def openDemo : Prog ℝ :=
  .seq (.call (.newClass ⟨"CRX", .pcontrolled, ⟨true, none, some 1, some 1⟩, some 1⟩)) <|
  .call (.newCirc false (some 2) none)

/-- `CRX(2.5, (0, 1))` in a context that is still open. -/
def openDemoState : World ℝ := (execCall (.construct 0 (some [.num (5 / 2)]) (.split (some [0]) (some [1]))) (openCtx 0 openDemo.final).2).2

theorem openDemo_reach : Reach (fun e => KeepsRegisters e ∧ KeepsOperands e) openDemoState := by
  refine ⟨.seq openDemo (.withCtx 0 (.call (.construct 0 (some [.num (5 / 2)]) (.split (some [0]) (some [1]))))),
    by simp [openDemo, Prog.All, KeepsRegisters, KeepsOperands], .inr ⟨openDemo.final, ?_, .inr (.inr ⟨0, _, ?_, .inl (.inr rfl)⟩)⟩⟩
  · have : (openDemo.run {}).1 = .ok () := by decide +kernel
    exact Prod.ext this rfl
  · have : (openCtx 0 openDemo.final).1 = .ok 0 := by decide +kernel
    exact Prod.ext this rfl

theorem openDemo_shows : ∃ C, openDemoState.circs[0]? = some C ∧ Shows C.q [(.str "qreg0", [0, 1])] := shows_circ Circ.q (by decide +kernel)

theorem openDemo_ops : opsOf openDemoState 0 = [0] ∧ openDemoState.active = some 0 := by decide +kernel

theorem openDemo_qubits : (openDemoState.ops.map fun op => (op.cls, op.qubits, op.cond, op.bits)) = [(0, some [0, 1], none, none)] := by decide +kernel

theorem openDemo_params : (openDemoState.ops.map fun op => op.params.map fun p => match p with | .num _ => true | .var _ => false) = [[true]] := by
  decide +kernel

theorem openDemo_classes : (openDemoState.classes.map fun k => (k.name, k.kind, k.ar.numControl)) = [("CRX", .pcontrolled, some 1)] := by decide +kernel

/-- `C81_context_violated` for the demo program. -/
example (u : Nat → ℝ) (records : Nat → Record) : (simulateCirc u 0 false records openDemoState).1 = .error .typeError := by
  obtain ⟨C, hC, hL⟩ := openDemo_shows
  have ho : C.ops = [0] := by
    have := openDemo_ops.1
    rw [opsOf, hC] at this
    exact this
  have h1 := openDemo_qubits
  have h2 := openDemo_params
  have h3 := openDemo_classes
  match hops : openDemoState.ops, hcl : openDemoState.classes with
  | [op], [k] =>
    rw [hops] at h1 h2
    rw [hcl] at h3
    simp only [List.map_cons, List.map_nil, List.cons.injEq, Prod.mk.injEq, and_true] at h1 h2 h3
    obtain ⟨a, ha⟩ : ∃ a, op.params = [.num a] := by
      match hp : op.params with
      | [.num a] => exact ⟨a, rfl⟩
      | [] => rw [hp] at h2; cases h2
      | [.var _] => rw [hp] at h2; cases h2
      | _ :: _ :: _ => rw [hp] at h2; simp at h2
    have g1 : openDemoState.ops[0]? = some op := by rw [hops]; rfl
    have g2 : openDemoState.classes[op.cls]? = some k := by rw [hcl, h1.1]; rfl
    refine C81_context_violated (fun e he => he) openDemo_reach hC hL (by decide) (S := [⟨0, .controlled 1 (.rx (.num a)), [0, 1], none, none⟩]) ?_ ?_
      (by rw [openDemo_ops.2]; simp) (by rw [ho]; exact ⟨0, by simp, op, k, g1, g2, h3.2.1⟩) u records
    · rw [ho]
      refine .cons ⟨op, k, g1, g2, rfl, h1.2.1, h1.2.2.1.symm, h1.2.2.2.symm, .inr ⟨[a], ha, ?_, fun _ => h3.2.2⟩⟩ .nil
      rw [h3.1, h3.2.1]
      exact .crx a
    · simp [GoodOperands, arity]
  | [], _ => rw [hops] at h1; cases h1
  | _ :: _ :: _, _ => rw [hops] at h1; simp at h1
  | _, [] => rw [hcl] at h3; cases h3
  | _, _ :: _ :: _ => rw [hcl] at h3; simp at h3

end DG.Props
