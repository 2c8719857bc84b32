import Verif.Proofs.SessionFails
import Verif.Proofs.QirEffect
import Verif.Props.Run
import Verif.Props.Circuit

/-!
# Property C101: simulations in programs

`SReach A s`: state `s` occurs in some execution of a program that consists of calls in `A`, simulations, `set_state` and reading `density_matrix`, with contexts and
`try` statements. `s.w` are the objects, `s.slots c` are `circuit.state` and `circuit.density_matrix`, `s.records o` is what measurement `o` stores for `sample`.
-/

noncomputable section

namespace DG.Props
open Spec Sim

/-- C101: simulations, whether they raise an exception or not, `set_state` and `density_matrix` lead to no states of the objects that programs without them do not
reach: so all that is proved for all reachable states also holds if programs simulate. -/
theorem C101_reach {A : Call ℝ → Prop} (hA : ∀ e, SimCall e → A e) {s : Sess} (h : SReach A s) : Reach A s.w := by
  obtain ⟨p, hp, hv⟩ := h
  exact visits_sims hA p hp _ _ hv

/-- C101: what a simulation leaves as it is, whether it raises an exception or not: all objects other than bits and the circuits' caches; the labels of bits; the
values of all bits that the circuit does not measure into; what is stored in operations that are not measurements of the circuit; the states of other circuits. -/
theorem C101_kept (u : Nat → ℝ) (c : Nat) (mixed le : Bool) (s : Sess) {r : Except Err Unit} {s' : Sess} (h : simulateSes u c mixed le s = (r, s')) :
    s'.w = { s.w with bits := s'.w.bits, circs := s'.w.circs } ∧ s'.w.circs.map bare = s.w.circs.map bare ∧
    s'.w.bits.map BitObj.label = s.w.bits.map BitObj.label ∧ (∀ b : Nat, ¬ MeasuresInto s.w c b → s'.w.bits[b]? = s.w.bits[b]?) ∧
    (∀ o : Nat, ¬ (o ∈ opsOf s.w c ∧ ∃ op k, s.w.ops[o]? = some op ∧ s.w.classes[op.cls]? = some k ∧ k.kind = .measurement) → s'.records o = s.records o) ∧
    ∀ d, d ≠ c → s'.slots d = s.slots d := by
  have := stored_simulate (P := MeasuresInto s.w c)
    (Q := fun o => o ∈ opsOf s.w c ∧ ∃ op k, s.w.ops[o]? = some op ∧ s.w.classes[op.cls]? = some k ∧ k.kind = .measurement) u c mixed le s
    fun o ho op k h1 h2 h3 => ⟨⟨ho, op, k, h1, h2, h3⟩, fun bs hb b hm => ⟨o, ho, op, k, bs, h1, h2, h3, hb, hm⟩⟩
  rw [h] at this
  obtain ⟨⟨h1, h2, h3, h4, h5, -⟩, h7, -⟩ := this
  exact ⟨h1, h2, h3, h4, h5, h7⟩

/-- C101: `set_state` and `density_matrix` change nothing but the state of the circuit, which `set_state` keeps if it raises an exception; and `state` stays the same
when `density_matrix` is read. -/
theorem C101_set (c : Nat) (a : NDArr) (force normalize : Bool) (s : Sess) :
    (∀ r s', setStateCirc c a force normalize s = (r, s') → s'.w.circs.map bare = s.w.circs.map bare ∧ s'.w = { s.w with circs := s'.w.circs } ∧ s'.records = s.records ∧
      (∀ d, d ≠ c → s'.slots d = s.slots d) ∧ ∀ e, r = .error e → s'.slots = s.slots) ∧
    ∀ r s', readDmCirc c s = (r, s') → r = .ok () ∧ s'.w = s.w ∧ s'.records = s.records ∧ (∀ d, d ≠ c → s'.slots d = s.slots d) ∧ (s'.slots c).state = (s.slots c).state := by
  constructor
  · intro r s' h
    have := stored_setState (P := fun _ => False) (Q := fun _ => False) c a force normalize (.refl s)
    rw [h] at this
    obtain ⟨⟨h1, h2, h3, h4, h5, -⟩, h7, h8⟩ := this
    refine ⟨h2, ?_, funext fun o => h5 o id, h7, fun e he => h8 (by rw [he]; rfl)⟩
    have hb : s'.w.bits = s.w.bits := List.ext_getElem? fun b => h4 b id
    have h1' : s'.w = { s.w with bits := s'.w.bits, circs := s'.w.circs } := h1
    rw [hb] at h1'
    exact h1'
  · intro r s' h
    cases h
    refine ⟨rfl, rfl, rfl, fun d hd => Function.update_of_ne hd _ _, ?_⟩
    show (Function.update s.slots c _ c).state = _
    rw [Function.update_self]
    unfold StateSlot.getDm
    split
    · rfl
    · rfl

/-- C101: after a simulation that raises an exception, `circuit.state` and `circuit.density_matrix` are what they were, of all circuits.
Missing: the bits, see `C101_violated`. -/
theorem C101_failed_partial (u : Nat → ℝ) (c : Nat) (mixed le : Bool) (s : Sess) {e : Err} {s' : Sess} (h : simulateSes u c mixed le s = (.error e, s')) :
    s'.slots = s.slots := by
  have := stored_simulate (P := fun _ => True) (Q := fun _ => True) u c mixed le s (concerns_all _ _)
  rw [h] at this
  exact this.same rfl

/-- C101: in all states that programs reach, `circuit.state` is missing or a vector of `2 ^ m` numbers for some `m ≥ 1`, with norm close to 1, and
`circuit.density_matrix` belongs to it; or there is a density matrix alone. Missing: that `m` is the number of qubits, see `C101_stale_violated`. -/
theorem C101_valid_partial {A : Call ℝ → Prop} {s : Sess} (h : SReach A s) (c : Nat) : GoodSlot (s.slots c) := by
  obtain ⟨p, -, hv⟩ := h
  exact presS_visits p {} s (fun _ => .inl ⟨rfl, rfl⟩) hv c

/-- C101: after a simulation without exception, the circuit has a state vector, or a density matrix, for as many qubits as it has. -/
theorem C101_size {A : Call ℝ → Prop} (hA : ∀ e, SimCall e → A e) {s s' : Sess} (h : SReach A s) {c : Nat} {C : Circ} (hC : s.w.circs[c]? = some C) {items : List Nat}
    (hi : seen (qubitsOf c s.w).1 = .ok (items.map Lbl.obj)) (hne : items ≠ []) {u : Nat → ℝ} {mixed le : Bool} (hs : simulateSes u c mixed le s = (.ok (), s')) :
    ∃ a, NearOne a.norm ∧ if mixed then a.shape = [2 ^ items.length, 2 ^ items.length] ∧ s'.slots c = ⟨none, some a⟩
      else a.shape = [2 ^ items.length] ∧ s'.slots c = ⟨some a, none⟩ :=
  simulate_size (C101_reach hA h) hC hi hne hs

/-- C101: after the simulation of a circuit of gates and measurements, `circuit.state` is the state of the semantics of circuits (`Exec`), whatever the program did
before; the bits have the values of the semantics, and no other state is changed. -/
theorem C101_simulate {A : Call ℝ → Prop} (hA : ∀ e, A e → KeepsRegisters e ∧ KeepsOperands e) (hA' : ∀ e, SimCall e → A e) {s : Sess} (h : SReach A s) {c : Nat}
    {C : Circ} (hC : s.w.circs[c]? = some C) (hact : s.w.active = none ∨ ¬ NeedsNoContext s.w C.ops) {L : Layout} (hL : Shows C.q L)
    (h1 : 1 ≤ L.items.length) (h30 : L.items.length ≤ 30) {S : List SOp} (hS : List.Forall₂ (Reads s.w) C.ops S) (hg : ∀ p ∈ S, GoodOperands p)
    (hcond : ∀ p ∈ S, ∀ bs, p.cond = some bs → ∀ b ∈ bs, b < s.w.bits.length) (u : Nat → ℝ) (hu : ∀ k, 0 ≤ u k ∧ u k < 1) :
    ∃ (a : NDArr) (recs : Nat → Record) (C' : Circ) (t : SimState L.items.length),
      simulateSes u c false false s =
        (.ok (), ⟨{ s.w.setCirc c C' with bits := withValues s.w t.bits }, Function.update s.slots c ⟨some a, none⟩, recs⟩) ∧ bare C' = bare C ∧
      Exec ⟨L.items, S⟩ u S ⟨zeroState _, bitValue s.w, 0⟩ t ∧ a.shape = [2 ^ L.items.length] ∧ Stores false a.data t.ψ := by
  have hr := C101_reach hA' h
  obtain ⟨g1, g2, g3⟩ := ops_inside hA hr hC hL hS hg
  obtain ⟨v, t, e1, e2, e3, e4, -, -⟩ := simulate_all (c := ⟨L.items, S⟩) ⟨g2, h1, h30⟩ g3 u hu (bitValue s.w) s.records
  obtain ⟨C', k1, k2⟩ := simulateSes_eq hr hC g1 (by intro e; simp [e] at h1) hS hcond hact u false
  rw [e1] at k2
  refine ⟨Run.vector v.mem, v.records, C', t, ?_, k1, e2, ?_, e3⟩
  · rw [← e4]; exact k2
  · show [v.mem.length] = _
    rw [e3.1]

/-- C101 is violated by simulations that raise an exception: the bits keep the values measured before. If an operation without qubits follows the operations `os`
(`circuit.append` accepts it), then the simulation raises `TypeError`, and the bits have the values of the simulation of `os`. -/
theorem C101_violated {A : Call ℝ → Prop} (hA : ∀ e, A e → KeepsRegisters e ∧ KeepsOperands e) (hA' : ∀ e, SimCall e → A e) {s : Sess} (h : SReach A s) {c : Nat}
    {C : Circ} (hC : s.w.circs[c]? = some C) {os rest : List Nat} {o : Nat} (ho : C.ops = os ++ o :: rest) {op : OpObj ℝ} (hop : s.w.ops[o]? = some op)
    (hq : op.qubits = none) (hact : s.w.active = none ∨ ¬ NeedsNoContext s.w os) {L : Layout} (hL : Shows C.q L)
    (h1 : 1 ≤ L.items.length) (h30 : L.items.length ≤ 30) {S : List SOp} (hS : List.Forall₂ (Reads s.w) os S) (hg : ∀ p ∈ S, GoodOperands p)
    (hcond : ∀ p ∈ S, ∀ bs, p.cond = some bs → ∀ b ∈ bs, b < s.w.bits.length) (u : Nat → ℝ) (hu : ∀ k, 0 ≤ u k ∧ u k < 1) :
    ∃ (s' : Sess) (t : SimState L.items.length), simulateSes u c false false s = (.error .typeError, s') ∧
      Exec ⟨L.items, S⟩ u S ⟨zeroState _, bitValue s.w, 0⟩ t ∧ s'.w.bits = withValues s.w t.bits := by
  have hr := C101_reach hA' h
  have hi := QInv.reach (s := true) (u := true) (by simp) (hr.imp fun e he => keeps_true_true e (hA e he))
  obtain ⟨L', g1, g2, -, g4, -⟩ := hi.bank C (mem_of_get? hC)
  cases Bank.shows_unique g1.shows hL
  have hseen := (seen_qubits hC g1 (g2 (.inl rfl))).1
  have hall : ∀ p ∈ S, GateOp ⟨L.items, S⟩ p ∨ MeasureOp ⟨L.items, S⟩ p := by
    intro p hp
    obtain ⟨o', ho', op', k, f1, -, -, f4, -, -, f7⟩ := forall₂_mem_right hS hp
    have hin : ∀ q ∈ p.qubits, q ∈ L.items := by
      intro q hq
      apply g4 q
      simp only [World.usedIf, if_true, World.used, List.mem_flatMap]
      exact ⟨o', by rw [ho]; simp [ho'], by rw [f1]; simp only [f4, Option.getD_some]; exact hq⟩
    rcases f7 with ⟨-, f7⟩ | ⟨xs, -, f7, -⟩
    · exact .inr ⟨f7, hin⟩
    · have hsup := means_supported f7
      rcases hg p hp with hm | ⟨h5, h6⟩
      · rw [hm] at hsup; exact absurd hsup (by simp [Supported])
      · exact .inl ⟨hsup, h5, h6, hin⟩
  obtain ⟨v, t, e1, e2, -, e4, -⟩ := loop_all (c := ⟨L.items, S⟩) ⟨g1.nodup, h1, h30⟩ u hu S hall
    { mem := initialState L.items.length, bits := bitValue s.w, drawn := 0, records := s.records } ⟨zeroState _, bitValue s.w, 0⟩
    (stores_initial false) rfl rfl normSq_zeroState
  obtain ⟨k1, k2⟩ := simulate_fails hr hC hseen (by intro e; simp [e] at h1) ho hop hq hS hcond hact u false e1
  exact ⟨_, t, Prod.ext k1 rfl, e2, by rw [k2, e4]⟩

/-- C101 is violated for circuits that get more qubits after a simulation: `add_qubit()` succeeds, and `circuit.state` is still the vector for the qubits that the
circuit had. -/
theorem C101_stale_violated {A : Call ℝ → Prop} (hA : ∀ e, A e → KeepsRegisters e) (hA' : ∀ e, SimCall e → A e) {s s' : Sess} (h : SReach A s) {c : Nat}
    {C : Circ} (hC : s.w.circs[c]? = some C) {L : Layout} (hL : Shows C.q L) (h1 : 1 ≤ L.items.length) {u : Nat → ℝ} {le : Bool}
    (hs : simulateSes u c false le s = (.ok (), s')) :
    ∃ (a : NDArr) (s2 : Sess) (items : List Nat), (SProg.call (.addQubit c .none none)).run s' = (.ok (), s2) ∧ s2.slots c = ⟨some a, none⟩ ∧
      seen (qubitsOf c s2.w).1 = .ok (items.map Lbl.obj) ∧ items.length = L.items.length + 1 ∧ a.shape = [2 ^ L.items.length] := by
  have hr := C101_reach hA' h
  obtain ⟨L0, g1, g2, -⟩ := reach_q_strict hA hr hC
  cases Bank.shows_unique g1.shows hL
  have hseen := (seen_qubits hC g1 g2).1
  obtain ⟨a, -, ha⟩ := C101_size hA' h hC hseen (by intro e; simp [e] at h1) hs
  simp only [Bool.false_eq_true, if_false] at ha
  have hr' : Reach A s'.w := by
    obtain ⟨q, hq, e⟩ := sdone_run hA' (.simulate u c false le) trivial s
    have : ((SProg.simulate u c false le).run s).2 = s' := by show (simulateSes u c false le s).2 = s'; rw [hs]
    rw [this] at e
    exact reach_after hr hq e
  obtain ⟨C', hC', hb⟩ : ∃ C', s'.w.circs[c]? = some C' ∧ bare C' = bare C := by
    have := congrArg (fun l : List Circ => l[c]?) (C101_kept u c false le s hs).2.1
    simp only [List.getElem?_map, hC, Option.map_some, Option.map_eq_some_iff] at this
    exact this
  have hL' : Shows C'.q L := by
    have : C'.q.regs = C.q.regs := by have := congrArg (fun x : Circ => x.q.regs) hb; exact this
    unfold Shows
    rw [this]
    exact hL
  obtain ⟨L1, k1, k2, k3, -⟩ := reach_q hr' hC'
  cases Bank.shows_unique k1.shows hL'
  obtain ⟨C2, w2, f1, -⟩ := (addQubit_spec hC' k1 k2 k3 none).2.2
  obtain ⟨C3, before, l, xs, k, after, f2, -, f3, f4, -⟩ := C21_cases hr' hC' hL' f1
  refine ⟨a, { s' with w := w2 }, before.items ++ xs ++ k :: after.items, ?_, ha.2, f4, ?_, ha.1⟩
  · show (((addQubit c .none none s'.w).1, { s' with w := (addQubit c .none none s'.w).2 }) : Except Err Unit × Sess) = _
    rw [f1]
  · have : L.items.length = (before.items ++ xs ++ after.items).length := by
      rcases f3 with ⟨rfl, -⟩ | ⟨rfl, rfl, rfl, -⟩ <;> simp [Layout.items]
    rw [this]
    simp only [List.length_append, List.length_cons]
    omega

/-! ## Demonstrations -/

/-- The calls of the demonstrations. -/
def DemoCall (e : Call ℝ) : Prop := KeepsRegisters e ∧ KeepsOperands e

theorem simCall_demo : ∀ e : Call ℝ, SimCall e → DemoCall e := by
  intro e he
  cases e <;> first | exact he.elim | exact ⟨trivial, trivial⟩

/-- A second simulation of a circuit like that of `runDemo`, whatever happened in the first one. -/
theorem second_simulation {p : Prog ℝ} (hall : p.All DemoCall) (hrun : (p.run {}).1 = .ok ()) {C : Circ} (hC : p.final.circs[0]? = some C)
    (hL : Shows C.q [(.str "qreg0", [0, 1])]) (hact : p.final.active = none) (hlen : p.final.bits.length = 2) (hreads : List.Forall₂ (Reads p.final) C.ops runDemoOps)
    (u v : Nat → ℝ) (hv : ∀ k, 0 ≤ v k ∧ v k < 1) : ∃ (s s2 : Sess) (a : NDArr) (t : SimState 2), (SProg.seq (.ofProg p) (.attempt (.simulate u 0 false false))).run {} = (.ok (), s) ∧
    simulateSes v 0 false false s = (.ok (), s2) ∧ s2.slots 0 = ⟨some a, none⟩ ∧
    Exec ⟨[0, 1], runDemoOps⟩ v runDemoOps ⟨zeroState _, bitValue s.w, 0⟩ t ∧ Stores false a.data t.ψ := by
  have hr := sreach_simulate hall hrun u 0 false false
  have hkept := C101_kept u 0 false false { w := p.final } (r := (simulateSes u 0 false false { w := p.final }).1) (s' := (simulateSes u 0 false false { w := p.final }).2) rfl
  have hprog : (SProg.seq (.ofProg p) (.attempt (.simulate u 0 false false))).run {} = (.ok (), (simulateSes u 0 false false { w := p.final }).2) := by
    show Ses.bind (SProg.ofProg p).run (fun _ => (SProg.attempt (.simulate u 0 false false)).run) {} = _
    unfold Ses.bind
    have : (SProg.ofProg p).run {} = (.ok (), { w := p.final }) := by rw [ofProg_run]; exact Prod.ext hrun rfl
    rw [this]
    rfl
  generalize (simulateSes u 0 false false { w := p.final }).2 = s at hr hkept hprog
  obtain ⟨k1, k2, k3, -⟩ := hkept
  obtain ⟨C', hC', hb⟩ : ∃ C', s.w.circs[0]? = some C' ∧ bare C' = bare C := by
    have := congrArg (fun l : List Circ => l[0]?) k2
    simp only [List.getElem?_map, hC, Option.map_some, Option.map_eq_some_iff] at this
    exact this
  have hL' : Shows C'.q [(.str "qreg0", [0, 1])] := by
    have : C'.q.regs = C.q.regs := by have := congrArg (fun x : Circ => x.q.regs) hb; exact this
    unfold Shows
    rw [this]
    exact hL
  have ho' : C'.ops = C.ops := by have := congrArg (fun x : Circ => x.ops) hb; exact this
  have hlen' : s.w.bits.length = 2 := by
    have := congrArg List.length k3
    simp only [List.length_map] at this
    rw [this, hlen]
  have e1 : s.w.ops = p.final.ops := by rw [k1]
  have e2 : s.w.classes = p.final.classes := by rw [k1]
  have e3 : s.w.active = none := by rw [k1]; exact hact
  obtain ⟨a, recs, C2, t, f1, -, f2, -, f3⟩ := C101_simulate (fun e he => he) simCall_demo hr hC' (.inl e3) hL' (by decide) (by decide)
    (by rw [ho']; exact hreads.imp fun a b h => Reads.of_same e1 e2 h) runDemo_good
    (by rw [hlen']; simp [runDemoOps]) v hv
  exact ⟨s, _, a, t, hprog, f1, by simp, f2, f3⟩

theorem runDemo_all : runDemo.All DemoCall := by simp [runDemo, Prog.All, DemoCall, KeepsRegisters, KeepsOperands]

theorem runDemo_run : (runDemo.run {}).1 = .ok () := by decide +kernel

theorem runDemo_len : runDemo.final.bits.length = 2 := by decide +kernel

theorem runDemo_circ : ∃ C, runDemo.final.circs[0]? = some C ∧ Shows C.q [(.str "qreg0", [0, 1])] ∧ List.Forall₂ (Reads runDemo.final) C.ops runDemoOps := by
  obtain ⟨C, hC, hL⟩ := runDemo_shows
  have ho : C.ops = [0, 1, 2, 3] := by
    have := runDemo_ops.1
    rw [opsOf, hC] at this
    exact this
  exact ⟨C, hC, hL, ho ▸ runDemo_reads⟩

/-- `C101_simulate` after a simulation of the same circuit: with any random numbers, the second simulation succeeds as well. -/
example (u v : Nat → ℝ) (hv : ∀ k, 0 ≤ v k ∧ v k < 1) : ∃ (s s2 : Sess) (a : NDArr) (t : SimState 2),
    (SProg.seq (.ofProg runDemo) (.attempt (.simulate u 0 false false))).run {} = (.ok (), s) ∧
    simulateSes v 0 false false s = (.ok (), s2) ∧ s2.slots 0 = ⟨some a, none⟩ ∧
    Exec ⟨[0, 1], runDemoOps⟩ v runDemoOps ⟨zeroState _, bitValue s.w, 0⟩ t ∧ Stores false a.data t.ψ := by
  obtain ⟨C, hC, hL, hS⟩ := runDemo_circ
  exact second_simulation runDemo_all runDemo_run hC hL runDemo_ops.2 runDemo_len hS u v hv

/-- A measurement of a qubit into a bit, followed by an operation without qubits. -/
def brokenDemo : Prog ℝ :=
  .seq (.call (.newClass ⟨"Measurement", .measurement, ⟨false, none, none, none⟩, none⟩)) <|
  .seq (.call (.newClass ⟨"X", .plain, ⟨false, some 1, none, none⟩, none⟩)) <|
  .seq (.call (.newCirc false (some 1) (some 1))) <|
  .seq (.call (.construct 1 none (.qubits none))) <|
  .withCtx 0 <|
  .seq (.call (.construct 0 none (.qubits (some [0])))) <|
  .seq (.call (.measureInto 1 [0])) <|
  .call (.append 0 0)

theorem brokenDemo_reach : Reach DemoCall brokenDemo.final :=
  ⟨brokenDemo, by simp [brokenDemo, Prog.All, DemoCall, KeepsRegisters, KeepsOperands], brokenDemo.visits_run _⟩

theorem step_measured {c : SCircuit} {u : Nat → ℝ} {op : SOp} {s t : SimState c.qubits.length} (h : Step c u op s t) (hk : op.kind = .measurement) (hc : op.cond = none)
    (hq : op.qubits.length = 1) {b : Nat} (hb : op.bits = some [b]) : ∃ v, t.bits b = some v := by
  cases h with
  | blocked hbl =>
    obtain ⟨bs, _, hbs, -⟩ := hbl
    rw [hc] at hbs
    cases hbs
  | gate _ _ hga => rw [hk] at hga; cases hga
  | @measure ts _ _ hts =>
    rw [hts, List.length_map] at hq
    match ts, hq with
    | [t0], _ => exact ⟨outcome t0 s.ψ (u s.drawn), by simp [hb, writeBits, measureAll]⟩

theorem broken_demo {w : World ℝ} (h : Reach DemoCall w) {C : Circ} (hC : w.circs[0]? = some C) (hL : Shows C.q [(.str "qreg0", [0])]) (ho : C.ops = [1] ++ 0 :: [])
    (hact : w.active = none) (hb : w.bits.map BitObj.value = [none])
    (hq : (w.ops.map fun op => (op.cls, op.qubits, op.cond, op.bits)) = [(1, none, none, none), (0, some [0], none, some [0])])
    (hc : (w.classes.map OpCls.kind) = [.measurement, .plain]) (u : Nat → ℝ) (hu : ∀ k, 0 ≤ u k ∧ u k < 1) :
    ∃ s' v, simulateSes u 0 false false { w := w } = (.error .typeError, s') ∧ s'.w.bits.map BitObj.value = [some v] := by
  obtain ⟨x, hx⟩ : ∃ x, w.bits = [x] := by
    match h : w.bits with
    | [x] => exact ⟨x, rfl⟩
    | [] => rw [h] at hb; cases hb
    | _ :: _ :: _ => rw [h] at hb; simp at hb
  match hops' : w.ops, hcl : w.classes with
  | [op2, op1], [k1, k2] =>
    rw [hops'] at hq
    rw [hcl] at hc
    simp only [List.map_cons, List.map_nil, List.cons.injEq, Prod.mk.injEq, and_true] at hq hc
    obtain ⟨⟨b1, b2, b3, b4⟩, a1, a2, a3, a4⟩ := hq
    obtain ⟨s', t, e1, e2, e3⟩ := C101_violated (fun e he => he) simCall_demo (sreach_of h) hC ho (op := op2) (by show w.ops[0]? = _; rw [hops']; rfl) b2
      (.inl hact) hL (by decide) (by decide) (S := [⟨1, .measurement, [0], none, some [0]⟩])
      (.cons ⟨op1, k1, by show w.ops[1]? = _; rw [hops']; rfl, by show w.classes[op1.cls]? = _; rw [hcl, a1]; rfl, rfl, a2, a3.symm, a4.symm, .inl ⟨hc.1, rfl⟩⟩ .nil)
      (by intro p hp; simp only [List.mem_singleton] at hp; subst hp; exact .inl rfl) (by intro p hp; simp only [List.mem_singleton] at hp; subst hp; intro bs hbs; cases hbs) u hu
    have hbit : ∃ v, t.bits 0 = some v := by
      cases e2 with
      | cons hstep hrest =>
        cases hrest
        exact step_measured hstep rfl rfl rfl rfl
    obtain ⟨v, hv⟩ := hbit
    refine ⟨s', if v then 1 else 0, e1, ?_⟩
    rw [e3]
    show (withValues w t.bits).map BitObj.value = _
    unfold withValues
    rw [hx]
    simp [hv]
  | [], _ => rw [hops'] at hq; cases hq
  | [_], _ => rw [hops'] at hq; simp at hq
  | _ :: _ :: _ :: _, _ => rw [hops'] at hq; simp at hq
  | _, [] => rw [hcl] at hc; cases hc
  | _, [_] => rw [hcl] at hc; simp at hc
  | _, _ :: _ :: _ :: _ => rw [hcl] at hc; simp at hc

theorem brokenDemo_ops : opsOf brokenDemo.final 0 = [1, 0] ∧ brokenDemo.final.active = none := by decide +kernel

theorem brokenDemo_objects : (brokenDemo.final.ops.map fun op => (op.cls, op.qubits, op.cond, op.bits)) = [(1, none, none, none), (0, some [0], none, some [0])] := by decide +kernel

theorem brokenDemo_kinds : (brokenDemo.final.classes.map OpCls.kind) = [.measurement, .plain] := by decide +kernel

theorem brokenDemo_bits : brokenDemo.final.bits.map BitObj.value = [none] := by decide +kernel

theorem brokenDemo_circ : ∃ C, brokenDemo.final.circs[0]? = some C ∧ Shows C.q [(.str "qreg0", [0])] ∧ C.ops = [1] ++ 0 :: [] := by
  obtain ⟨C, hC, hL⟩ : ∃ C, brokenDemo.final.circs[0]? = some C ∧ Shows C.q [(.str "qreg0", [0])] := shows_circ Circ.q (by decide +kernel)
  have := brokenDemo_ops.1
  rw [opsOf, hC] at this
  exact ⟨C, hC, hL, this⟩

/-- `C101_violated` for the demo program: the bit had no value, the simulation raises an exception, and the bit has a value. -/
example (u : Nat → ℝ) (hu : ∀ k, 0 ≤ u k ∧ u k < 1) : (brokenDemo.run {}).1 = .ok () ∧ brokenDemo.final.bits.map BitObj.value = [none] ∧
    ∃ s' v, simulateSes u 0 false false { w := brokenDemo.final } = (.error .typeError, s') ∧ s'.w.bits.map BitObj.value = [some v] := by
  obtain ⟨C, hC, hL, ho⟩ := brokenDemo_circ
  exact ⟨by decide +kernel, brokenDemo_bits, broken_demo brokenDemo_reach hC hL ho brokenDemo_ops.2 brokenDemo_bits brokenDemo_objects brokenDemo_kinds u hu⟩

theorem stale_demo {w : World ℝ} (h : Reach DemoCall w) {C : Circ} (hC : w.circs[0]? = some C)
    (hL : Shows C.q [(.str "qreg0", [0, 1])]) (hact : w.active = none) (hlen : w.bits.length = 2) (hreads : List.Forall₂ (Reads w) C.ops runDemoOps)
    (u : Nat → ℝ) (hu : ∀ k, 0 ≤ u k ∧ u k < 1) : ∃ (s' s2 : Sess) (a : NDArr) (items : List Nat), simulateSes u 0 false false { w := w } = (.ok (), s') ∧
    (SProg.call (.addQubit 0 .none none)).run s' = (.ok (), s2) ∧ s2.slots 0 = ⟨some a, none⟩ ∧ seen (qubitsOf 0 s2.w).1 = .ok (items.map Lbl.obj) ∧
    items.length = 3 ∧ a.shape = [4] := by
  obtain ⟨a, recs, C2, t, f1, -, -, -, -⟩ := C101_simulate (fun e he => he) simCall_demo (sreach_of h) hC (.inl hact) hL (by decide) (by decide)
    hreads runDemo_good (by show ∀ p ∈ runDemoOps, ∀ bs, p.cond = some bs → ∀ b ∈ bs, b < w.bits.length; rw [hlen]; simp [runDemoOps]) u hu
  obtain ⟨a, s2, items, g1, g2, g3, g4, g5⟩ := C101_stale_violated (fun e he => he.1) simCall_demo (sreach_of h) hC hL (by decide) f1
  exact ⟨_, s2, a, items, f1, g1, g2, g3, g4, g5⟩

/-- `C101_stale_violated` for `runDemo`: the state has 4 numbers, the circuit has 3 qubits. -/
example (u : Nat → ℝ) (hu : ∀ k, 0 ≤ u k ∧ u k < 1) : ∃ (s' s2 : Sess) (a : NDArr) (items : List Nat), simulateSes u 0 false false { w := runDemo.final } = (.ok (), s') ∧
    (SProg.call (.addQubit 0 .none none)).run s' = (.ok (), s2) ∧ s2.slots 0 = ⟨some a, none⟩ ∧ seen (qubitsOf 0 s2.w).1 = .ok (items.map Lbl.obj) ∧
    items.length = 3 ∧ a.shape = [4] := by
  obtain ⟨C, hC, hL, hS⟩ := runDemo_circ
  exact stale_demo runDemo_reach hC hL runDemo_ops.2 runDemo_len hS u hu

end DG.Props
