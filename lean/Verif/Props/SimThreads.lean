import Verif.Proofs.SimThreads
import Verif.Props.Simulator
import Verif.Proofs.Replace

/-! Simulations in several threads: C110; interrupted simulations: C111. -/

noncomputable section

namespace DG.Props
open Complex DG.Sim DG.Spec

/-- All threads are about to call `simulate`. -/
def starting (sh : Shared) : Sims := ⟨fun _ => .start, sh⟩

/-- **C110.** However simulations in different threads are interleaved: one that has returned or raised has done what it does on its own, as far as the
circuit, its bits and its measurements are concerned. -/
theorem C110_independent (jobs : Nat → Job) (hsep : Separate jobs) (sh : Shared) (schedule : List Nat) (i : Nat)
    (h : Ended ((Sims.run jobs schedule (starting sh)).phase i)) :
    (∀ w, simulate (jobs i).u (jobs i).circuit (jobs i).littleEndian sh.bits sh.records = .ok (some w) →
      (Sims.run jobs schedule (starting sh)).phase i = .finished ∧ HasResult (jobs i) (Sims.run jobs schedule (starting sh)).sh w) ∧
    (simulate (jobs i).u (jobs i).circuit (jobs i).littleEndian sh.bits sh.records = .ok none →
      (Sims.run jobs schedule (starting sh)).phase i = .finished ∧ (Sims.run jobs schedule (starting sh)).sh.states (jobs i).cid = sh.states (jobs i).cid) ∧
    ∀ e, simulate (jobs i).u (jobs i).circuit (jobs i).littleEndian sh.bits sh.records = .error e →
      (Sims.run jobs schedule (starting sh)).phase i = .raised e ∧ (Sims.run jobs schedule (starting sh)).sh.states (jobs i).cid = sh.states (jobs i).cid := by
  obtain ⟨h1, h2⟩ := run_agree jobs hsep i schedule (starting sh) sh (fun _ => trivial) ⟨rfl, fun _ _ => rfl, fun _ _ => rfl⟩
  change _ = ((jobs i).alone (schedule.count i) (.start, sh)).1 at h1
  change Agree _ _ ((jobs i).alone (schedule.count i) (.start, sh)).2 at h2
  obtain ⟨k, hk⟩ := alone_simulate (jobs i) sh
  -- the simulation on its own has come to the same end
  have key : ∀ p s, (jobs i).alone k (.start, sh) = (p, s) → Ended p → (jobs i).alone (schedule.count i) (.start, sh) = (p, s) := by
    intro p s hps hp
    rw [h1] at h
    have e1 : (jobs i).alone (k + schedule.count i) (.start, sh) = (p, s) := by
      rw [Job.alone_add, hps]
      exact (jobs i).alone_ended _ (s := (p, s)) hp
    rw [Nat.add_comm, Job.alone_add, (jobs i).alone_ended _ h] at e1
    exact e1
  refine ⟨fun w hw => ?_, fun hw => ?_, fun e hw => ?_⟩
  · rw [hw] at hk
    rw [key _ _ hk trivial] at h1 h2
    exact ⟨h1, h2.1.trans (Function.update_self ..), h2.2.1, h2.2.2⟩
  · rw [hw] at hk
    rw [key _ _ hk trivial] at h1 h2
    exact ⟨h1, h2.1⟩
  · rw [hw] at hk
    obtain ⟨v, hv⟩ := hk
    rw [key _ _ hv trivial] at h1 h2
    exact ⟨h1, h2.1⟩

/-- **C110.** Every simulation comes to an end after a number of its own steps that the other threads have no influence on. -/
theorem C110_ends (jobs : Nat → Job) (hsep : Separate jobs) (sh : Shared) (i : Nat) :
    ∃ K, ∀ schedule : List Nat, K ≤ schedule.count i → Ended ((Sims.run jobs schedule (starting sh)).phase i) := by
  obtain ⟨k, hk⟩ := alone_simulate (jobs i) sh
  have he : Ended ((jobs i).alone k (.start, sh)).1 := by
    split at hk
    · rw [hk]; trivial
    · rw [hk]; trivial
    · obtain ⟨v, hv⟩ := hk; rw [hv]; trivial
  refine ⟨k, fun schedule hs => ?_⟩
  have h1 := (run_agree jobs hsep i schedule (starting sh) sh (fun _ => trivial) ⟨rfl, fun _ _ => rfl, fun _ _ => rfl⟩).1
  change _ = ((jobs i).alone (schedule.count i) (.start, sh)).1 at h1
  rw [h1, show schedule.count i = k + (schedule.count i - k) by omega, Job.alone_add, (jobs i).alone_ended _ he]
  exact he

/-- **C110.** Simulations change only the states of their circuits and the bits and records of their measurements, also while they are running and also if
they have something in common. -/
theorem C110_frame (jobs : Nat → Job) (sh : Shared) (schedule : List Nat) :
    (∀ c, (∀ i ∈ schedule, (jobs i).cid ≠ c) → (Sims.run jobs schedule (starting sh)).sh.states c = sh.states c) ∧
    (∀ b, (∀ i ∈ schedule, ¬ Sets (jobs i).circuit b) → (Sims.run jobs schedule (starting sh)).sh.bits b = sh.bits b) ∧
    ∀ o, (∀ i ∈ schedule, ¬ OwnsMeasurement (jobs i).circuit o) → (Sims.run jobs schedule (starting sh)).sh.records o = sh.records o := by
  have gen : ∀ (schedule : List Nat) (s : Sims), (∀ k, Within (jobs k).circuit (s.phase k)) →
      (∀ c, (∀ i ∈ schedule, (jobs i).cid ≠ c) → (Sims.run jobs schedule s).sh.states c = s.sh.states c) ∧
      (∀ b, (∀ i ∈ schedule, ¬ Sets (jobs i).circuit b) → (Sims.run jobs schedule s).sh.bits b = s.sh.bits b) ∧
      ∀ o, (∀ i ∈ schedule, ¬ OwnsMeasurement (jobs i).circuit o) → (Sims.run jobs schedule s).sh.records o = s.sh.records o := by
    intro schedule
    induction schedule with
    | nil => intro s _; exact ⟨fun _ _ => rfl, fun _ _ => rfl, fun _ _ => rfl⟩
    | cons k l ih =>
      intro s hw
      have hw' : ∀ l, Within (jobs l).circuit ((s.step jobs k).phase l) := by
        intro l
        show Within _ (Function.update s.phase k _ l)
        by_cases e : l = k
        · subst e
          rw [Function.update_self]
          exact step_within (jobs l) (s := (s.phase l, s.sh)) (hw l)
        · rw [Function.update_of_ne e]
          exact hw l
      have hf := step_frame (jobs k) (a := s.sh) (hw k)
      obtain ⟨i1, i2, i3⟩ := ih (s.step jobs k) hw'
      exact ⟨fun c hc => (i1 c fun i hi => hc i (List.mem_cons_of_mem _ hi)).trans (hf.1 c (hc k List.mem_cons_self).symm),
        fun b hb => (i2 b fun i hi => hb i (List.mem_cons_of_mem _ hi)).trans (hf.2.1 b (hb k List.mem_cons_self)),
        fun o ho => (i3 o fun i hi => ho i (List.mem_cons_of_mem _ hi)).trans (hf.2.2 o (ho k List.mem_cons_self))⟩
  exact gen schedule (starting sh) fun _ => trivial

/-! ## Interrupts -/

/-- **C111.** A simulation that is interrupted, wherever that is, or raises, has not changed the state of any circuit, and has changed no bits and
records but those of the measurements of the circuit. -/
theorem C111_state (j : Job) (sh : Shared) (k : Nat) (h : (j.alone k (.start, sh)).1 ≠ .finished) :
    (j.alone k (.start, sh)).2.states = sh.states ∧ (∀ b, ¬ Sets j.circuit b → (j.alone k (.start, sh)).2.bits b = sh.bits b) ∧
      ∀ o, ¬ OwnsMeasurement j.circuit o → (j.alone k (.start, sh)).2.records o = sh.records o := by
  have gen : ∀ k, Within j.circuit (j.alone k (.start, sh)).1 ∧ ((j.alone k (.start, sh)).1 ≠ .finished →
      (j.alone k (.start, sh)).2.states = sh.states ∧ (∀ b, ¬ Sets j.circuit b → (j.alone k (.start, sh)).2.bits b = sh.bits b) ∧
      ∀ o, ¬ OwnsMeasurement j.circuit o → (j.alone k (.start, sh)).2.records o = sh.records o) := by
    intro k
    induction k with
    | zero => exact ⟨trivial, fun _ => ⟨rfl, fun _ _ => rfl, fun _ _ => rfl⟩⟩
    | succ k ih =>
      rw [Job.alone_succ]
      generalize j.alone k (.start, sh) = s at ih ⊢
      obtain ⟨p, sh1⟩ := s
      refine ⟨step_within j (s := (p, sh1)) ih.1, fun hne => ?_⟩
      have hp : p ≠ .finished := by
        rintro rfl
        exact hne rfl
      obtain ⟨i1, i2, i3⟩ := ih.2 hp
      have hf := step_frame j (a := sh1) (p := p) ih.1
      refine ⟨?_, fun b hb => (hf.2.1 b hb).trans (i2 b hb), fun o ho => (hf.2.2 o ho).trans (i3 o ho)⟩
      rw [← i1]
      cases p with
      | next mem d rest =>
        cases rest with
        | nil =>
          simp only [Job.step, stepEnd] at hne ⊢
          cases ha : assertState j.circuit.qubits.length mem with
          | error e => rfl
          | ok _ => rw [ha] at hne; exact absurd rfl hne
        | cons op rest => rfl
      | apply mem d op ts rest =>
        simp only [Job.step, stepApply]
        split
        · split <;> rfl
        · rfl
      | sample mem d op idx ts rest => cases ts <;> rfl
      | _ => rfl
  exact (gen k).2 h

/-- **C111.** A simulation that is repeated after it was interrupted does the same as if it had not been started before, if conditions only depend on bits that
the simulation sets before: same exception, or same state, and the same value of every bit that the simulation sets. What is missing: other conditions, see below. -/
theorem C111_again_partial (j : Job) (hr : ReadsWritten ∅ j.circuit.ops) (sh : Shared) (k : Nat) (u : Nat → ℝ) :
    (∃ e, simulate u j.circuit j.littleEndian sh.bits sh.records = .error e ∧
      simulate u j.circuit j.littleEndian (j.alone k (.start, sh)).2.bits (j.alone k (.start, sh)).2.records = .error e) ∨
    (simulate u j.circuit j.littleEndian sh.bits sh.records = .ok none ∧
      simulate u j.circuit j.littleEndian (j.alone k (.start, sh)).2.bits (j.alone k (.start, sh)).2.records = .ok none) ∨
    ∃ w w', simulate u j.circuit j.littleEndian sh.bits sh.records = .ok (some w) ∧
      simulate u j.circuit j.littleEndian (j.alone k (.start, sh)).2.bits (j.alone k (.start, sh)).2.records = .ok (some w') ∧ w.mem = w'.mem ∧
      ∀ b, w.bits b = w'.bits b ∨ (w.bits b = sh.bits b ∧ w'.bits b = (j.alone k (.start, sh)).2.bits b) := by
  generalize (j.alone k (.start, sh)).2 = sh'
  unfold simulate
  by_cases hn : j.circuit.qubits.length = 0
  · rw [if_pos hn, if_pos hn]
    exact .inr (.inl ⟨rfl, rfl⟩)
  · rw [if_neg hn, if_neg hn]
    have hs := same_loop u j.circuit j.littleEndian j.circuit.ops ∅ hr
      { mem := initialState j.circuit.qubits.length, bits := sh.bits, drawn := 0, records := sh.records }
      { mem := initialState j.circuit.qubits.length, bits := sh'.bits, drawn := 0, records := sh'.records } rfl rfl (by simp)
    unfold loop
    rcases hs with ⟨e, e1, e2⟩ | ⟨v, v', ov, e1, e2, e3, e4, e5, e6, _⟩
    · rw [e1, e2]
      exact .inl ⟨e, rfl, rfl⟩
    · rw [e1, e2, ok_bind, ok_bind, ← e3]
      cases assertState j.circuit.qubits.length v.mem with
      | error e => exact .inl ⟨e, rfl, rfl⟩
      | ok _ =>
        refine .inr (.inr ⟨v, v', rfl, rfl, e3, fun b => ?_⟩)
        rw [e5, e6]
        simp only [overlay]
        cases ov b with
        | none => exact .inr ⟨rfl, rfl⟩
        | some m => exact .inl rfl

/-- **C111 is violated:** every simulation can be interrupted when all its bits are set, but the state of the circuit is still the old one. -/
theorem C111_torn_violated (j : Job) (sh : Shared) (w : World) (h : simulate j.u j.circuit j.littleEndian sh.bits sh.records = .ok (some w)) :
    ∃ k, ¬ Ended (j.alone k (.start, sh)).1 ∧ (j.alone k (.start, sh)).2.states = sh.states ∧ (j.alone k (.start, sh)).2.bits = w.bits ∧
      (j.alone k (.start, sh)).2.records = w.records := by
  unfold simulate at h
  split at h
  · cases h
  · rename_i hn
    have h1 : j.alone 1 (.start, sh) = (.next (initialState j.circuit.qubits.length) 0 j.circuit.ops, sh) := by
      rw [Job.alone_one]
      simp only [Job.step, if_neg hn]
    obtain ⟨k, hk⟩ := alone_loop j [] j.circuit.ops { mem := initialState j.circuit.qubits.length, bits := sh.bits, drawn := 0, records := sh.records } sh
    rw [List.append_nil] at hk
    unfold loop at h
    cases hl : j.circuit.ops.foldlM (fun w op => do
        let targets ← targetsOf j.circuit op
        applyInstruction j.u j.circuit.qubits.length op targets j.littleEndian false w)
        { mem := initialState j.circuit.qubits.length, bits := sh.bits, drawn := 0, records := sh.records } with
    | error e => rw [hl, err_bind] at h; cases h
    | ok v =>
      rw [hl, ok_bind] at h
      rw [hl] at hk
      cases ha : assertState j.circuit.qubits.length v.mem with
      | error e => rw [ha, err_bind] at h; cases h
      | ok a =>
        rw [ha, ok_bind] at h
        have : v = w := by cases h; rfl
        subst this
        have h2 : j.alone (1 + k) (.start, sh) = (.next v.mem v.drawn [], sh.with v) := by
          rw [Job.alone_add, h1]
          exact hk
        refine ⟨1 + k, ?_⟩
        rw [h2]
        exact ⟨fun h => h, rfl, rfl, rfl⟩

/-- **C111 is violated:** with a condition on a bit that was not set before, a simulation that is repeated after an interrupt gives another result than if it had not
been started before. -/
theorem C111_again_violated (u : Nat → ℝ) (hu : Uniform u) (sh : Shared) (hsh : sh.bits = fun _ => none) :
    ∃ k w1 w2, ¬ Ended ((⟨0, flipper, u, false⟩ : Job).alone k (.start, sh)).1 ∧
      simulate u flipper false sh.bits sh.records = .ok (some w1) ∧
      simulate u flipper false ((⟨0, flipper, u, false⟩ : Job).alone k (.start, sh)).2.bits ((⟨0, flipper, u, false⟩ : Job).alone k (.start, sh)).2.records =
        .ok (some w2) ∧ w1.mem ≠ w2.mem := by
  obtain ⟨w1, w2, h1, h2, h3, _⟩ := C49_stale_bit_violated u hu sh.records
  rw [← hsh] at h1
  obtain ⟨k, k1, _, k3, k4⟩ := C111_torn_violated ⟨0, flipper, u, false⟩ sh w1 h1
  refine ⟨k, w1, w2, k1, h1, ?_, h3⟩
  rw [k3, k4]
  exact h2

/-! ## Threads that simulate the same circuit -/

/-- The beginning of the circuit: measure -> bit 0; X; measure -> bit 0. -/
def flipMeasure : List SOp :=
  [{ oid := 0, kind := .measurement, qubits := [0], bits := some [0] }, { oid := 1, kind := .single .x, qubits := [0] },
    { oid := 2, kind := .measurement, qubits := [0], bits := some [0] }]

/-- X, if bit 0 is 1. -/
def flipBack : SOp := { oid := 3, kind := .single .x, qubits := [0], cond := some [0] }

/-- A circuit that ends in state 0 whatever the random numbers are. -/
def flipTwice : SCircuit := ⟨[0], flipMeasure ++ [flipBack]⟩

theorem simulate_loop {u : Nat → ℝ} {c : SCircuit} {le : Bool} {bits : Nat → Option Bool} {records : Nat → Record} {w : World}
    (h : simulate u c le bits records = .ok (some w)) :
    loop u c le { mem := initialState c.qubits.length, bits := bits, drawn := 0, records := records } = .ok w ∧
      assertState c.qubits.length w.mem = .ok () := by
  unfold simulate at h
  split at h
  · cases h
  · cases hl : loop u c le { mem := initialState c.qubits.length, bits := bits, drawn := 0, records := records } with
    | error e => rw [hl, err_bind] at h; cases h
    | ok v =>
      rw [hl, ok_bind] at h
      cases ha : assertState c.qubits.length v.mem with
      | error e => rw [ha, err_bind] at h; cases h
      | ok a =>
        rw [ha, ok_bind] at h
        cases h
        exact ⟨rfl, ha⟩

theorem run_append (jobs : Nat → Job) : ∀ (a b : List Nat) (s : Sims), Sims.run jobs (a ++ b) s = Sims.run jobs b (Sims.run jobs a s)
  | [], _, _ => rfl
  | i :: a, b, s => run_append jobs a b (s.step jobs i)

theorem run_replicate (jobs : Nat → Job) (i : Nat) : ∀ (k : Nat) (s : Sims), Sims.run jobs (List.replicate k i) s =
    ⟨Function.update s.phase i ((jobs i).alone k (s.phase i, s.sh)).1, ((jobs i).alone k (s.phase i, s.sh)).2⟩ := by
  intro k
  induction k with
  | zero => intro s; simp [Sims.run, Job.alone]
  | succ k ih =>
    intro s
    rw [List.replicate_succ]
    show Sims.run jobs _ (s.step jobs i) = _
    rw [ih]
    simp only [Sims.step, Function.update_self, Function.update_idem, Job.alone]

/-- **C110 is violated** by threads that simulate the same circuit: whatever the random numbers are, thread 0 can end with a state that `simulate` never gives for the
circuit, because thread 1 sets the bit between the measurement and the test of the condition. -/
theorem C110_same_violated (u : Nat → Nat → ℝ) (hu : ∀ i, Uniform (u i)) (sh : Shared) : ∃ schedule mem,
    (Sims.run (fun i => ⟨0, flipTwice, u i, false⟩) schedule (starting sh)).phase 0 = .finished ∧
    (Sims.run (fun i => ⟨0, flipTwice, u i, false⟩) schedule (starting sh)).sh.states 0 = some mem ∧
    ∀ u' bits records, Uniform u' → ∃ w, simulate u' flipTwice false bits records = .ok (some w) ∧ w.mem ≠ mem := by
  let q : Fin 1 := ⟨0, by decide⟩
  obtain ⟨a, ha, _⟩ := cols_x
  have hg : GateAct (.single .x) [q] (applyGate q (gateOf a)) := .single q ha
  have hx : ∀ b : Bool, applyGate q (gateOf a) (basisState fun _ => b) = basisState fun _ => !b := by
    intro b
    rw [applyGate_x_basisState ha]
    congr 1
    funext i
    have : i = q := Subsingleton.elim (α := Fin 1) i q
    subst this; simp
  have hm : ∀ (os : List SOp) (u : Nat → ℝ), Uniform u → ∀ (o d : Nat) (bits : Nat → Option Bool) (b : Bool),
      Step ⟨[0], os⟩ u { oid := o, kind := .measurement, qubits := [0], bits := some [0] } ⟨basisState fun _ => b, bits, d⟩
        ⟨basisState fun _ => b, Function.update bits 0 (some b), d + 1⟩ := by
    intro os u hu o d bits b
    have s2 : Step ⟨[0], os⟩ u { oid := o, kind := .measurement, qubits := [0], bits := some [0] } ⟨basisState fun _ => b, bits, d⟩ _ :=
      .measure (c := ⟨[0], os⟩) (s := ⟨basisState fun _ => b, bits, d⟩) (ts := [q]) (by rintro ⟨_, _, h, _⟩; cases h) rfl rfl
    dsimp only at s2
    rw [measureAll_basisState u hu] at s2
    exact s2
  have hs : ∀ (os : List SOp) (u : Nat → ℝ) (op : SOp) (d : Nat) (bits : Nat → Option Bool) (b : Bool), op.kind = .single .x → op.qubits = [0] → ¬ Blocked op bits →
      Step ⟨[0], os⟩ u op ⟨basisState fun _ => b, bits, d⟩ ⟨basisState fun _ => !b, bits, d⟩ := by
    intro os u op d bits b hk hq hb
    have := Step.gate (c := ⟨[0], os⟩) (u := u) (s := ⟨basisState fun _ => b, bits, d⟩) (ts := [q]) hb hq (by rw [hk]; exact hg)
    have this : Step ⟨[0], os⟩ u op ⟨basisState fun _ => b, bits, d⟩ (⟨applyGate q (gateOf a) (basisState fun _ => b), bits, d⟩ : SimState 1) := this
    rw [hx] at this
    exact this
  have ex : ∀ (os : List SOp) (u : Nat → ℝ), Uniform u → ∀ bits : Nat → Option Bool, ∃ v : Nat → Option Bool, v 0 = some true ∧
      Exec ⟨[0], os⟩ u flipMeasure ⟨zeroState _, bits, 0⟩ ⟨basisState fun _ => true, v, 2⟩ := by
    intro os u hu bits
    rw [zeroState_eq]
    refine ⟨_, ?_, .cons (hm os u hu 0 0 bits false) (.cons (hs os u { oid := 1, kind := .single .x, qubits := [0] } 1 _ false rfl rfl
      (by rintro ⟨_, _, h, _⟩; cases h)) (.cons (hm os u hu 2 1 _ true) .nil))⟩
    simp
  have hops : ∀ op ∈ flipTwice.ops, ∀ os, GateOp ⟨[0], os⟩ op ∨ MeasureOp ⟨[0], os⟩ op := by
    intro op h os
    simp only [flipTwice, flipMeasure, flipBack, List.cons_append, List.nil_append, List.mem_cons, List.not_mem_nil, or_false] at h
    rcases h with rfl | rfl | rfl | rfl
    · exact .inr ⟨rfl, fun _ h => h⟩
    · exact .inl ⟨trivial, rfl, by decide, fun _ h => h⟩
    · exact .inr ⟨rfl, fun _ h => h⟩
    · exact .inl ⟨trivial, rfl, by decide, fun _ h => h⟩
  have hnd : ([0] : List Nat).Nodup := by decide
  -- thread 0 up to the last operation
  obtain ⟨w1, s1, a1, a2, a3, a4, a5⟩ := C76_refines ⟨[0], flipMeasure⟩ ⟨hnd, by decide, by decide⟩ (u 0) sh.bits sh.records
    (fun op ho => hops op (List.mem_append_left _ ho) _) (hu 0)
  obtain ⟨v1, hv1, ex1⟩ := ex flipMeasure (u 0) (hu 0) sh.bits
  have d1 := exec_det hnd a2 ex1
  subst d1
  -- thread 1 after its first measurement
  obtain ⟨w2, s2, b1, b2, b3, b4, b5⟩ := C76_refines ⟨[0], [{ oid := 0, kind := .measurement, qubits := [0], bits := some [0] }]⟩ ⟨hnd, by decide, by decide⟩ (u 1) w1.bits w1.records
    (fun op ho => hops op (by simp only [List.mem_singleton] at ho; subst ho; exact List.mem_cons_self) _) (hu 1)
  have d2 := exec_det hnd b2 (by rw [zeroState_eq]; exact .cons (hm _ (u 1) (hu 1) 0 0 w1.bits false) .nil)
  subst d2
  obtain ⟨l1, as1⟩ := simulate_loop a1
  obtain ⟨l2, _⟩ := simulate_loop b1
  let J : Nat → Job := fun i => ⟨0, flipTwice, u i, false⟩
  obtain ⟨k1, hk1⟩ := alone_loop (J 0) [flipBack] flipMeasure { mem := initialState 1, bits := sh.bits, drawn := 0, records := sh.records } sh
  have l1' : flipMeasure.foldlM (fun w op => do
        let targets ← targetsOf (J 0).circuit op
        applyInstruction (J 0).u (J 0).circuit.qubits.length op targets (J 0).littleEndian false w)
        { mem := initialState 1, bits := sh.bits, drawn := 0, records := sh.records } = .ok w1 := l1
  rw [l1'] at hk1
  obtain ⟨k2, hk2⟩ := alone_loop (J 1) [{ oid := 1, kind := .single .x, qubits := [0] }, { oid := 2, kind := .measurement, qubits := [0], bits := some [0] }, flipBack]
    [{ oid := 0, kind := .measurement, qubits := [0], bits := some [0] }] { mem := initialState 1, bits := w1.bits, drawn := 0, records := w1.records } (sh.with w1)
  have l2' : ([{ oid := 0, kind := .measurement, qubits := [0], bits := some [0] }] : List SOp).foldlM (fun w op => do
        let targets ← targetsOf (J 1).circuit op
        applyInstruction (J 1).u (J 1).circuit.qubits.length op targets (J 1).littleEndian false w)
        { mem := initialState 1, bits := w1.bits, drawn := 0, records := w1.records } = .ok w2 := l2
  rw [l2'] at hk2
  have hk1 : (J 0).alone k1 (.next (initialState 1) 0 flipTwice.ops, sh) = (.next w1.mem w1.drawn [flipBack], sh.with w1) := hk1
  have hk2 : (J 1).alone k2 (.next (initialState 1) 0 flipTwice.ops, sh.with w1) = (.next w2.mem w2.drawn
    [{ oid := 1, kind := .single .x, qubits := [0] }, { oid := 2, kind := .measurement, qubits := [0], bits := some [0] }, flipBack], (sh.with w1).with w2) := hk2
  have st0 : ∀ i (s : Shared), (J i).step (.start, s) = (.next (initialState 1) 0 flipTwice.ops, s) := fun i s => rfl
  have r1 : (J 0).alone (k1 + 1) (.start, sh) = (.next w1.mem w1.drawn [flipBack], sh.with w1) := by
    show (J 0).alone k1 ((J 0).step _) = _
    rw [st0, hk1]
  have r2 : (J 1).alone (k2 + 1) (.start, sh.with w1) = (.next w2.mem w2.drawn
    [{ oid := 1, kind := .single .x, qubits := [0] }, { oid := 2, kind := .measurement, qubits := [0], bits := some [0] }, flipBack], (sh.with w1).with w2) := by
    show (J 1).alone k2 ((J 1).step _) = _
    rw [st0, hk2]
  have r3 : (J 0).alone 2 (.next w1.mem w1.drawn [flipBack], (sh.with w1).with w2) =
      (.finished, { (sh.with w1).with w2 with states := Function.update sh.states 0 (some w1.mem) }) := by
    have hb : isBlocked flipBack ((sh.with w1).with w2).bits = true := by
      show (!([0].all fun b => bitTrue (w2.bits b))) = true
      rw [b4]
      simp [bitTrue]
    have ht : targetsOf (J 0).circuit flipBack = .ok [0] := rfl
    have as1' : assertState (J 0).circuit.qubits.length w1.mem = .ok () := as1
    simp only [Job.alone, Job.step, stepNext, ht, hb, if_true, stepEnd, as1']
    rfl
  have hrun : (Sims.run J (List.replicate (k1 + 1) 0 ++ (List.replicate (k2 + 1) 1 ++ List.replicate 2 0)) (starting sh)).phase 0 = .finished ∧
      (Sims.run J (List.replicate (k1 + 1) 0 ++ (List.replicate (k2 + 1) 1 ++ List.replicate 2 0)) (starting sh)).sh.states 0 = some w1.mem := by
    rw [run_append, run_append, run_replicate, run_replicate, run_replicate]
    dsimp only [starting]
    rw [r1]
    dsimp only
    rw [Function.update_of_ne (show (1 : Nat) ≠ 0 by decide), r2]
    dsimp only
    rw [Function.update_of_ne (show (0 : Nat) ≠ 1 by decide), Function.update_self, Function.update_self, r3]
    exact ⟨rfl, by simp⟩
  refine ⟨List.replicate (k1 + 1) 0 ++ (List.replicate (k2 + 1) 1 ++ List.replicate 2 0), w1.mem, hrun.1, hrun.2, fun u' bits records hu' => ?_⟩
  · obtain ⟨w, s, c1, c2, c3, c4, c5⟩ := C76_refines flipTwice ⟨hnd, by decide, by decide⟩ u' bits records (fun op ho => hops op ho _) hu'
    obtain ⟨v, hv, ex2⟩ := ex (flipMeasure ++ [flipBack]) u' hu' bits
    have ex3 := exec_append ex2 (.cons (hs (flipMeasure ++ [flipBack]) u' flipBack 2 v true rfl rfl (by
      rintro ⟨bs, b, h1, h2, h3⟩
      cases h1
      simp only [List.mem_singleton] at h2
      subst h2
      rw [hv] at h3
      cases h3)) .nil)
    have d3 := exec_det hnd c2 ex3
    subst d3
    refine ⟨w, c1, fun he => ?_⟩
    rw [he] at c3
    have := congrFun (DG.Kernel.Stores.eq c3 a3) (fun _ => false)
    have hne : (fun _ : Fin 1 => false) ≠ fun _ => true := fun h => by
      have := congrFun h q
      simp at this
    change (if (fun _ : Fin 1 => false) = (fun _ => false) then (1 : ℂ) else 0) = if (fun _ : Fin 1 => false) = (fun _ => true) then 1 else 0 at this
    rw [if_pos rfl, if_neg hne] at this
    exact one_ne_zero this

/-- Different circuits of different programs meet the hypothesis: thread `i` simulates a circuit of its own, whose measurements set the bit `i` and test it. -/
theorem C110_separate_demo (u : Nat → ℝ) : Separate fun i => ⟨i, ⟨[0], [{ oid := 2 * i, kind := .measurement, qubits := [0], bits := some [i] },
    { oid := 2 * i + 1, kind := .single .x, qubits := [0], cond := some [i] }]⟩, u, false⟩ := by
  have hS : ∀ i b, Sets ⟨[0], [{ oid := 2 * i, kind := .measurement, qubits := [0], bits := some [i] },
      { oid := 2 * i + 1, kind := .single .x, qubits := [0], cond := some [i] }]⟩ b → b = i := by
    rintro i b ⟨op, ho, hk, bs, hb, hm⟩
    simp only [List.mem_cons, List.not_mem_nil, or_false] at ho
    rcases ho with rfl | rfl
    · cases hb; exact List.mem_singleton.1 hm
    · cases hb
  have hT : ∀ i b, Tests ⟨[0], [{ oid := 2 * i, kind := .measurement, qubits := [0], bits := some [i] },
      { oid := 2 * i + 1, kind := .single .x, qubits := [0], cond := some [i] }]⟩ b → b = i := by
    rintro i b ⟨op, ho, bs, hb, hm⟩
    simp only [List.mem_cons, List.not_mem_nil, or_false] at ho
    rcases ho with rfl | rfl
    · cases hb
    · cases hb; exact List.mem_singleton.1 hm
  have hM : ∀ i o, OwnsMeasurement ⟨[0], [{ oid := 2 * i, kind := .measurement, qubits := [0], bits := some [i] },
      { oid := 2 * i + 1, kind := .single .x, qubits := [0], cond := some [i] }]⟩ o → o = 2 * i := by
    rintro i o ⟨op, ho, hk, rfl⟩
    simp only [List.mem_cons, List.not_mem_nil, or_false] at ho
    rcases ho with rfl | rfl
    · rfl
    · cases hk
  intro i k hik
  refine ⟨hik, fun o h1 h2 => hik ?_, fun b h1 => ⟨fun h2 => hik ?_, fun h2 => hik ?_⟩⟩
  · have := (hM i o h1).symm.trans (hM k o h2)
    omega
  · exact (hS i b h1).symm.trans (hS k b h2)
  · exact (hS i b h1).symm.trans (hT k b h2)

end DG.Props
