import Verif.Proofs.QirSim
import Verif.Proofs.QirEffect
import Verif.Props.Run
import Verif.Props.Qir
import Verif.Props.OpShape

/-!
# Properties C85 and C86: QIR programs mean what the circuits mean

See `Spec/QirMeaning.lean` for the meaning of QIR programs.
-/

noncomputable section

namespace DG.Props
open Spec Sim

theorem gateNamed_kind {name : String} {kk : OpKind} {xs : List ℝ} {sk : Kind} (h : GateNamed name kk xs sk) :
    name ≠ "Measurement" ∧ sk ≠ .measurement ∧ (xs = [] ∨ kk.isParametric = true) := by
  cases h <;> simp [OpKind.isParametric]

/-- The call for a gate of the base profile. -/
theorem callsFor_base {w : World ℝ} {L LC : Layout} {o : Nat} {c : String × List (QirArg ℝ)} (hb : BaseCall w (InCircuit L) o (.call c.1 c.2))
    {s : SOp} (hr : Reads w o s) (hname : ∀ op k, w.ops[o]? = some op → w.classes[op.cls]? = some k → k.kind = .measurement → k.name = "Measurement") :
    CallsFor L.items LC.items s.always [c] ∧ s.kind ≠ .measurement := by
  obtain ⟨op, k, callee, np, nq, xs, qs, args, h1, h2, h3, ⟨h4, h5, is, h6, h7⟩, -, -, h8⟩ := hb
  obtain ⟨op', k', r1, r2, -, r4, -, -, r7⟩ := hr
  cases h1.symm.trans r1
  cases h2.symm.trans r2
  cases h5.symm.trans r4
  obtain ⟨c1, c2⟩ := c
  cases h8
  subst h7
  have hb : ∀ g ∈ baseGates, g.1 ≠ "Measurement" := by decide +kernel
  rcases r7 with r7 | ⟨ys, r7, r8, -⟩
  · exact absurd (hname op k h1 h2 r7.1) (hb _ h3)
  · obtain ⟨-, g2, g3⟩ := gateNamed_kind r8
    have hxs : xs = ys := by
      unfold opParams at h4
      have hi : ∀ {a b : List ℝ}, a.map OpParam.num = b.map OpParam.num → a = b := fun e => List.map_injective_iff.2 (fun _ _ e => by cases e; rfl) e
      split at h4
      · exact (hi (r7.symm.trans h4)).symm
      · next hp =>
        rcases g3 with rfl | g3
        · exact hi h4.symm
        · exact absurd g3 hp
    subst hxs
    exact ⟨.gate rfl g2 h6 fun ts f hf => qisGate_act h3 r8 hf, g2⟩

/-- The calls for a measurement. -/
theorem callsFor_measures {w : World ℝ} {L LC : Layout} {o : Nat} {pairs : List (Nat × Nat)} (hb : Measures w (InCircuit L) (InCircuit LC) o pairs)
    {s : SOp} (hr : Reads w o s) (hc : s.cond = none) (hl : ∀ bs, s.bits = some bs → s.qubits.length ≤ bs.length) :
    CallsFor L.items LC.items s (pairs.map Qir.mzCall) := by
  obtain ⟨op, k, qs, bs, h1, h2, h3, h4, h5, h6⟩ := hb
  obtain ⟨op', k', r1, r2, -, r4, -, r6, r7⟩ := hr
  cases h1.symm.trans r1
  cases h2.symm.trans r2
  cases h4.symm.trans r4
  rw [h5] at r6
  rcases r7 with r7 | ⟨ys, -, r8, -⟩
  · exact .measure hc r7.2 r6 (hl _ r6) h6
  · exact absurd h3 (gateNamed_kind r8).1

theorem bodyCalls_false {uniq : List String → String → String} {w : World ℝ} {place : Nat → Nat → Prop} {fs : List String} {os : List Nat}
    {calls : List (LInstr ℝ)} (h : BodyCalls uniq false w place fs os calls) :
    ∃ cs : List (String × List (QirArg ℝ)), calls = cs.map (fun c => .call c.1 c.2) ∧
      List.Forall₂ (fun o c => BaseCall w place o (.call c.1 c.2)) os cs := by
  induction h with
  | nil => exact ⟨[], rfl, .nil⟩
  | base a _ ih =>
    obtain ⟨cs, e, f⟩ := ih
    obtain ⟨op, k, callee, np, nq, xs, qs, args, a1, a2, a3, a4, a5, a6, rfl⟩ := a
    exact ⟨(callee, args) :: cs, by rw [e]; rfl, .cons ⟨op, k, callee, np, nq, xs, qs, args, a1, a2, a3, a4, a5, a6, rfl⟩ f⟩
  | external h => cases h

theorem bitValue_withValues (w : World ℝ) (vals : Nat → Option Bool) {w' : World ℝ} (hw : w'.bits = withValues w vals) {b : Nat} (hb : b < w.bits.length) :
    bitValue w' b = vals b := by
  unfold bitValue
  rw [hw, withValues, List.getElem?_mapIdx, List.getElem?_eq_getElem hb]
  simp only [Option.map_some, Option.map_map]
  cases vals b with
  | none => rfl
  | some v => cases v <;> simp

theorem forall₂_zip {α β γ : Type} {R : α → β → Prop} {T : α → γ → Prop} {Q : β → γ → Prop} {l : List α} {m : List β} {n : List γ} (h1 : List.Forall₂ R l m)
    (h2 : List.Forall₂ T l n) (h : ∀ a ∈ l, ∀ b ∈ m, ∀ c, R a b → T a c → Q b c) : List.Forall₂ Q m n := by
  induction h1 generalizing n with
  | nil => cases h2; exact .nil
  | cons a _ ih =>
    cases h2 with
    | cons b1 b2 =>
      exact .cons (h _ (by simp) _ (by simp) _ a b1) (ih b2 fun a ha b hb => h a (by simp [ha]) b (by simp [hb]))

theorem flatten_calls (cs : List (String × List (QirArg ℝ))) (pairs : List (List (Nat × Nat))) :
    (cs.map (fun c => [c]) ++ pairs.map (List.map Qir.mzCall)).flatten = cs ++ pairs.flatten.map Qir.mzCall := by
  rw [List.flatten_append, List.map_flatten]
  congr 1
  induction cs with
  | nil => rfl
  | cons c cs ih => rw [List.map_cons, List.flatten_cons, ih]; rfl

/-- C85, for circuits of library operations with at most one register of each kind, in which no measurement has a condition: if the circuit is compiled (without external functions), then the program is one function; executing it on |0...0> and simulating the circuit, with
the same random numbers, gives the same state, and every bit of the circuit has the value of the result with its number, or its old value if
there is no such result. (Conditions of gates do not matter, since all measurements come after all gates in circuits that can be compiled.) Missing: measurements
with conditions and circuits with several registers, see the violations below and of C64, C65. -/
theorem C85_partial {A : Call ℝ → Prop} (hA : ∀ e, A e → KeepsRegisters e ∧ KeepsOperands e ∧ SetsNoBit e) {w : World ℝ} (h : Reach A w) {c : Nat}
    {C : Circ} (hC : w.circs[c]? = some C) (hact : w.active = none ∨ ¬ NeedsNoContext w C.ops) {L LC : Layout} (hL : Shows C.q L)
    (hLC : Shows C.c LC) (hl1 : L.length ≤ 1) (hl2 : LC.length ≤ 1) (h1 : 1 ≤ L.items.length) (h30 : L.items.length ≤ 30) {S : List SOp}
    (hS : List.Forall₂ (Reads w) C.ops S) (hg : ∀ s ∈ S, GoodOperands s ∧ (s.kind = .measurement → s.cond = none))
    (hname : ∀ o ∈ C.ops, ∀ op k, w.ops[o]? = some op → w.classes[op.cls]? = some k → k.kind = .measurement → k.name = "Measurement")
    {uniq : List String → String → String} {P : QirProgram ℝ} {w1 : World ℝ} (e : toQir uniq c false w = (.ok P, w1))
    (u : Nat → ℝ) (hu : ∀ k, 0 ≤ u k ∧ u k < 1) (records : Nat → Record) :
    ∃ (f : List (List (LInstr ℝ))) (s : QirState L.items.length) (mem : List ℂ) (recs : Nat → Record) (w' : World ℝ), P = [f] ∧
      QirExec u (qisCalls f) (QirState.start _) s ∧ simulateCirc u c false records w = (.ok (some (mem, recs)), w') ∧ Stores false mem s.ψ ∧
      ∀ j b, LC.items[j]? = some b → bitValue w' b = (s.results j).or (bitValue w b) := by
  have hB : ∀ e, A e → SetsNoBit e := fun e he => (hA e he).2.2
  have hcomp : (toQir uniq c false w).1 = .ok P := by rw [e]
  rw [toQir_ok hB h hC hL hLC uniq false P, inRegister_single hl1, inRegister_single hl2] at hcomp
  obtain ⟨gates, meas, calls, pairs, hops, hbody, hmeas, rfl⟩ := hcomp
  obtain ⟨cs, rfl, hcs⟩ := bodyCalls_false hbody
  have hprof : ∀ d ∈ cs, "__qis__".toList <:+: d.1.toList := by
    intro d hd
    obtain ⟨o, -, hb⟩ := Qir.forall₂_right hcs d hd
    exact (Qir.baseCall_profile hb).2.2
  have hq := Qir.qis_program hprof pairs.flatten
  obtain ⟨f, hf⟩ : ∃ f, mainProgram (cs.map fun c => (.call c.1 c.2 : LInstr ℝ)) pairs.flatten = [f] := ⟨_, rfl⟩
  rw [hf, List.flatMap_cons, List.flatMap_nil, List.append_nil] at hq
  rw [hf] at e
  have hnod : L.items.Nodup := by
    obtain ⟨L', k1, -⟩ := reach_q h hC
    cases Bank.shows_unique k1.shows hL
    exact k1.nodup
  have hinv := CInv.reach (s := false) (h.imp fun e he => noBits_false e (hB e he))
  obtain ⟨LC', k1, -, k3, -⟩ := hinv.bank C (mem_of_get? hC)
  cases Bank.shows_unique k1.shows hLC
  obtain ⟨mem, recs, C', s, m1, -, m3, m4⟩ := C81_simulate (fun e he => ⟨(hA e he).1, (hA e he).2.1⟩) h hC hact hL h1 h30 hS (fun s hs => (hg s hs).1) u hu records
  obtain ⟨S1, S2, rfl, hS1, hS2⟩ : ∃ S1 S2, S = S1 ++ S2 ∧ List.Forall₂ (Reads w) gates S1 ∧ List.Forall₂ (Reads w) meas S2 := by
    rw [hops] at hS
    exact ⟨_, _, (List.take_append_drop gates.length S).symm, (List.forall₂_take_append _ _ _ hS.flip).flip, (List.forall₂_drop_append _ _ _ hS.flip).flip⟩
  have hbase : List.Forall₂ (fun c s => CallsFor L.items LC.items s.always [c] ∧ s.kind ≠ .measurement) cs S1 :=
    forall₂_zip hcs.flip.flip hS1 fun o ho c hc s b r => callsFor_base b r (hname o (by rw [hops]; simp [ho]))
  have hkind : ∀ a ∈ S1, a.kind ≠ .measurement := fun a ha => by
    obtain ⟨c, -, hc⟩ := Qir.forall₂_right hbase a ha
    exact hc.2
  have hlen : ∀ o ∈ meas, ∀ s ∈ S2, Reads w o s → ∀ bs, s.bits = some bs → s.qubits.length ≤ bs.length := by
    rintro o - s - ⟨op, k, r1, -, -, r4, -, r6, -⟩ bs hbs
    obtain ⟨qs, q1, q2⟩ := C98_measured (fun e he => (hA e he).2.1) h r1 (r6.symm.trans hbs)
    cases r4.symm.trans q1
    exact q2.le
  have hcf : List.Forall₂ (CallsFor L.items LC.items) (S1.map SOp.always ++ S2) (cs.map (fun c => [c]) ++ pairs.map fun p => p.map Qir.mzCall) := by
    refine List.rel_append ?_ ?_
    · rw [List.forall₂_map_right_iff, List.forall₂_map_left_iff]
      exact (hbase.imp fun _ _ h => h.1).flip
    · rw [List.forall₂_map_right_iff]
      refine forall₂_zip hS2 hmeas fun o ho s hs c r b => callsFor_measures b r ((hg s (by simp [hs])).2 ?_) (hlen o ho s hs r)
      obtain ⟨op, k, qs, bs, b1, b2, b3, -⟩ := b
      obtain ⟨op', k', r1, r2, -, -, -, -, r7⟩ := r
      cases b1.symm.trans r1
      cases b2.symm.trans r2
      rcases r7 with r7 | ⟨ys, -, r8, -⟩
      · exact r7.2
      · exact absurd b3 (gateNamed_kind r8).1
  have m3 := exec_always m3 hkind (fun b hb => by
    have : bitValue w b = none := by
      unfold bitValue
      split
      · next x hx => rw [hinv.unset x (mem_of_get? hx)]; rfl
      · rfl
    have hb' : bitValue w b = some false := hb
    rw [this] at hb'
    cases hb')
  obtain ⟨res, n1, n2⟩ := exec_qir (c := ⟨L.items, S1 ++ S2⟩) hnod k1.nodup (old := bitValue w) m3 hcf (res := fun _ => none) (fun j b _ => rfl)
  refine ⟨f, ⟨s.ψ, res, s.drawn⟩, mem, recs, _, hf, ?_, m1, m4, ?_⟩
  · rw [hq]
    rw [← flatten_calls]
    exact n1
  · intro j b hb
    rw [bitValue_withValues w s.bits rfl (k3 b (mem_of_get? hb))]
    exact n2 j b hb

/-- The functions of the base profile and the gates of the library. -/
theorem qisGate_base {n : Nat} {f : String} {xs : List ℝ} {ts : List (Fin n)} {g : State n ℂ → State n ℂ} (h : QisGate f xs ts g) :
    ts.Nodup ∧ ∃ b ∈ baseGates, b.2.1 = f ∧ xs.length = b.2.2.1 ∧ ts.length = b.2.2.2 ∧
      ∀ kk : OpCls, GateClass b.2.2.1 b.2.2.2 kk → ∃ sk, GateNamed b.1 kk.kind xs sk ∧ arity sk = ts.length ∧ sk ≠ .measurement := by
  have hb := h
  cases h
  case x => exact ⟨by simp, ("X", _, 0, 1), by simp [baseGates], rfl, rfl, rfl, fun kk hk => ⟨_, by simp [GateClass] at hk; rw [hk.1]; exact .x, rfl, by simp⟩⟩
  case y => exact ⟨by simp, ("Y", _, 0, 1), by simp [baseGates], rfl, rfl, rfl, fun kk hk => ⟨_, by simp [GateClass] at hk; rw [hk.1]; exact .y, rfl, by simp⟩⟩
  case z => exact ⟨by simp, ("Z", _, 0, 1), by simp [baseGates], rfl, rfl, rfl, fun kk hk => ⟨_, by simp [GateClass] at hk; rw [hk.1]; exact .z, rfl, by simp⟩⟩
  case h => exact ⟨by simp, ("Hadamard", _, 0, 1), by simp [baseGates], rfl, rfl, rfl, fun kk hk => ⟨_, by simp [GateClass] at hk; rw [hk.1]; exact .hadamard, rfl, by simp⟩⟩
  case s => exact ⟨by simp, ("S", _, 0, 1), by simp [baseGates], rfl, rfl, rfl, fun kk hk => ⟨_, by simp [GateClass] at hk; rw [hk.1]; exact .s, rfl, by simp⟩⟩
  case t => exact ⟨by simp, ("T", _, 0, 1), by simp [baseGates], rfl, rfl, rfl, fun kk hk => ⟨_, by simp [GateClass] at hk; rw [hk.1]; exact .t, rfl, by simp⟩⟩
  case rx => exact ⟨by simp, ("RX", _, 1, 1), by simp [baseGates], rfl, rfl, rfl, fun kk hk => ⟨_, by simp [GateClass] at hk; rw [hk.1]; exact .rx _, rfl, by simp⟩⟩
  case ry => exact ⟨by simp, ("RY", _, 1, 1), by simp [baseGates], rfl, rfl, rfl, fun kk hk => ⟨_, by simp [GateClass] at hk; rw [hk.1]; exact .ry _, rfl, by simp⟩⟩
  case rz => exact ⟨by simp, ("RZ", _, 1, 1), by simp [baseGates], rfl, rfl, rfl, fun kk hk => ⟨_, by simp [GateClass] at hk; rw [hk.1]; exact .rz _, rfl, by simp⟩⟩
  case cnot hct => exact ⟨by simp [hct], ("CX", _, 0, 2), by simp [baseGates], rfl, rfl, rfl, fun kk hk => ⟨_, by simp [GateClass] at hk; rw [hk.1]; exact .cx, rfl, by simp⟩⟩
  case cz hct => exact ⟨by simp [hct], ("CZ", _, 0, 2), by simp [baseGates], rfl, rfl, rfl, fun kk hk => ⟨_, by simp [GateClass] at hk; rw [hk.1]; exact .cz, rfl, by simp⟩⟩

/-- The calls that can be executed. -/
theorem _root_.DG.Spec.QirExec.calls {n : Nat} {u : Nat → ℝ} {calls : List (String × List (QirArg ℝ))} {s s' : QirState n} (h : QirExec u calls s s') :
    ∀ c ∈ calls, (∃ f xs, ∃ ts : List (Fin n), ∃ g, QisGate f xs ts g ∧ c = (f, xs.map QirArg.dbl ++ ts.map fun t => QirArg.qubit t.val)) ∨
      ∃ p : Nat × Nat, p.1 < n ∧ c = Qir.mzCall p := by
  induction h with
  | nil => simp
  | cons a _ ih =>
    intro c hc
    rcases List.mem_cons.1 hc with rfl | hc
    · cases a with
      | gate hq => exact .inl ⟨_, _, _, _, hq, rfl⟩
      | @measure t r => exact .inr ⟨(t.val, r), t.isLt, rfl⟩
    · exact ih c hc

theorem mz_pairs {calls : List (String × List (QirArg ℝ))} (h : ∀ c ∈ calls, isMz c = false ∨ ∃ p : Nat × Nat, c = Qir.mzCall p) :
    ∃ pairs : List (Nat × Nat), calls.filter isMz = pairs.map Qir.mzCall := by
  induction calls with
  | nil => exact ⟨[], rfl⟩
  | cons c l ih =>
    obtain ⟨pairs, e⟩ := ih fun c hc => h c (by simp [hc])
    rcases h c (by simp) with hm | ⟨p, rfl⟩
    · exact ⟨pairs, by rw [List.filter_cons, hm]; exact e⟩
    · exact ⟨p :: pairs, by rw [List.filter_cons, if_pos (by rfl), e]; rfl⟩

theorem measured_pairs {calls : List (String × List (QirArg ℝ))} {pairs : List (Nat × Nat)} (h : calls.filter isMz = pairs.map Qir.mzCall) :
    measured calls = (pairs.map Prod.fst, pairs.map Prod.snd) := by
  unfold measured
  rw [h]
  clear h
  congr 1
  · induction pairs with
    | nil => rfl
    | cons p l ih => rw [List.map_cons, List.flatMap_cons, List.map_cons, ih]; rfl
  · induction pairs with
    | nil => rfl
    | cons p l ih => rw [List.map_cons, List.flatMap_cons, List.map_cons, ih]; rfl

/-- A gate that was loaded. -/
theorem reads_gate {w : World ℝ} {lib : String → Nat} (hl : HasLibrary lib w) {L LC : Layout} (hn : L.items.Nodup) {o : Nat} {n : Nat} {f : String} {xs : List ℝ} {ts : List (Fin n)}
    {g : State n ℂ → State n ℂ} (hq : QisGate f xs ts g) (hg : GateOf lib w L o (f, xs.map QirArg.dbl ++ ts.map fun t => QirArg.qubit t.val)) :
    ∃ s, Reads w o s ∧ GoodOperands s ∧ CallsFor L.items LC.items s [(f, xs.map QirArg.dbl ++ ts.map fun t => QirArg.qubit t.val)] := by
  obtain ⟨name, op, k, qs, b1, b2, b3, b4, b5, b6, b7, b8, b9, b10⟩ := hg
  obtain ⟨g1, b, g2, rfl, g3, g4, g5⟩ := qisGate_base hq
  dsimp only at b1
  have hname : name = b.1 := by
    have : ∀ p ∈ gateFunctions, ∀ g ∈ baseGates, p.2 = g.2.1 → p.1 = g.1 := by decide +kernel
    exact this _ b1 _ g2 rfl
  subst hname
  rw [b3] at b4
  obtain ⟨h1, h2⟩ := Qir.library_base hl g2 b4
  obtain ⟨sk, h3, h4, h5⟩ := g5 k h2
  rw [qubitArgs_gate] at b6
  dsimp only at b9 b10
  rw [doubleArgs_gate] at b9 b10
  have hp : op.params = xs.map OpParam.num := by
    rcases h2 with ⟨-, -, h, -⟩ | ⟨-, -, h, -⟩ | ⟨h, -⟩
    · exact b10 (by rw [h]; simp) (by rw [h]; simp)
    · exact b10 (by rw [h]; simp) (by rw [h]; simp)
    · rw [h] at g3
      rw [List.length_eq_zero_iff.1 g3] at b9 ⊢
      exact List.prefix_nil.1 b9
  refine ⟨⟨o, sk, qs, none, none⟩, ⟨op, k, b2, by rw [b3]; exact b4, rfl, b5, b8.symm, b7.symm, .inr ⟨xs, hp, by rw [h1]; exact h3, ?_⟩⟩, .inr ⟨?_, ?_⟩, ?_⟩
  · rintro hc
    rcases h2 with ⟨-, -, h, -⟩ | ⟨-, -, h, -⟩ | ⟨-, -, -, h | h⟩
    · rw [h] at hc; simp at hc
    · rw [h] at hc; simp at hc
    · rw [h]
    · rw [h]
  · rw [b6.length_eq, List.length_map]; exact h4.symm
  · have : qs.map some = ts.map fun t => L.items[t.val]? := by
      clear b5 g1 g3 g4 g5 b1 b2 b9 b10 hq hp h4
      induction ts generalizing qs with
      | nil => cases b6; rfl
      | cons t ts ih =>
        cases b6 with
        | cons x y => rw [List.map_cons, List.map_cons, ih _ y, x]
    have hlt : ∀ t ∈ ts, t.val < L.items.length := by
      intro t ht
      obtain ⟨q, -, hq⟩ := Qir.forall₂_right b6 t.val (List.mem_map.2 ⟨t, ht, rfl⟩)
      exact (List.getElem?_eq_some_iff.1 hq).1
    refine List.Nodup.of_map some ?_
    rw [this]
    refine (List.nodup_map_iff_inj_on g1).2 fun a ha b hb e => ?_
    rw [List.getElem?_eq_getElem (hlt a ha), List.getElem?_eq_getElem (hlt b hb)] at e
    exact Fin.ext ((List.Nodup.getElem_inj_iff hn).1 (Option.some.inj e))
  · have := CallsFor.gate (qubits := L.items) (bits := LC.items) (s := ⟨o, sk, qs, none, none⟩) (callee := b.2.1) (xs := xs) rfl h5 b6
      fun ts f hf => qisGate_act g2 h3 hf
    rwa [List.map_map] at this

/-- A measurement that was loaded. -/
theorem reads_measurement {w : World ℝ} {lib : String → Nat} (hl : HasLibrary lib w) {L LC : Layout} {m : Nat} {pairs : List (Nat × Nat)}
    (hm : MeasurementOf lib w L LC m (pairs.map Prod.fst) (pairs.map Prod.snd)) :
    ∃ s, Reads w m s ∧ GoodOperands s ∧ CallsFor L.items LC.items s (pairs.map Qir.mzCall) := by
  have hme := Qir.measures_all hl hm
  obtain ⟨op, qs, bs, b1, b2, b3, b4, b5, b6, b7, b8⟩ := hm
  obtain ⟨k, c1, c2, c3, c4⟩ := hl.2
  have hr : Reads w m ⟨m, .measurement, qs, none, some bs⟩ := ⟨op, k, b1, by rw [b2]; exact c1, rfl, b3, b5.symm, b4.symm, .inl ⟨c3, rfl⟩⟩
  refine ⟨_, hr, .inl rfl, callsFor_measures hme hr rfl fun bs' e => ?_⟩
  cases e
  rw [b6.length_eq, b8.length_eq, List.take_of_length_le (by simp)]
  simp

theorem loaderCall_keeps {e : Call ℝ} (h : Qir.LoaderCall e) : KeepsRegisters e ∧ KeepsOperands e ∧ SetsNoBit e := by
  cases e <;> simp_all [Qir.LoaderCall, KeepsRegisters, KeepsOperands, SetsNoBit]

theorem foldr_max_le (l : List Nat) {i : Nat} (h : i ∈ l) : i ≤ l.foldr max 0 := by
  induction l with
  | nil => cases h
  | cons a l ih =>
    rw [List.foldr_cons]
    rcases List.mem_cons.1 h with rfl | h
    · exact Nat.le_max_left _ _
    · exact (ih h).trans (Nat.le_max_right _ _)

/-- Results come from measurements. -/
theorem _root_.DG.Spec.QirExec.results {n : Nat} {u : Nat → ℝ} {calls : List (String × List (QirArg ℝ))} {s s' : QirState n} (h : QirExec u calls s s') (j : Nat)
    (hj : s'.results j ≠ none) : s.results j ≠ none ∨ ∃ i, Qir.mzCall (i, j) ∈ calls := by
  induction h with
  | nil => exact .inl hj
  | cons a _ ih =>
    rcases ih hj with h | ⟨i, h⟩
    · cases a with
      | gate => exact .inl h
      | @measure t r =>
        by_cases e : j = r
        · subst e; exact .inr ⟨t.val, by simp [Qir.mzCall]⟩
        · dsimp only at h
          rw [Function.update_of_ne e] at h
          exact .inl h
    · exact .inr ⟨i, by simp [h]⟩

/-- C86: what a program of the base profile is loaded as, if some gate acts on the last qubit: simulating the circuit gives, with the same random numbers,
the state and the results of executing first all gates and then all measurements of the program. -/
theorem C86_order {A : Call ℝ → Prop} (hA : ∀ e, A e → KeepsRegisters e ∧ KeepsOperands e ∧ SetsNoBit e) {w : World ℝ} (h : Reach A w)
    (ha : w.active = none) {lib : String → Nat} (hl : HasLibrary lib w) {f : List (List (LInstr ℝ))} {n : Nat} {u : Nat → ℝ} (hu : ∀ k, 0 ≤ u k ∧ u k < 1)
    {s : QirState n} (hx : QirExec u (gateCalls (qisCalls f) ++ (qisCalls f).filter isMz) (QirState.start n) s)
    (hn : needed (qisCalls f) = n) (h1 : 1 ≤ n) (h30 : n ≤ 30) (records : Nat → Record) :
    ∃ (c : Nat) (w1 : World ℝ) (C : Circ) (LC : Layout) (mem : List ℂ) (recs : Nat → Record) (w' : World ℝ),
      fromQir lib [f] w = (.ok c, w1) ∧ w1.circs[c]? = some C ∧ Shows C.c LC ∧
      simulateCirc u c false records w1 = (.ok (some (mem, recs)), w') ∧ Stores false mem s.ψ ∧
      (∀ j b, LC.items[j]? = some b → bitValue w' b = s.results j) ∧ ∀ j, s.results j ≠ none → j < LC.items.length := by
  have hr : Reach (fun e => KeepsRegisters e ∧ KeepsOperands e ∧ SetsNoBit e) w := h.imp hA
  have hB : ∀ e : Call ℝ, KeepsRegisters e ∧ KeepsOperands e ∧ SetsNoBit e → SetsNoBit e := fun e he => he.2.2
  generalize hcs : qisCalls f = calls at *
  have hcalls : ∀ c ∈ calls, (∃ f xs, ∃ ts : List (Fin n), ∃ g, QisGate f xs ts g ∧ c = (f, xs.map QirArg.dbl ++ ts.map fun t => QirArg.qubit t.val)) ∨
      ∃ p : Nat × Nat, p.1 < n ∧ c = Qir.mzCall p := by
    intro c hc
    refine hx.calls c (List.mem_append.2 ?_)
    cases hm : isMz c
    · exact .inl (List.mem_filter.2 ⟨hc, by rw [hm]; rfl⟩)
    · exact .inr (List.mem_filter.2 ⟨hc, hm⟩)
  have hP : [f].flatMap qisCalls = calls := by rw [List.flatMap_cons, List.flatMap_nil, List.append_nil, hcs]
  have hb : ∀ c ∈ calls, BaseProfile c := by
    intro c hc
    rcases hcalls c hc with ⟨f, xs, ts, g, hq, rfl⟩ | ⟨p, -, rfl⟩
    · obtain ⟨-, b, g1, g2, g3, g4, -⟩ := qisGate_base hq
      refine ⟨?_, .inl ⟨b, g1, g2, ?_, ?_⟩⟩
      · intro a ha
        simp only [List.mem_append, List.mem_map] at ha
        rcases ha with ⟨_, _, rfl⟩ | ⟨_, _, rfl⟩ <;> simp
      · dsimp only; rw [doubleArgs_gate]; exact g3
      · dsimp only; rw [qubitArgs_gate, List.length_map]; exact g4
    · exact ⟨by simp [KnownArgs, Qir.mzCall], .inr ⟨rfl, rfl, rfl, rfl⟩⟩
  obtain ⟨pairs, hpairs⟩ := mz_pairs (calls := calls) fun c hc => by
    rcases hcalls c hc with ⟨f, xs, ts, g, hq, rfl⟩ | ⟨p, -, rfl⟩
    · exact .inl (qisGate_notMz hq _)
    · exact .inr ⟨p, rfl⟩
  have hmeas := measured_pairs hpairs
  have hlt : ∀ p ∈ pairs, p.1 < n := by
    intro p hp
    have : Qir.mzCall p ∈ calls := List.mem_of_mem_filter (by rw [hpairs]; exact List.mem_map.2 ⟨p, hp, rfl⟩)
    rcases hcalls _ this with ⟨f, xs, ts, g, hq, e⟩ | ⟨p', h', e⟩
    · have := qisGate_notMz hq (xs.map QirArg.dbl ++ ts.map fun t => QirArg.qubit t.val)
      rw [← e] at this
      cases this
    · have : p = p' := by
        obtain ⟨a, b⟩ := p; obtain ⟨a', b'⟩ := p'
        simp [Qir.mzCall] at e
        rw [e.1, e.2]
      rw [this]; exact h'
  obtain ⟨c, w1, e1, e2⟩ := (fromQir_base' (Refs.reach hr) (QInv.any hr) (CInv.reach (s := false) (hr.imp fun e he => noBits_false e (hB e he))) ha hl hP hb).1 (by
    intro i hi
    rw [hmeas] at hi
    obtain ⟨p, hp, rfl⟩ := List.mem_map.1 hi
    rw [hn]; exact hlt p hp)
  have hr1 := reach_fromQir (fun e he => loaderCall_keeps he) hr e1
  obtain ⟨-, hload, -, hact⟩ := C68_partial hB hr ha e1
  rw [hP] at hload
  obtain ⟨C, L, LC, gates, meas, l1, -, l3, l4, l5, l6, l7, l8, l9⟩ := hload
  rw [hn] at l7
  subst l7
  have hl1 : HasLibrary lib w1 := by unfold HasLibrary; rw [e2]; exact hl
  have hnod : L.items.Nodup := by
    obtain ⟨L', k1, -⟩ := reach_q hr1 l1
    cases Bank.shows_unique k1.shows l3
    exact k1.nodup
  have hinv := CInv.reach (s := false) (hr1.imp fun e he => noBits_false e (hB e he))
  obtain ⟨LC', k1, -, k3, -⟩ := hinv.bank C (mem_of_get? l1)
  cases Bank.shows_unique k1.shows l4
  have hunset : ∀ b, bitValue w1 b = none := by
    intro b
    unfold bitValue
    split
    · next x hx => rw [hinv.unset x (mem_of_get? hx)]; rfl
    · rfl
  -- the operations
  have hG : ∃ S1, List.Forall₂ (Reads w1) gates S1 ∧ (∀ s ∈ S1, GoodOperands s) ∧ List.Forall₂ (CallsFor L.items LC.items) S1 ((gateCalls calls).map fun c => [c]) := by
    have hgc : ∀ c ∈ gateCalls calls, ∃ f xs, ∃ ts : List (Fin L.items.length), ∃ g, QisGate f xs ts g ∧ c = (f, xs.map QirArg.dbl ++ ts.map fun t => QirArg.qubit t.val) := by
      intro c hc
      obtain ⟨hc1, hc2⟩ := List.mem_filter.1 hc
      rcases hcalls c hc1 with h | ⟨p, -, rfl⟩
      · exact h
      · simp [isMz, Qir.mzCall] at hc2
    generalize gateCalls calls = cs at l8 hgc
    clear l5 hcalls
    induction l8 with
    | nil => exact ⟨[], .nil, by simp, .nil⟩
    | @cons _ b _ _ a _ ih =>
      obtain ⟨S1, i1, i2, i3⟩ := ih fun c hc => hgc c (by simp [hc])
      obtain ⟨f, xs, ts, g, hq, rfl⟩ := hgc b (by simp)
      obtain ⟨s1, j1, j2, j3⟩ := reads_gate (LC := LC) hl1 hnod hq a
      refine ⟨s1 :: S1, .cons j1 i1, ?_, .cons j3 i3⟩
      intro s hs
      rcases List.mem_cons.1 hs with rfl | hs
      · exact j2
      · exact i2 s hs
  have hM : ∃ S2, List.Forall₂ (Reads w1) meas S2 ∧ (∀ s ∈ S2, GoodOperands s) ∧ ∃ pss : List (List (Nat × Nat)), pss.flatten = pairs ∧
      List.Forall₂ (CallsFor L.items LC.items) S2 (pss.map (List.map Qir.mzCall)) := by
    rw [hmeas] at l9
    rcases l9 with ⟨m1, rfl, -⟩ | ⟨-, -, -, m, rfl, hm⟩
    · have : pairs = [] := by simpa using m1
      exact ⟨[], .nil, by simp, [], this.symm, .nil⟩
    · obtain ⟨s2, j1, j2, j3⟩ := reads_measurement hl1 hm
      exact ⟨[s2], .cons j1 .nil, by simpa using j2, [pairs], by simp, .cons j3 .nil⟩
  obtain ⟨S1, g1, g2, g3⟩ := hG
  obtain ⟨S2, m1, m2, pss, m3, m4⟩ := hM
  have hS : List.Forall₂ (Reads w1) C.ops (S1 ++ S2) := by rw [l5]; exact List.rel_append g1 m1
  obtain ⟨mem, recs, C', t, t1, -, t3, t4⟩ := C81_simulate (fun e he => ⟨he.1, he.2.1⟩) hr1 l1 (.inl hact) l3 h1 h30 hS (by
    intro s hs
    rcases List.mem_append.1 hs with hs | hs
    · exact g2 s hs
    · exact m2 s hs) u hu records
  obtain ⟨res, n1, n2⟩ := exec_qir (c := ⟨L.items, S1 ++ S2⟩) hnod k1.nodup (old := bitValue w1) t3 (List.rel_append g3 m4) (res := fun _ => none) (fun j b _ => rfl)
  rw [flatten_calls, m3, ← hpairs] at n1
  have hs := n1.unique hx
  subst hs
  refine ⟨c, w1, C, LC, mem, recs, _, e1, l1, l4, t1, t4, ?_, ?_⟩
  · intro j b hb
    rw [bitValue_withValues w1 t.bits rfl (k3 b (mem_of_get? hb)), n2 j b hb, hunset, Option.or_none]
  · intro j hj
    rcases hx.results j hj with h | ⟨i, h⟩
    · exact absurd rfl h
    · have hi : (i, j) ∈ pairs := by
        have : Qir.mzCall (i, j) ∈ calls.filter isMz := by
          refine List.mem_filter.2 ⟨?_, rfl⟩
          rcases List.mem_append.1 h with h | h <;> exact List.mem_of_mem_filter h
        rw [hpairs] at this
        obtain ⟨⟨a, b⟩, hp, e⟩ := List.mem_map.1 this
        simp [Qir.mzCall] at e
        rwa [← e.1, ← e.2]
      rw [hmeas] at l9
      rcases l9 with ⟨m1, -⟩ | ⟨-, -, e, -⟩
      · rw [show pairs = [] by simpa using m1] at hi; cases hi
      · rw [e]
        exact Nat.lt_succ_of_le (foldr_max_le _ (List.mem_map.2 ⟨_, hi, rfl⟩))

/-- C86, for programs of the base profile in which no gate acts on a qubit after it has been measured, and some gate acts on the last qubit: the program is
loaded, and simulating the circuit gives, with the same random numbers, the state and the results of the program. Missing: gates after measurements,
see `C86_violated`; and programs that only measure the last qubit, which are not loaded, see `C68_base`. -/
theorem C86_partial {A : Call ℝ → Prop} (hA : ∀ e, A e → KeepsRegisters e ∧ KeepsOperands e ∧ SetsNoBit e) {w : World ℝ} (h : Reach A w)
    (ha : w.active = none) {lib : String → Nat} (hl : HasLibrary lib w) {f : List (List (LInstr ℝ))} {n : Nat} {u : Nat → ℝ} (hu : ∀ k, 0 ≤ u k ∧ u k < 1)
    {s : QirState n} (hx : QirExec u (qisCalls f) (QirState.start n) s) (hp : MeasuredLast (qisCalls f))
    (hn : needed (qisCalls f) = n) (h1 : 1 ≤ n) (h30 : n ≤ 30) (records : Nat → Record) :
    ∃ (c : Nat) (w1 : World ℝ) (C : Circ) (LC : Layout) (mem : List ℂ) (recs : Nat → Record) (w' : World ℝ),
      fromQir lib [f] w = (.ok c, w1) ∧ w1.circs[c]? = some C ∧ Shows C.c LC ∧
      simulateCirc u c false records w1 = (.ok (some (mem, recs)), w') ∧ Stores false mem s.ψ ∧
      (∀ j b, LC.items[j]? = some b → bitValue w' b = s.results j) ∧ ∀ j, s.results j ≠ none → j < LC.items.length :=
  C86_order hA h ha hl hu (hx.sorted hp) hn h1 h30 records

/-- `mz` and then `x`. -/
def measureFirst : List (List (LInstr ℝ)) :=
  [[.call "__quantum__qis__mz__body" [.qubit 0, .result 0], .call "__quantum__qis__x__body" [.qubit 0], .ret]]

theorem measureFirst_calls : qisCalls measureFirst = [("__quantum__qis__mz__body", [.qubit 0, .result 0]), ("__quantum__qis__x__body", [.qubit 0])] := by
  have h1 : "__qis__".toList <:+: "__quantum__qis__mz__body".toList := by decide +kernel
  have h2 : "__qis__".toList <:+: "__quantum__qis__x__body".toList := by decide +kernel
  simp only [qisCalls, measureFirst, List.flatten_cons, List.flatten_nil, List.append_nil, List.takeWhile, notRet, List.filterMap_cons, qisCall,
    if_pos h1, if_pos h2, List.filterMap_nil]

theorem born_zero : born (0 : Fin 1) false (zeroState 1) = 1 := by
  unfold born zeroState
  rw [Finset.sum_eq_single (fun _ => false)]
  · simp
  · intro x _ hx; simp [hx]
  · simp

theorem born_one : born (0 : Fin 1) false (applyGate 0 (Spec.mat2 0 1 1 0) (zeroState 1)) = 0 := by
  unfold born
  apply Finset.sum_eq_zero
  intro x _
  split
  · next h =>
    have : Function.update x 0 true ≠ fun _ => false := fun e => by simpa using congrFun e 0
    simp [applyGate, h, Spec.mat2, zeroState, this]
  · rfl

/-- C86 is violated: the result of this program is 0, since the qubit is measured before it is flipped; but the program is loaded, without an exception,
and simulating the circuit gives the result 1. -/
theorem C86_violated (u : Nat → ℝ) (hu : ∀ k, 0 ≤ u k ∧ u k < 1) :
    (∃ s : QirState 1, QirExec u (qisCalls measureFirst) (QirState.start 1) s ∧ s.results 0 = some false) ∧
    ∀ {A : Call ℝ → Prop}, (∀ e, A e → KeepsRegisters e ∧ KeepsOperands e ∧ SetsNoBit e) → ∀ {w : World ℝ}, Reach A w → w.active = none →
      ∀ {lib : String → Nat}, HasLibrary lib w → ∀ records : Nat → Record,
      ∃ (c : Nat) (w1 : World ℝ) (C : Circ) (LC : Layout) (b : Nat) (mem : List ℂ) (recs : Nat → Record) (w' : World ℝ),
        fromQir lib [measureFirst] w = (.ok c, w1) ∧ w1.circs[c]? = some C ∧ Shows C.c LC ∧ LC.items[0]? = some b ∧
        simulateCirc u c false records w1 = (.ok (some (mem, recs)), w') ∧ bitValue w' b = some true := by
  constructor
  · rw [measureFirst_calls]
    refine ⟨_, .cons (.measure (t := 0)) (.cons (.gate (.x 0)) .nil), ?_⟩
    simp only [QirState.start, Function.update_self, outcome, born_zero, if_pos (hu 0).2]
  · intro A hA w h ha lib hl records
    obtain ⟨s, hx, hr⟩ : ∃ s : QirState 1, QirExec u (gateCalls (qisCalls measureFirst) ++ (qisCalls measureFirst).filter isMz) (QirState.start 1) s ∧
        s.results 0 = some true := by
      rw [measureFirst_calls]
      refine ⟨_, .cons (.gate (.x 0)) (.cons (.measure (t := 0)) .nil), ?_⟩
      simp only [QirState.start, Function.update_self, outcome, born_one, if_neg (not_lt.2 (hu 0).1)]
    obtain ⟨c, w1, C, LC, mem, recs, w', g1, g2, g3, g4, g5, g6, g7⟩ := C86_order hA h ha hl hu hx (by rw [measureFirst_calls]; rfl) le_rfl (by norm_num) records
    have hj := g7 0 (by simp [hr])
    obtain ⟨b, hb⟩ : ∃ b, LC.items[0]? = some b := ⟨_, List.getElem?_eq_getElem hj⟩
    refine ⟨c, w1, C, LC, b, mem, recs, w', g1, g2, g3, hb, g4, ?_⟩
    rw [g6 0 b hb, hr]

/-! ## Demos -/

/-- `Hadamard(0)`, `RX(2.5, 1)`, `CX(0, 1)` and a measurement of the qubits into the bits in the opposite order. -/
def meaningDemo : Prog ℝ :=
  libraryQirDemo <|
  .seq (.call (.newCirc false (some 2) (some 2))) <|
  .withCtx 0 <|
  .seq (.call (.construct 3 none (.qubits (some [0])))) <|
  .seq (.call (.construct 6 (some [.num (5 / 2)]) (.qubits (some [1])))) <|
  .seq (.call (.construct 9 none (.split (some [0]) (some [1])))) <|
  .seq (.call (.construct 11 none (.qubits (some [0, 1])))) <|
  .call (.measureInto 3 [1, 0])

theorem meaningDemo_reach : Reach (fun e => KeepsRegisters e ∧ KeepsOperands e ∧ SetsNoBit e) meaningDemo.final :=
  ⟨meaningDemo, by simp [meaningDemo, libraryQirDemo, Prog.All, KeepsRegisters, KeepsOperands, SetsNoBit], meaningDemo.visits_run _⟩

theorem meaningDemo_shows : ∃ C, meaningDemo.final.circs[0]? = some C ∧ Shows C.q [(.str "qreg0", [0, 1])] := shows_circ Circ.q (by decide +kernel)

theorem meaningDemo_showsC : ∃ C, meaningDemo.final.circs[0]? = some C ∧ Shows C.c [(.str "creg0", [0, 1])] := shows_circ Circ.c (by decide +kernel)

theorem meaningDemo_ops : opsOf meaningDemo.final 0 = [0, 1, 2, 3] ∧ meaningDemo.final.active = none := by decide +kernel

theorem meaningDemo_library : HasLibrary libQirDemo meaningDemo.final := by
  have h : (∀ g ∈ baseGates, ∃ k ∈ meaningDemo.final.classes[libQirDemo g.1]?, k.name = g.1 ∧ GateClass g.2.2.1 g.2.2.2 k) ∧
      ∃ k ∈ meaningDemo.final.classes[libQirDemo "Measurement"]?, k.name = "Measurement" ∧ k.kind = .measurement ∧ k.ar = ⟨false, none, none, none⟩ := by
    decide +kernel
  exact h

/-- The operations of the demo circuit. -/
def meaningDemoOps (x : ℝ) : List SOp :=
  [⟨0, .single .hadamard, [0], none, none⟩, ⟨1, .single (.rx (.num x)), [1], none, none⟩, ⟨2, .controlled 1 .x, [0, 1], none, none⟩,
    ⟨3, .measurement, [0, 1], none, some [1, 0]⟩]

theorem meaningDemo_objects : (meaningDemo.final.ops.map fun op => (op.cls, op.qubits, op.params.length)) =
    [(3, some [0], 0), (6, some [1], 1), (9, some [0, 1], 0), (11, some [0, 1], 0)] := by decide +kernel

theorem meaningDemo_params : (match meaningDemo.final.ops[1]? with | some op => (match op.params with | [.num _] => true | _ => false) | none => false) = true := by
  decide +kernel

theorem meaningDemo_bits : (meaningDemo.final.ops.map fun op => (op.cond, op.bits)) = [(none, none), (none, none), (none, none), (none, some [1, 0])] := by
  decide +kernel

theorem meaningDemo_compiles : (match (toQir uniqDemo 0 false meaningDemo.final).1 with | .ok _ => true | .error _ => false) = true := by decide +kernel

theorem meaningDemo_reads : ∃ x, List.Forall₂ (Reads meaningDemo.final) [0, 1, 2, 3] (meaningDemoOps x) := by
  have key : ∀ (i : Nat) (a : Nat × Option (List Nat) × Nat) (b : Option (List Nat) × Option (List Nat)),
      [(3, some [0], 0), (6, some [1], 1), (9, some [0, 1], 0), (11, some [0, 1], 0)][i]? = some a →
      [(none, none), (none, none), (none, none), (none, some [1, 0])][i]? = some b →
      ∃ op, meaningDemo.final.ops[i]? = some op ∧ op.cls = a.1 ∧ op.qubits = a.2.1 ∧ op.params.length = a.2.2 ∧ op.cond = b.1 ∧ op.bits = b.2 := by
    intro i a b ha hb
    rw [← meaningDemo_objects, List.getElem?_map] at ha
    rw [← meaningDemo_bits, List.getElem?_map] at hb
    rw [Option.map_eq_some_iff] at ha
    obtain ⟨op, ho, rfl⟩ := ha
    rw [ho] at hb
    cases hb
    exact ⟨op, ho, rfl, rfl, rfl, rfl, rfl⟩
  obtain ⟨o0, a0, b0, c0, d0, e0, f0⟩ := key 0 _ _ rfl rfl
  obtain ⟨o1, a1, b1, c1, d1, e1, f1⟩ := key 1 _ _ rfl rfl
  obtain ⟨o2, a2, b2, c2, d2, e2, f2⟩ := key 2 _ _ rfl rfl
  obtain ⟨o3, a3, b3, c3, d3, e3, f3⟩ := key 3 _ _ rfl rfl
  have hc : ∀ (i : Nat) (a : Nat × String × OpKind × Option Nat), [(3, ("Hadamard", OpKind.plain, none)), (6, ("RX", .parametric, none)), (9, ("CX", .controlled, some 1)),
      (11, ("Measurement", .measurement, none))][i]? = some a →
      ∃ k, meaningDemo.final.classes[a.1]? = some k ∧ (k.name, k.kind, k.ar.numControl) = a.2 := by
    have h : ∀ a ∈ ([(3, ("Hadamard", OpKind.plain, none)), (6, ("RX", .parametric, none)), (9, ("CX", .controlled, some 1)),
      (11, ("Measurement", .measurement, none))] : List (Nat × String × OpKind × Option Nat)), ∃ k ∈ meaningDemo.final.classes[a.1]?, (k.name, k.kind, k.ar.numControl) = a.2 := by decide +kernel
    exact fun i a ha => h a (mem_of_get? ha)
  obtain ⟨k0, g0, h0⟩ := hc 0 _ rfl
  obtain ⟨k1, g1, h1⟩ := hc 1 _ rfl
  obtain ⟨k2, g2, h2⟩ := hc 2 _ rfl
  obtain ⟨k3, g3, h3⟩ := hc 3 _ rfl
  simp only [Prod.mk.injEq] at h0 h1 h2 h3
  obtain ⟨x, p1⟩ : ∃ x, o1.params = [.num x] := by
    have := meaningDemo_params
    rw [a1] at this
    dsimp only at this
    split at this
    · next x hx => exact ⟨x, hx⟩
    · cases this
  refine ⟨x, .cons ⟨o0, k0, a0, by rw [b0]; exact g0, rfl, c0, e0.symm, f0.symm, .inr ⟨[], List.length_eq_zero_iff.1 d0, ?_, ?_⟩⟩
    (.cons ⟨o1, k1, a1, by rw [b1]; exact g1, rfl, c1, e1.symm, f1.symm, .inr ⟨[x], p1, ?_, ?_⟩⟩
    (.cons ⟨o2, k2, a2, by rw [b2]; exact g2, rfl, c2, e2.symm, f2.symm, .inr ⟨[], List.length_eq_zero_iff.1 d2, ?_, fun _ => h2.2.2⟩⟩
    (.cons ⟨o3, k3, a3, by rw [b3]; exact g3, rfl, c3, e3.symm, f3.symm, .inl ⟨h3.2.1, rfl⟩⟩ .nil)))⟩
  · rw [h0.1, h0.2.1]; exact .hadamard
  · rw [h0.2.1]; simp
  · rw [h1.1, h1.2.1]; exact .rx _
  · rw [h1.2.1]; simp
  · rw [h2.1, h2.2.1]; exact .cx

/-- `C85_partial` for the demo circuit. -/
example (u : Nat → ℝ) (hu : ∀ k, 0 ≤ u k ∧ u k < 1) (records : Nat → Record) :
    ∃ (f : List (List (LInstr ℝ))) (w1 : World ℝ) (s : QirState 2) (mem : List ℂ) (recs : Nat → Record) (w' : World ℝ),
      toQir uniqDemo 0 false meaningDemo.final = (.ok [f], w1) ∧ QirExec u (qisCalls f) (QirState.start _) s ∧
      simulateCirc u 0 false records meaningDemo.final = (.ok (some (mem, recs)), w') ∧ Stores false mem s.ψ ∧
      bitValue w' 1 = (s.results 1).or (bitValue meaningDemo.final 1) := by
  obtain ⟨C, hC, hL⟩ := meaningDemo_shows
  obtain ⟨C', hC', hLC⟩ := meaningDemo_showsC
  cases hC.symm.trans hC'
  have ho : C.ops = [0, 1, 2, 3] := by
    have := meaningDemo_ops.1
    rw [opsOf, hC] at this
    exact this
  obtain ⟨P, w1, e⟩ : ∃ P w1, toQir uniqDemo 0 false meaningDemo.final = (.ok P, w1) := by
    have := meaningDemo_compiles
    cases h : toQir uniqDemo 0 false meaningDemo.final with
    | mk r w1 =>
      rw [h] at this
      cases r with
      | error => cases this
      | ok P => exact ⟨P, w1, rfl⟩
  obtain ⟨x, hx⟩ := meaningDemo_reads
  have hnames : ∀ k ∈ meaningDemo.final.classes, k.kind = .measurement → k.name = "Measurement" := by decide +kernel
  obtain ⟨f, s, mem, recs, w', rfl, g2, g3, g4, g5⟩ := C85_partial (fun e he => he) meaningDemo_reach hC (.inl meaningDemo_ops.2) hL hLC (by decide) (by decide)
    (by decide) (by decide) (ho ▸ hx) (by simp [meaningDemoOps, GoodOperands, arity])
    (fun o _ op k _ hk => hnames k (mem_of_get? hk)) e u hu records
  exact ⟨f, w1, s, mem, recs, w', e, g2, g3, g4, g5 1 1 rfl⟩

/-- A program with a measurement before a gate on another qubit. -/
def programMeaningDemo : List (List (LInstr ℝ)) :=
  [[.call "__quantum__qis__h__body" [.qubit 0], .call "__quantum__qis__mz__body" [.qubit 0, .result 1], .call "__quantum__qis__ry__body" [.dbl 3, .qubit 1],
    .ret]]

/-- `C86_partial` for the demo program. -/
example (u : Nat → ℝ) (hu : ∀ k, 0 ≤ u k ∧ u k < 1) (records : Nat → Record) :
    ∃ s : QirState 2, QirExec u (qisCalls programMeaningDemo) (QirState.start 2) s ∧
    ∃ (c : Nat) (w1 : World ℝ) (mem : List ℂ) (recs : Nat → Record) (w' : World ℝ), fromQir libQirDemo [programMeaningDemo] meaningDemo.final = (.ok c, w1) ∧
      simulateCirc u c false records w1 = (.ok (some (mem, recs)), w') ∧ Stores false mem s.ψ := by
  have h1 : "__qis__".toList <:+: "__quantum__qis__mz__body".toList := by decide +kernel
  have h2 : "__qis__".toList <:+: "__quantum__qis__h__body".toList := by decide +kernel
  have h3 : "__qis__".toList <:+: "__quantum__qis__ry__body".toList := by decide +kernel
  have hq : qisCalls programMeaningDemo = [("__quantum__qis__h__body", [.qubit 0]), ("__quantum__qis__mz__body", [.qubit 0, .result 1]),
      ("__quantum__qis__ry__body", [.dbl 3, .qubit 1])] := by
    simp only [qisCalls, programMeaningDemo, List.flatten_cons, List.flatten_nil, List.append_nil, List.takeWhile, notRet, List.filterMap_cons, qisCall,
      if_pos h1, if_pos h2, if_pos h3, List.filterMap_nil]
  obtain ⟨s, hx⟩ : ∃ s : QirState 2, QirExec u (qisCalls programMeaningDemo) (QirState.start 2) s := by
    rw [hq]
    exact ⟨_, .cons (.gate (.h 0)) (.cons (.measure (t := 0)) (.cons (.gate (.ry 3 1)) .nil))⟩
  have hp : MeasuredLast (qisCalls programMeaningDemo) := by
    rw [hq]
    simp [MeasuredLast, isMz, qubitArgs]
  obtain ⟨c, w1, C, LC, mem, recs, w', g1, -, -, g4, g5, -⟩ := C86_partial (fun e he => he) meaningDemo_reach meaningDemo_ops.2 meaningDemo_library hu hx hp
    (by rw [hq]; rfl) (by norm_num) (by norm_num) records
  exact ⟨s, hx, c, w1, mem, recs, w', g1, g4, g5⟩

end DG.Props
