import Verif.Props.QirInto
import Verif.Proofs.LoadCtx

/-!
# Property C100: loading QIR, whether it succeeds or not, keeps what was there

`Qir.loadInto lib c P` is `load_qir_bitcode(P, circuit=c)`, `fromQir lib P` is `Circuit.from_qir(P)`. `Spec/Loads.lean` defines programs with loads. A program may
catch the exceptions of loads that fail, and go on.
-/

namespace DG.Props
open Spec
variable {K : Type} [DecidableEq K] [Zero K]

/-- C100: whatever programs load, with or without success, leads to no states but those that calls of the API lead to. So everything that holds in all states
that calls of the API lead to (invariants of circuits, registers, operations and contexts) also holds in programs that load QIR. -/
theorem C100_reach {A : Call K → Prop} (hA : ∀ e, BuildCall e → A e) {lib : String → Nat} {w : World K} (h : LReach A lib w) : Reach A w := by
  obtain ⟨p, h1, h2⟩ := h
  obtain ⟨q, h3, h4⟩ := visits_loads hA lib p h1 {} w h2
  exact ⟨q, h3, h4⟩

/-- C100: for every QIR program and every outcome of loading it into a circuit: all other circuits are what they were, the operations that the circuit had are
its first operations, and all operations, qubits and bits that existed are what they were. -/
theorem C100_kept_partial {A : Call K → Prop} (hA : ∀ e, BuildCall e → A e) {lib : String → Nat} {w : World K} (h : LReach A lib w) (c : Nat) (P : QirProgram K)
    {r : Except Err Unit} {w' : World K} (e : Qir.loadInto lib c P w = (r, w')) :
    (∀ d : Nat, d ≠ c → w'.circs[d]? = w.circs[d]?) ∧ opsOf w c <+: opsOf w' c ∧
      (∀ (o : Nat) op, w.ops[o]? = some op → w'.ops[o]? = some op) ∧ (∀ (q : Nat) Q, w.qubits[q]? = some Q → w'.qubits[q]? = some Q) ∧
      ∀ (b : Nat) B, w.bits[b]? = some B → w'.bits[b]? = some B := by
  have hk := (kept_loadInto (c := c) (w0 := w) lib P w ⟨Refs.reach (C100_reach hA h), .refl c w⟩).2
  rw [e] at hk
  have pre : ∀ {α : Type} {l l' : List α} (_ : l <+: l') (i : Nat) (a : α), l[i]? = some a → l'[i]? = some a := by
    rintro α l _ ⟨t, rfl⟩ i a hi
    rw [List.getElem?_append_left (List.getElem?_eq_some_iff.1 hi).1]; exact hi
  exact ⟨hk.other, hk.front, pre hk.ops, pre hk.qubits, pre hk.bits⟩

/-- C100: for every QIR program and every outcome of `Circuit.from_qir`: all circuits, operations, qubits and bits that existed are what they were. -/
theorem C100_new {A : Call K → Prop} (hA : ∀ e, BuildCall e → A e) {lib : String → Nat} {w : World K} (h : LReach A lib w) (P : QirProgram K)
    {r : Except Err Nat} {w' : World K} (e : fromQir lib P w = (r, w')) :
    (∀ (d : Nat) C, w.circs[d]? = some C → w'.circs[d]? = some C) ∧ (∀ (o : Nat) op, w.ops[o]? = some op → w'.ops[o]? = some op) ∧
      (∀ (q : Nat) Q, w.qubits[q]? = some Q → w'.qubits[q]? = some Q) ∧ ∀ (b : Nat) B, w.bits[b]? = some B → w'.bits[b]? = some B := by
  have hr := Refs.reach (C100_reach hA h)
  have hn : newCirc false none none w = (.ok w.circs.length, { w with circs := w.circs ++ [{ param := false }] }) := rfl
  have hr1 : Refs (newCirc false none none w).2 := Refs.prims.allocCirc false w hr
  rw [hn] at hr1
  have hk := (kept_loadInto (c := w.circs.length) (w0 := { w with circs := w.circs ++ [{ param := false }] }) lib P _ ⟨hr1, .refl _ _⟩).2
  have h2 : w' = (Qir.loadInto lib w.circs.length P { w with circs := w.circs ++ [{ param := false }] }).2 := by
    unfold fromQir at e
    rw [bind_def, hn] at e
    dsimp only at e
    rw [bind_def] at e
    generalize Qir.loadInto lib w.circs.length P _ = z at e ⊢
    obtain ⟨_ | _, _⟩ := z <;> cases e <;> rfl
  rw [← h2] at hk
  have pre : ∀ {α : Type} {l l' : List α} (_ : l <+: l') (i : Nat) (a : α), l[i]? = some a → l'[i]? = some a := by
    rintro α l _ ⟨t, rfl⟩ i a hi
    rw [List.getElem?_append_left (List.getElem?_eq_some_iff.1 hi).1]; exact hi
  refine ⟨fun d C hC => ?_, pre hk.ops, pre hk.qubits, pre hk.bits⟩
  have hd := (List.getElem?_eq_some_iff.1 hC).1
  rw [hk.other d (by omega)]
  exact pre (List.prefix_append _ _) d C hC

/-- C100: for programs that set no bit: after loading, the context that was active before is active, and if none was, then none is. -/
theorem C100_context {A : Call K → Prop} (hA : ∀ e, BuildCall e → A e) (hb : ∀ e, A e → SetsNoBit e) {lib : String → Nat} {w : World K} (h : LReach A lib w)
    (c : Nat) (P : QirProgram K) : (Qir.loadInto lib c P w).2.active = w.active ∧ (fromQir lib P w).2.active = w.active := by
  have hr := C100_reach hA h
  have h1 := Refs.reach hr
  have h2 := QInv.any hr
  have h3 := CInv.reach (s := false) (hr.imp fun e he => noBits_false e (hb e he))
  obtain ⟨p, p1, p2⟩ := Qir.done_loadInto lib c P w
  obtain ⟨q, q1, q2⟩ := Qir.done_fromQir lib P w
  have := (p.active_run (p1.imp fun e he => hb e (hA e he)) h1 h2 h3)
  have h' := (q.active_run (q1.imp fun e he => hb e (hA e he)) h1 h2 h3)
  rw [p2] at this
  rw [q2] at h'
  exact ⟨this, h'⟩

/-! ## A load that fails -/

/-- A program whose last call is that of an unknown function. -/
def badQirDemo : QirProgram Int :=
  mainProgram [.call "__quantum__qis__x__body" [.qubit 0], .call "__quantum__qis__cz__body" [.qubit 2, .qubit 1], .call "__quantum__qis__foo__body" [.qubit 3]] [(0, 0)]

/-- The programs of `Prog` are programs with loads. -/
def LProg.of : Prog K → LProg K
  | .skip => .skip
  | .call e => .call e
  | .seq p q => .seq (LProg.of p) (LProg.of q)
  | .withCtx c p => .withCtx c (LProg.of p)
  | .withFreeze p => .withFreeze (LProg.of p)
  | .attempt p => .attempt (LProg.of p)

/-- Two loads: one that fails, and one that does not; and an operation in a context after that. -/
def loadsDemo : LProg Int :=
  .seq (LProg.of existingQirDemo) <|
  .seq (.attempt (.load 0 badQirDemo)) <|
  .seq (.loadNew programQirDemo) <|
  .seq (.call (.unlock 0)) <|
  .withCtx 0 (.call (.construct 0 none (.qubits (some [0]))))

/-- The demo meets the hypotheses of the theorems above. -/
theorem loadsDemo_reach : LReach SetsNoBit libQirDemo (loadsDemo.run libQirDemo {}).2 := by
  refine ⟨loadsDemo, ?_, loadsDemo.visits_run libQirDemo {}⟩
  simp [loadsDemo, LProg.of, existingQirDemo, libraryQirDemo, LProg.All, SetsNoBit]

example : ∀ e : Call Int, BuildCall e → SetsNoBit e := fun e => by cases e <;> simp [BuildCall, SetsNoBit]

example : (loadsDemo.run libQirDemo {}).1 = .ok () ∧
    viewQirDemo 0 (loadsDemo.run libQirDemo {}).2 = some (3, 1, [some ⟨"CX", [], some [1, 0], none, false⟩, some ⟨"Measurement", [], some [1], some [0], false⟩,
      some ⟨"X", [], some [0], none, false⟩, some ⟨"CZ", [], some [2, 1], none, false⟩, some ⟨"X", [], some [0], none, false⟩]) ∧
    loadedQirDemo programQirDemo existingQirDemo.final = .ok (viewQirDemo 1 (loadsDemo.run libQirDemo {}).2) := by
  refine ⟨?_, ?_, ?_⟩ <;> decide +kernel

/-- What is violated: a load that fails does not leave the circuit as it was. The gates before the call that cannot be loaded stay in the circuit, with the
qubits that were added for them, and the measurements are missing. -/
theorem C100_violated : ∃ (lib : String → Nat) (w : World Int) (P : QirProgram Int) (e : Err), Reach SetsNoBit w ∧ w.active = none ∧
    (Qir.loadInto lib 0 P w).1 = .error e ∧ (opsOf w 0).length = 2 ∧ (opsOf (Qir.loadInto lib 0 P w).2 0).length = 4 ∧
    w.qubits.length = 2 ∧ (Qir.loadInto lib 0 P w).2.qubits.length = 3 :=
  ⟨libQirDemo, existingQirDemo.final, badQirDemo, .typeError, existingQirDemo_reach.imp fun _ he => he.1, by decide +kernel, by decide +kernel, by decide +kernel,
    by decide +kernel, by decide +kernel, by decide +kernel⟩

end DG.Props
