import Verif.Props.Qir

/-!
# Property C87: loading QIR into an existing circuit

`Qir.loadInto lib c P` is `load_qir_string(P, circuit)` (and `load_qir_bitcode`) for the circuit with number `c`. See `Spec/Qir.lean` for the vocabulary.
-/

namespace DG.Props
open Spec
variable {K : Type} [DecidableEq K] [Zero K]

/-- The circuit before loading. -/
theorem existing_state {A : Call K → Prop} (hA : ∀ e, A e → SetsNoBit e ∧ KeepsRegisters e) {w : World K} (h : Reach A w) (ha : w.active = none) {c : Nat}
    {C : Circ} (hC : w.circs[c]? = some C) (hp : C.param = false) (hz : ∀ X ∈ w.ctxs, X.circuit = c → X.frozen = false) {L LC : Layout} (hL : Shows C.q L)
    (hLC : Shows C.c LC) (h1 : L.length ≤ 1) (h2 : LC.length ≤ 1) (lib : String → Nat) :
    Qir.State lib ⟨C.ops, L, LC⟩ w w c [] ([], []) C L LC := by
  obtain ⟨L', q1, q2, -⟩ := reach_q_strict (fun e he => (hA e he).2) h hC
  obtain ⟨LC', c1, c2⟩ := reach_c_strict hA h hC
  cases Bank.shows_unique hL q1.shows
  cases Bank.shows_unique hLC c1.shows
  refine ⟨⟨Refs.reach h, QInv.any h, CInv.reach (s := false) (h.imp fun e he => noBits_false e (hA e he).1), hC, hp, q1, c1, q2, c2, h1, h2, ?_⟩, ha,
    ⟨[], by simp, .nil⟩, ?_, List.prefix_rfl, rfl, rfl, List.prefix_rfl, .refl _, fun _ _ => rfl⟩
  · intro x hx
    obtain ⟨X, hX, e⟩ := (Refs.reach h).ctx c C x hC hx
    have := hz X (mem_of_get? hX) e
    rw [hX]
    obtain ⟨d, f⟩ := X
    cases e; cases this; rfl
  · simp [needed, gateCalls]

/-- C87, for circuits (not parametric ones) with at most one register of each kind, outside of contexts: if a program is loaded into a circuit, then the
operations that the circuit had stay, followed by one gate for each call of a gate, in order, on the qubits with the given indices in the circuit. The qubits
and bits that the circuit had keep their indices, and only as many are added as are needed. All measurements come last, as one operation. Nothing else is changed.
Missing: circuits with more registers, see `C87_registers_violated`; the order of gates and measurements, see `C68_violated`; parametric circuits. -/
theorem C87_partial {A : Call K → Prop} (hA : ∀ e, A e → SetsNoBit e ∧ KeepsRegisters e) {w : World K} (h : Reach A w) (ha : w.active = none) {c : Nat}
    {C : Circ} (hC : w.circs[c]? = some C) (hp : C.param = false) (hz : ∀ X ∈ w.ctxs, X.circuit = c → X.frozen = false) {L LC : Layout} (hL : Shows C.q L)
    (hLC : Shows C.c LC) (h1 : L.length ≤ 1) (h2 : LC.length ≤ 1) {lib : String → Nat} {P : QirProgram K} {w' : World K}
    (e : Qir.loadInto lib c P w = (.ok (), w')) :
    LoadedInto lib w' c C.ops L LC (P.flatMap qisCalls) ∧ w.ops <+: w'.ops ∧ (∀ d, d ≠ c → w'.circs[d]? = w.circs[d]?) ∧ w'.active = none := by
  obtain ⟨g1, g2, g3, g4, -⟩ := loadInto_loaded (existing_state hA h ha hC hp hz hL hLC h1 h2 lib) e
  exact ⟨g1, g2, g3, g4⟩

/-- C87: a program of gates of the base profile and measurements is loaded into such a circuit if every measured qubit is in the circuit, or below a qubit that
a gate acts on; otherwise `IndexError` is raised. -/
theorem C87_base {A : Call K → Prop} (hA : ∀ e, A e → SetsNoBit e ∧ KeepsRegisters e) {w : World K} (h : Reach A w) (ha : w.active = none) {c : Nat}
    {C : Circ} (hC : w.circs[c]? = some C) (hp : C.param = false) (hz : ∀ X ∈ w.ctxs, X.circuit = c → X.frozen = false) {L LC : Layout} (hL : Shows C.q L)
    (hLC : Shows C.c LC) (h1 : L.length ≤ 1) (h2 : LC.length ≤ 1) {lib : String → Nat} (hl : HasLibrary lib w) {P : QirProgram K}
    (hb : ∀ call ∈ P.flatMap qisCalls, BaseProfile call) :
    ((∀ i ∈ (measured (P.flatMap qisCalls)).1, i < L.items.length ∨ i < needed (P.flatMap qisCalls)) → ∃ w', Qir.loadInto lib c P w = (.ok (), w')) ∧
    ((∃ i ∈ (measured (P.flatMap qisCalls)).1, L.items.length ≤ i ∧ needed (P.flatMap qisCalls) ≤ i) →
      ∃ w', Qir.loadInto lib c P w = (.error .indexError, w')) := by
  have := loadInto_base (existing_state hA h ha hC hp hz hL hLC h1 h2 lib) hl hb
  dsimp only at this
  refine ⟨fun hi => ?_, fun ⟨i, k1, k2, k3⟩ => ?_⟩
  · rw [if_pos fun i k => by have := hi i k; omega] at this
    obtain ⟨w', e, -⟩ := this
    exact ⟨w', e⟩
  · rwa [if_neg fun hi => by have := hi i k1; omega] at this

/-- The circuit with number `c` after a program has been loaded into it. -/
def intoQirDemo (c : Nat) (P : QirProgram Int) (w : World Int) : Except Err (Option (Nat × Nat × List (Option OpQirDemo))) :=
  match Qir.loadInto libQirDemo c P w with
  | (.ok _, w') => .ok (viewQirDemo c w')
  | (.error e, _) => .error e

/-- A circuit with two qubits and one bit, a gate and a measurement. -/
def existingQirDemo : Prog Int :=
  libraryQirDemo <|
  .seq (.call (.newCirc false (some 2) (some 1))) <|
  .withCtx 0 <|
  .seq (.call (.construct 9 none (.qubits (some [1, 0])))) <|
  .seq (.call (.construct 11 none (.qubits (some [1])))) <|
  .call (.measureInto 1 [0])

/-- The demo meets the hypotheses of `C87_partial` and `C87_base`. -/
theorem existingQirDemo_reach : Reach (fun e => SetsNoBit e ∧ KeepsRegisters e) existingQirDemo.final :=
  ⟨existingQirDemo, by simp [existingQirDemo, libraryQirDemo, Prog.All, SetsNoBit, KeepsRegisters], existingQirDemo.visits_run _⟩

example : existingQirDemo.final.active = none ∧ existingQirDemo.final.circs[0]?.map Circ.param = some false ∧
    ∀ X ∈ existingQirDemo.final.ctxs, X.circuit = 0 → X.frozen = false := by decide +kernel

example : ∃ C, existingQirDemo.final.circs[0]? = some C ∧ Shows C.q [(.str "qreg0", [0, 1])] := shows_circ Circ.q (by decide +kernel)

example : ∃ C, existingQirDemo.final.circs[0]? = some C ∧ Shows C.c [(.str "creg0", [0])] := shows_circ Circ.c (by decide +kernel)

/-- One qubit and one bit are added. -/
example : intoQirDemo 0 programQirDemo existingQirDemo.final = .ok (some (3, 2,
    [some ⟨"CX", [], some [1, 0], none, false⟩, some ⟨"Measurement", [], some [1], some [0], false⟩,
      some ⟨"RY", [.num 5], some [2], none, false⟩, some ⟨"CZ", [], some [2, 0], none, false⟩, some ⟨"Measurement", [], some [0], some [1], false⟩])) := by
  decide +kernel

/-- A program that measures a qubit that no gate acts on, which can be loaded because the circuit has it. -/
example : intoQirDemo 0 (mainProgram [] [(1, 0)]) existingQirDemo.final = .ok (some (2, 1,
    [some ⟨"CX", [], some [1, 0], none, false⟩, some ⟨"Measurement", [], some [1], some [0], false⟩, some ⟨"Measurement", [], some [1], some [0], false⟩])) := by
  decide +kernel

/-- A circuit with two registers of one qubit. -/
def registersQirDemo : Prog Int :=
  libraryQirDemo <|
  .seq (.call (.newCirc false (some 1) none)) <|
  .call (.addQReg 0 1 none)

/-- C87 is violated if the circuit has two registers: missing qubits are added to the first register, so that the indices of the other qubits change while the
program is loaded. Here, two calls that act on qubit 1 give gates on different qubits, and the call that acts on qubit 2 gives a gate on the same qubit as the
first one that acts on qubit 1. -/
theorem C87_registers_violated :
    intoQirDemo 0 (mainProgram [.call "__quantum__qis__x__body" [.qubit 1], .call "__quantum__qis__y__body" [.qubit 2], .call "__quantum__qis__z__body" [.qubit 1]] [])
      registersQirDemo.final = .ok (some (3, 0,
        [some ⟨"X", [], some [2], none, false⟩, some ⟨"Y", [], some [2], none, false⟩, some ⟨"Z", [], some [1], none, false⟩])) := by
  decide +kernel

/-- A program without calls: it measures nothing, and the circuit is not changed. -/
example : intoQirDemo 0 (mainProgram [] []) existingQirDemo.final = .ok (some (2, 1,
    [some ⟨"CX", [], some [1, 0], none, false⟩, some ⟨"Measurement", [], some [1], some [0], false⟩])) := by decide +kernel

end DG.Props
