import Verif.Proofs.CircuitRegs

/-!
# Properties C18-C24: the registers and operations of circuits

`Reach A w`: the state `w` occurs in the execution of a program all of whose calls satisfy `A` (between any two calls, also inside of
`with` blocks and after exceptions). `Shows b L`: iterating over the registers one sees the labels and contents `L`.
-/

namespace DG.Props
open Spec
variable {K : Type} [DecidableEq K] [Zero K]

/-! ## C18 -/

/-- C18 for qubits, for programs that never call `reset(keep_registers=False)`, and for circuits that have at least one register.
Missing: circuits without registers after `reset(keep_registers=False)`, see the violation below. -/
theorem C18_qubits_partial {A : Call K → Prop} {w : World K} (h : Reach A w) {c : Nat} {C : Circ} (hC : w.circs[c]? = some C) :
    ∃ L, Shows C.q L ∧ (((∀ e, A e → KeepsRegisters e) ∨ L ≠ []) →
      seen (qubitsOf c w).1 = .ok (L.items.map Lbl.obj) ∧ count (qubitsOf c w).1 = .ok L.items.length) := by
  obtain ⟨L, h1, h2, -, -⟩ := reach_q h hC
  refine ⟨L, h1.shows, ?_⟩
  rintro (hA | hL)
  · obtain ⟨L', g1, g2, -⟩ := reach_q_strict hA h hC
    rw [Bank.shows_unique h1.shows g1.shows]
    exact seen_qubits hC g1 g2
  · exact seen_qubits hC h1 (h2 hL)

/-- C18 for bits, if moreover no bit is ever set. -/
theorem C18_bits_partial {A : Call K → Prop} (hA : ∀ e, A e → SetsNoBit e) {w : World K} (h : Reach A w) {c : Nat} {C : Circ}
    (hC : w.circs[c]? = some C) :
    ∃ L, Shows C.c L ∧ (((∀ e, A e → KeepsRegisters e) ∨ L ≠ []) →
      seen (bitsOf c w).1 = .ok (L.items.map Lbl.obj) ∧ count (bitsOf c w).1 = .ok L.items.length) := by
  obtain ⟨hev, -, L, h1, h2, -⟩ := reach_c hA h hC
  refine ⟨L, h1.shows, ?_⟩
  rintro (hA' | hL)
  · obtain ⟨L', g1, g2⟩ := reach_c_strict (fun e he => ⟨hA e he, hA' e he⟩) h hC
    rw [Bank.shows_unique h1.shows g1.shows]
    exact seen_bits hC hev g1 g2
  · exact seen_bits hC hev h1 (h2 hL)

/-- Reading `circuit.qubits` never raises. -/
theorem C18_reads {A : Call K → Prop} {w : World K} (h : Reach A w) {c : Nat} {C : Circ} (hC : w.circs[c]? = some C) :
    ∃ items, seen (qubitsOf c w).1 = .ok items := by
  obtain ⟨r, items, h1, h2⟩ := reach_rep h hC
  exact ⟨items, by rw [h1]; exact h2.iter_eq⟩

/-- A program: a circuit with two quantum registers and a classical one, and an operation. -/
def circDemo : Prog Int :=
  .seq (.call (.newClass ⟨"X", .plain, ⟨false, some 1, none, none⟩, none⟩)) <|
  .seq (.call (.newCirc false (some 2) (some 1))) <|
  .seq (.call (.addQReg 0 1 (some (.str "anc")))) <|
  .seq (.call (.newQubit (.str "a"))) <|
  .seq (.call (.addQubit 0 (.item 3) none)) <|
  .withCtx 0 (.call (.construct 0 none (.qubits (some [2]))))

/-- The hypotheses are met by the final state of `circDemo`, whose circuit has two quantum registers. -/
theorem circDemo_reach : Reach (fun e => KeepsRegisters e ∧ KeepsOperands e ∧ SetsNoBit e) circDemo.final :=
  ⟨circDemo, by simp [circDemo, Prog.All, KeepsRegisters, KeepsOperands, SetsNoBit], circDemo.visits_run _⟩

theorem circDemo_shows : ∃ C, circDemo.final.circs[0]? = some C ∧ Shows C.q [(.str "qreg0", [0, 1, 3]), (.str "anc", [2])] :=
  shows_circ Circ.q (by decide +kernel)

example : (circDemo.run {}).1 = .ok () := by decide +kernel

example : seen (qubitsOf 0 circDemo.final).1 = .ok [.obj 0, .obj 1, .obj 3, .obj 2] := by decide +kernel

/-- Reading the qubits, `reset(keep_registers=False)`. -/
def dropDemo : Prog Int :=
  .seq (.call (.newCirc false (some 1) none)) <| .seq (.call (.readQubits 0)) <| .call (.reset 0 false)

/-- C18 is violated: after `reset(keep_registers=False)` there are no registers, but `circuit.qubits` still has the old qubit. -/
theorem C18_qubits_violated : (∃ C, dropDemo.final.circs[0]? = some C ∧ Shows C.q []) ∧ seen (qubitsOf 0 dropDemo.final).1 = .ok [.obj 0] :=
  ⟨shows_circ Circ.q (by decide +kernel), by decide +kernel⟩

/-- Two bits, the second one set to 1. -/
def bitDemo : Prog Int := .seq (.call (.newCirc false none (some 2))) <| .call (.setBit 1 true false)

/-- C18 is violated: a set bit whose value is its position is replaced by a number in `circuit.bits`. -/
theorem C18_bits_violated : (∃ C, bitDemo.final.circs[0]? = some C ∧ Shows C.c [(.str "creg0", [0, 1])]) ∧
    seen (bitsOf 0 bitDemo.final).1 = .ok [.obj 0, .int 1] :=
  ⟨shows_circ Circ.c (by decide +kernel), by decide +kernel⟩

/-! ## C19 -/

/-- C19: in every state the registers of a circuit contain no qubit twice. -/
theorem C19_unique {A : Call K → Prop} {w : World K} (h : Reach A w) {c : Nat} {C : Circ} (hC : w.circs[c]? = some C) :
    ∃ L, Shows C.q L ∧ L.items.Nodup := by
  obtain ⟨L, h1, -⟩ := reach_q h hC
  exact ⟨L, h1.shows, h1.nodup⟩

/-- C19: adding a qubit that is there already raises `ValueError`, to whichever register it is added; the items stay the same. -/
theorem C19_raises {A : Call K → Prop} {w : World K} (h : Reach A w) {c : Nat} {C : Circ} (hC : w.circs[c]? = some C) {L : Layout}
    (hL : Shows C.q L) {q : Nat} (hq : q ∈ L.items) (label : Option RLabel) :
    (addQubit c (.item q) label w).1 = .error .valueError ∧
    ∃ C' L', (addQubit c (.item q) label w).2.circs[c]? = some C' ∧ Shows C'.q L' ∧ L'.items = L.items := by
  obtain ⟨L', h1, h2, h3, -⟩ := reach_q h hC
  cases Bank.shows_unique h1.shows hL
  obtain ⟨C', w', g1, g2, -, g4⟩ := (addQubit_spec hC h1 h2 h3 label).1 q hq
  rw [g1]
  exact ⟨rfl, C', _, g2, g4.shows, Bank.withRegister_items _ _ _⟩

/-- C19: a new register contains qubits that exist nowhere else. -/
theorem C19_register {A : Call K → Prop} {w : World K} (h : Reach A w) {c : Nat} {C : Circ} (hC : w.circs[c]? = some C) {L : Layout}
    (hL : Shows C.q L) (n : Int) (l : RLabel) :
    (l ∈ L.labels → addQReg c n (some l) w = (.error .valueError, w)) ∧
    (l ∉ L.labels → (addQReg c n (some l) w).1 = .ok () ∧ ∃ C' ks, (addQReg c n (some l) w).2.circs[c]? = some C' ∧
      Shows C'.q (L ++ [(l, ks)]) ∧ ks.length = n.toNat ∧ ∀ k ∈ ks, w.qubits.length ≤ k) := by
  obtain ⟨L', h1, h2, h3, -⟩ := reach_q h hC
  cases Bank.shows_unique h1.shows hL
  rcases addQReg_spec hC h1 h3 n (some l) with ⟨g1, g2⟩ | ⟨g1, C', w', g2, g3, g4, -⟩
  · exact ⟨fun _ => g2, fun hn => absurd g1 hn⟩
  · refine ⟨fun hm => absurd hm g1, fun _ => ?_⟩
    rw [g2]
    refine ⟨rfl, C', _, g3, g4.shows, by simp, ?_⟩
    intro k hk
    simp at hk
    omega

example : ∃ C, circDemo.final.circs[0]? = some C ∧ ∃ L, Shows C.q L ∧ 2 ∈ L.items ∧ .str "b" ∉ L.labels := by
  obtain ⟨C, h1, h2⟩ := circDemo_shows
  exact ⟨C, h1, _, h2, by decide, by decide⟩

/-! ## C20 -/

/-- C20: `find_qubit` returns the register (by label or by position) and the index at which the qubit is stored, and raises
`ValueError` if and only if it is in no register. -/
theorem C20_find {A : Call K → Prop} {w : World K} (h : Reach A w) {c : Nat} {C : Circ} (hC : w.circs[c]? = some C) {L : Layout}
    (hL : Shows C.q L) (q : Nat) :
    (q ∈ L.items → ∃ (j : Nat) (l : RLabel) (ks : List Nat) (i : Nat), L[j]? = some (l, ks) ∧ ks[i]? = some q ∧
      (findQubit c q true w).1 = .ok (.inl l, (i : Int)) ∧ (findQubit c q false w).1 = .ok (.inr j, (i : Int))) ∧
    (q ∉ L.items → (findQubit c q true w).1 = .error .valueError ∧ (findQubit c q false w).1 = .error .valueError) := by
  obtain ⟨L', h1, -⟩ := reach_q h hC
  cases Bank.shows_unique h1.shows hL
  unfold findQubit
  simp only [hC]
  exact find_ok h1 q

/-- C20: `get_qubit(label)` returns the first qubit with that label in register order, or all of them with `return_all`. -/
theorem C20_get {A : Call K → Prop} {w : World K} (h : Reach A w) {c : Nat} {C : Circ} (hC : w.circs[c]? = some C) {L : Layout}
    (hL : Shows C.q L) (label : RLabel) :
    (getQubit c label none false w).1 = (match L.items.find? (fun k => w.qubits[k]? = some label) with
      | some k => .ok (.one k)
      | none => .error .valueError) ∧
    (getQubit c label none true w).1 = (if L.items.filter (fun k => w.qubits[k]? = some label) = [] then .error .valueError
      else .ok (.many (L.items.filter fun k => w.qubits[k]? = some label))) := by
  obtain ⟨L', h1, -⟩ := reach_q h hC
  cases Bank.shows_unique h1.shows hL
  unfold getQubit
  simp only [hC]
  exact get_ok h1 _ label none (by simp)

/-- C20: the same restricted to the register with a given (truthy) label; an unknown label is a `KeyError`. -/
theorem C20_get_in {A : Call K → Prop} {w : World K} (h : Reach A w) {c : Nat} {C : Circ} (hC : w.circs[c]? = some C) {L : Layout}
    (hL : Shows C.q L) (label : RLabel) {l : RLabel} (hl : l.truthy = true) :
    (∀ ks, (l, ks) ∈ L → (getQubit c label (some l) false w).1 = (match ks.find? (fun k => w.qubits[k]? = some label) with
      | some k => .ok (.one k)
      | none => .error .valueError) ∧
      (getQubit c label (some l) true w).1 = (if ks.filter (fun k => w.qubits[k]? = some label) = [] then .error .valueError
        else .ok (.many (ks.filter fun k => w.qubits[k]? = some label)))) ∧
    (l ∉ L.labels → ∀ all, (getQubit c label (some l) all w).1 = .error .keyError) := by
  obtain ⟨L', h1, -⟩ := reach_q h hC
  cases Bank.shows_unique h1.shows hL
  unfold getQubit
  simp only [hC]
  exact get_in_ok h1 _ label hl

/-- C20 for bits, as long as no bit is set. -/
theorem C20_find_bit {A : Call K → Prop} (hA : ∀ e, A e → SetsNoBit e) {w : World K} (h : Reach A w) {c : Nat} {C : Circ}
    (hC : w.circs[c]? = some C) {L : Layout} (hL : Shows C.c L) (b : Nat) :
    (b ∈ L.items → ∃ (j : Nat) (l : RLabel) (ks : List Nat) (i : Nat), L[j]? = some (l, ks) ∧ ks[i]? = some b ∧
      (findBit c b true w).1 = .ok (.inl l, (i : Int)) ∧ (findBit c b false w).1 = .ok (.inr j, (i : Int))) ∧
    (b ∉ L.items → (findBit c b true w).1 = .error .valueError ∧ (findBit c b false w).1 = .error .valueError) := by
  obtain ⟨-, -, L', h1, -⟩ := reach_c hA h hC
  cases Bank.shows_unique h1.shows hL
  unfold findBit
  simp only [hC]
  exact find_ok h1 b

/-- C20 for bits, as long as no bit is set. -/
theorem C20_get_bit {A : Call K → Prop} (hA : ∀ e, A e → SetsNoBit e) {w : World K} (h : Reach A w) {c : Nat} {C : Circ}
    (hC : w.circs[c]? = some C) {L : Layout} (hL : Shows C.c L) (label : RLabel) :
    (getBit c label none false w).1 = (match L.items.find? (fun k => (w.bits[k]?).map BitObj.label = some label) with
      | some k => .ok (.one k)
      | none => .error .valueError) ∧
    (getBit c label none true w).1 = (if L.items.filter (fun k => (w.bits[k]?).map BitObj.label = some label) = [] then .error .valueError
      else .ok (.many (L.items.filter fun k => (w.bits[k]?).map BitObj.label = some label))) := by
  obtain ⟨-, -, L', h1, -⟩ := reach_c hA h hC
  cases Bank.shows_unique h1.shows hL
  unfold getBit
  simp only [hC]
  exact get_ok h1 _ label none (by simp)

/-- C20 is violated for falsy register labels: `get_qubit("0", qreg_label=0)` also searches the other registers. -/
theorem C20_falsy_violated : ∃ p : Prog Int, (∃ C, p.final.circs[0]? = some C ∧ Shows C.q [(.str "qreg0", [0]), (.int 0, [1])]) ∧
    (getQubit 0 (.str "0") (some (.int 0)) false p.final).1 = .ok (.one 0) :=
  ⟨.seq (.call (.newCirc false (some 1) none)) (.call (.addQReg 0 1 (some (.int 0)))),
    shows_circ Circ.q (by decide +kernel), by decide +kernel⟩

example : (findQubit 0 2 true circDemo.final).1 = .ok (.inl (.str "anc"), 0) ∧ (findQubit 0 3 false circDemo.final).1 = .ok (.inr 0, 2) ∧
    (getQubit 0 (.str "a") none false circDemo.final).1 = .ok (.one 3) := by decide +kernel

/-! ## C21 -/

/-- C21 for added registers and for qubits added to the last register (or to a new register); missing: qubits added to another register,
which move the qubits of the following registers, see below. -/
theorem C21_partial {A : Call K → Prop} {w : World K} (h : Reach A w) {c : Nat} {C : Circ} (hC : w.circs[c]? = some C) {L : Layout}
    (hL : Shows C.q L) :
    (∀ n label w', addQReg c n label w = (.ok (), w') → ∃ C' L' new, w'.circs[c]? = some C' ∧ Shows C'.q L' ∧ L'.items = L.items ++ new ∧
      seen (qubitsOf c w').1 = .ok (L'.items.map Lbl.obj)) ∧
    (∀ q label w', (∀ l, label = some l → l ∈ L.labels → L.labels.getLast? = some l) → (label = none → L.length ≤ 1) →
      addQubit c q label w = (.ok (), w') → ∃ C' L' new, w'.circs[c]? = some C' ∧ Shows C'.q L' ∧ L'.items = L.items ++ [new] ∧
      seen (qubitsOf c w').1 = .ok (L'.items.map Lbl.obj)) := by
  obtain ⟨L', h1, h2, h3, -⟩ := reach_q h hC
  cases Bank.shows_unique h1.shows hL
  constructor
  · intro n label w' hw'
    rcases addQReg_spec hC h1 h3 n label with ⟨g1, g2⟩ | ⟨g1, C', w'', g2, g3, g4, g5⟩
    · rw [g2] at hw'; cases hw'
    · rw [g2] at hw'; cases hw'
      refine ⟨C', _, _, g3, g4.shows, Bank.items_append _ _, (seen_qubits g3 g4 ?_).1⟩
      intro r hr; rw [g5] at hr; cases hr
  · intro q label w' hlast hnone hw'
    obtain ⟨C', k, g1, g2, g3, -⟩ := addQubit_inv hC h1 h2 h3 hw'
    refine ⟨C', _, k, g1, g2.shows, ?_, (seen_qubits g1 g2 ?_).1⟩
    · have hn := g2.labels
      rw [Bank.addTo_labels] at hn
      rw [addTo_last hn (withRegister_last "qreg" label hlast hnone), Bank.withRegister_items]
    · intro r hr; rw [g3] at hr; cases hr

example : ∃ C, circDemo.final.circs[0]? = some C ∧ ∃ L, Shows C.q L ∧ L.labels.getLast? = some (.str "anc") := by
  obtain ⟨C, h1, h2⟩ := circDemo_shows
  exact ⟨C, h1, _, h2, by decide⟩

/-- C21 in all cases: `add_qubit(q, label)` appends the qubit to the register with this label (a new one at the end, if there is none), and without
label to the first register (`qreg0`, if there is none). The registers before and after it stay as they are; so all qubits keep their indices if and
only if the registers after it are empty. -/
theorem C21_cases {A : Call K → Prop} {w : World K} (h : Reach A w) {c : Nat} {C : Circ} (hC : w.circs[c]? = some C) {L : Layout}
    (hL : Shows C.q L) {q : Given} {label : Option RLabel} {w' : World K} (hw' : addQubit c q label w = (.ok (), w')) :
    ∃ (C' : Circ) (before : Layout) (l : RLabel) (xs : List Nat) (k : Nat) (after : Layout), w'.circs[c]? = some C' ∧ Shows C'.q (before ++ (l, xs ++ [k]) :: after) ∧
      ((L = before ++ (l, xs) :: after ∧ (label = some l ∨ (label = none ∧ before = []))) ∨
       (L = before ∧ xs = [] ∧ after = [] ∧ ((label = some l ∧ l ∉ L.labels) ∨ (label = none ∧ L = [] ∧ l = .str "qreg0")))) ∧
      seen (qubitsOf c w').1 = .ok ((before.items ++ xs ++ k :: after.items).map Lbl.obj) ∧
      ((∀ (i q' : Nat), L.items[i]? = some q' → (before.items ++ xs ++ k :: after.items)[i]? = some q') ↔ after.items = []) := by
  obtain ⟨L', h1, h2, h3, -⟩ := reach_q h hC
  cases Bank.shows_unique h1.shows hL
  obtain ⟨C', k, g1, g2, g3, -⟩ := addQubit_inv hC h1 h2 h3 hw'
  obtain ⟨(A : Layout), l, xs, (B : Layout), e1, e2, e3⟩ := withRegister_parts L "qreg" label
  have hn := g2.labels
  rw [Bank.addTo_labels, e2] at hn
  rw [e1, e2, addTo_parts hn] at g2
  have hi : Layout.items (A ++ (l, xs ++ [k]) :: B) = A.items ++ xs ++ k :: B.items := by simp [Layout.items]
  have hi0 : L.items = A.items ++ xs ++ B.items := by
    rcases e3 with ⟨rfl, -⟩ | ⟨rfl, rfl, rfl, -⟩ <;> simp [Layout.items]
  have hs := (seen_qubits g1 g2 (by intro r hr; rw [g3] at hr; cases hr)).1
  have hnd := g2.nodup
  rw [hi] at hs hnd
  refine ⟨C', A, l, xs, k, B, g1, g2.shows, ?_, hs, ?_⟩
  · rcases e3 with h | ⟨a, b, d, e⟩
    · exact .inl h
    · exact .inr ⟨a, b, d, e⟩
  · rw [hi0]
    constructor
    · intro hall
      by_contra hne
      obtain ⟨b, bs, hb⟩ := List.exists_cons_of_ne_nil hne
      have := hall (A.items ++ xs).length b (by rw [hb, List.getElem?_append_right (le_refl _)]; simp)
      rw [List.getElem?_append_right (le_refl _)] at this
      simp only [Nat.sub_self, List.getElem?_cons_zero, Option.some.injEq] at this
      have hk := (List.nodup_cons.1 (List.nodup_append.1 hnd).2.1).1
      rw [hb, this] at hk
      simp at hk
    · intro hb i q' hq
      rw [hb, List.append_nil] at hq
      have hlt := (List.getElem?_eq_some_iff.1 hq).1
      rw [List.getElem?_append_left hlt, hq]

/-- Two registers with one qubit each; then a qubit is added. -/
def shiftDemo : Prog Int := .seq (.call (.newCirc false (some 1) none)) (.call (.addQReg 0 1 none))

/-- C21 is violated: `add_qubit()` adds to the first register, so that the qubits of later registers move. -/
theorem C21_violated : seen (qubitsOf 0 shiftDemo.final).1 = .ok [.obj 0, .obj 1] ∧
    (addQubit 0 .none none shiftDemo.final).1 = .ok () ∧
    seen (qubitsOf 0 (addQubit 0 .none none shiftDemo.final).2).1 = .ok [.obj 0, .obj 2, .obj 1] := by
  refine ⟨?_, ?_, ?_⟩ <;> decide +kernel

example : ∃ C L w', shiftDemo.final.circs[0]? = some C ∧ Shows C.q L ∧ addQubit 0 .none none shiftDemo.final = (.ok (), w') ∧ L.length = 2 := by
  have h : (addQubit 0 .none none shiftDemo.final).1 = .ok () := C21_violated.2.1
  refine ⟨_, [(.str "qreg0", [0]), (.str "qreg1", [1])], (addQubit 0 .none none shiftDemo.final).2, rfl, ?_, Prod.ext h rfl, rfl⟩
  unfold Shows
  decide +kernel

/-! ## C22 -/

/-- C22 for qubits: `add_qubit(q)` adds `q`, `add_qubit()` adds a new qubit, and nothing else happens to the items. -/
theorem C22_qubits {A : Call K → Prop} {w : World K} (h : Reach A w) {c : Nat} {C : Circ} (hC : w.circs[c]? = some C) {L : Layout}
    (hL : Shows C.q L) {q : Given} {label : Option RLabel} {w' : World K} (hw' : addQubit c q label w = (.ok (), w')) :
    ∃ C' L' k P S, w'.circs[c]? = some C' ∧ Shows C'.q L' ∧ L.items = P ++ S ∧ L'.items = P ++ k :: S ∧
      seen (qubitsOf c w').1 = .ok (L'.items.map Lbl.obj) ∧ (q = .item k ∨ (q = .none ∧ k = w.qubits.length)) := by
  obtain ⟨L', h1, h2, h3, -⟩ := reach_q h hC
  cases Bank.shows_unique h1.shows hL
  obtain ⟨C', k, g1, g2, g3, g4⟩ := addQubit_inv hC h1 h2 h3 hw'
  have hn := g2.labels
  rw [Bank.addTo_labels] at hn
  obtain ⟨P, S, e1, e2⟩ := addTo_split h1.labels "qreg" label k hn
  exact ⟨C', _, k, P, S, g1, g2.shows, e1, e2, (seen_qubits g1 g2 (by intro r hr; rw [g3] at hr; cases hr)).1, g4⟩

/-- C22 for bits, as long as no bit is set. Missing: bits with a value, see below. -/
theorem C22_bits_partial {A : Call K → Prop} (hA : ∀ e, A e → SetsNoBit e) {w : World K} (h : Reach A w) {c : Nat} {C : Circ}
    (hC : w.circs[c]? = some C) {L : Layout} (hL : Shows C.c L) {b : Given} {label : Option RLabel} {w' : World K}
    (hw' : addBit c b label w = (.ok (), w')) :
    ∃ C' L' k P S, w'.circs[c]? = some C' ∧ Shows C'.c L' ∧ L.items = P ++ S ∧ L'.items = P ++ k :: S ∧
      seen (bitsOf c w').1 = .ok (L'.items.map Lbl.obj) ∧ (b = .item k ∨ (b = .none ∧ k = w.bits.length)) := by
  obtain ⟨hev, hu, L', h1, h2, h3⟩ := reach_c hA h hC
  cases Bank.shows_unique h1.shows hL
  obtain ⟨C', k, g1, g2, g3, g4, g5⟩ := addBit_inv hC hu h1 h2 h3 hw'
  have hn := g2.labels
  rw [Bank.addTo_labels] at hn
  obtain ⟨P, S, e1, e2⟩ := addTo_split h1.labels "creg" label k hn
  exact ⟨C', _, k, P, S, g1, g2.shows, e1, e2, (seen_bits g1 g5 g2 (by intro r hr; rw [g3] at hr; cases hr)).1, g4⟩

example : (addQubit 0 .none none circDemo.final).1 = .ok () ∧ (addBit 0 .none none circDemo.final).1 = .ok () := by decide +kernel

/-- A bit with value 0. -/
def zeroBit : Prog Int := .seq (.call (.newCirc false none none)) <| .seq (.call (.newBit (.str "b"))) <| .call (.setBit 0 false false)

/-- C22 is violated: `add_bit(b)` succeeds for a bit with value 0, but adds a new bit instead. -/
theorem C22_bits_violated : (addBit 0 (.item 0) none zeroBit.final).1 = .ok () ∧
    seen (bitsOf 0 (addBit 0 (.item 0) none zeroBit.final).2).1 = .ok [.obj 1] := by
  constructor <;> decide +kernel

/-! ## C23 -/

/-- C23: a locked circuit refuses, and nothing at all changes. -/
theorem C23_locked {w : World K} {c : Nat} (h : lockedIn w c = true) (o : Nat) : appendOp c o w = (.error .circuitError, w) := by
  unfold lockedIn at h
  split at h
  · next C hC => simp [appendOp, bind_def, circ, M.deref, hC, M.raiseIf, h]
  · cases h

/-- C23: `append` to a circuit that is not locked. An operation with a qubit that is not in `circuit.qubits` is refused with `ValueError`, as
is an operation with a variable without value, unless the circuit is parametric; then the lists of operations stay what they are.
Otherwise exactly this operation is appended. -/
theorem C23_append {A : Call K → Prop} {w : World K} (h : Reach A w) {c o : Nat} {C : Circ} (hC : w.circs[c]? = some C) {op : OpObj K}
    (hop : w.ops[o]? = some op) {k : OpCls} (hk : w.classes[op.cls]? = some k) (hl : C.locked = false) {items : List Lbl}
    (hs : seen (qubitsOf c w).1 = .ok items) :
    ((∃ q ∈ op.qubits.getD [], Lbl.obj q ∉ items) ∨
        (C.parametric = false ∧ k.kind.isParametric = true ∧ ∃ v, OpParam.var v ∈ op.params ∧ ¬ HasValue w v) →
      (appendOp c o w).1 = .error .valueError ∧ ∀ c', opsOf (appendOp c o w).2 c' = opsOf w c') ∧
    ((∀ q ∈ op.qubits.getD [], Lbl.obj q ∈ items) →
        (C.parametric = false → k.kind.isParametric = true → ∀ v, OpParam.var v ∈ op.params → HasValue w v) →
      (appendOp c o w).1 = .ok () ∧ opsOf (appendOp c o w).2 c = opsOf w c ++ [o] ∧ ∀ c', c' ≠ c → opsOf (appendOp c o w).2 c' = opsOf w c') := by
  obtain ⟨r, items', g1, g2⟩ := reach_rep h hC
  have he : items' = items := by
    rw [g1] at hs
    have := g2.iter_eq
    simp only [seen] at hs
    rw [this] at hs
    cases hs; rfl
  subst he
  have ho := appendOp_ops c o w
  have key : ((∃ q ∈ op.qubits.getD [], Lbl.obj q ∉ items') ∨
      (C.parametric = false ∧ k.kind.isParametric = true ∧ ¬ Evaluates w.varVal op.params) →
      (appendOp c o w).1 = .error .valueError) ∧ ((∀ q ∈ op.qubits.getD [], Lbl.obj q ∈ items') →
      (C.parametric = false → k.kind.isParametric = true → Evaluates w.varVal op.params) → (appendOp c o w).1 = .ok ()) := by
    rcases appendOp_known hC hop hk hl with ⟨⟨a1, a2, a3⟩, ps, a4⟩ | ⟨a1, a2⟩
    · rw [a4]
      exact ⟨fun _ => rfl, fun _ hh => absurd (hh a1 a2) a3⟩
    · have hlt := (List.getElem?_eq_some_iff.1 hop).1
      have hq := qubitsOf_ops (ops := w.ops.set o { op with params := appendedParams w C (some k) op }) g1
      rcases appendTail_known (W := { w with ops := w.ops.set o { op with params := appendedParams w C (some k) op } }) (c := c) (o := o) hC
        (List.getElem?_set_self hlt) hq g2 with ⟨b1, w', b2, -⟩ | ⟨b1, b', -, b2⟩
      · rw [a2, b2]
        refine ⟨fun _ => rfl, fun hh _ => ?_⟩
        obtain ⟨q, hq, hn⟩ := b1
        exact absurd (hh q hq) hn
      · rw [a2, b2]
        refine ⟨?_, fun _ _ => rfl⟩
        rintro (⟨q, hq, hn⟩ | ⟨x1, x2, x3⟩)
        · exact absurd (b1 q hq) hn
        · exact absurd (a1 x1 x2) x3
  constructor
  · intro hh
    have e1 := key.1 (hh.imp_right fun ⟨x1, x2, v, x3, x4⟩ => ⟨x1, x2, fun hE => x4 (hE v x3)⟩)
    refine ⟨e1, ?_⟩
    rcases ho with ⟨e, w', a1, a2⟩ | ⟨w', a1, -⟩
    · rw [a1]; exact a2
    · rw [a1] at e1; cases e1
  · intro hh hv
    have e1 := key.2 hh hv
    refine ⟨e1, ?_⟩
    rcases ho with ⟨e, w', a1, -⟩ | ⟨w', a1, -, a2⟩
    · rw [a1] at e1; cases e1
    · rw [a1]
      exact ⟨by rw [a2, if_pos rfl], fun c' hc' => by rw [a2, if_neg hc']⟩

/-- C23: `extend` appends the operations one after the other; if it raises, those before the offending one have been appended. No other
circuit changes. -/
theorem C23_extend (c : Nat) (os : List Nat) (w : World K) :
    (∀ c', c' ≠ c → opsOf (extendOps c os w).2 c' = opsOf w c') ∧
    ((extendOps c os w).1 = .ok () → opsOf (extendOps c os w).2 c = opsOf w c ++ os) ∧
    (∀ e, (extendOps c os w).1 = .error e → ∃ done o rest w1, os = done ++ o :: rest ∧ extendOps c done w = (.ok (), w1) ∧
      appendOp c o w1 = (.error e, (extendOps c os w).2) ∧ opsOf (extendOps c os w).2 c = opsOf w c ++ done) := by
  induction os generalizing w with
  | nil => exact ⟨fun _ _ => rfl, fun _ => by simp [extendOps, M.each], fun e he => by cases he⟩
  | cons o os ih =>
    have hdef := extend_cons c o os w
    rcases appendOp_ops c o w with ⟨e, w', a1, a2⟩ | ⟨w', a1, -, a2⟩
    · rw [a1] at hdef
      dsimp only at hdef
      rw [hdef]
      refine ⟨fun c' _ => a2 c', fun h => by (cases h), fun e' he' => ?_⟩
      cases he'
      exact ⟨[], o, os, w, rfl, rfl, a1, by simp [a2]⟩
    · rw [a1] at hdef
      dsimp only at hdef
      rw [hdef]
      obtain ⟨i1, i2, i3⟩ := ih w'
      have hc : opsOf w' c = opsOf w c ++ [o] := by rw [a2, if_pos rfl]
      refine ⟨fun c' hc' => by rw [i1 c' hc', a2, if_neg hc'], fun h => by rw [i2 h, hc]; simp, fun e' he' => ?_⟩
      obtain ⟨done, o', rest, w1, x1, x2, x3, x4⟩ := i3 e' he'
      refine ⟨o :: done, o', rest, w1, by simp [x1], ?_, x3, by rw [x4, hc]; simp⟩
      rw [extend_cons, a1]
      exact x2

/-- An operation on a qubit of the circuit and one on another qubit; the circuit is not locked. -/
def appendDemo : Prog Int :=
  .seq (.call (.newClass ⟨"X", .plain, ⟨false, some 1, none, none⟩, none⟩)) <|
  .seq (.call (.newCirc false (some 2) none)) <|
  .seq (.call (.newQubit (.str "a"))) <|
  .seq (.call (.construct 0 none (.qubits (some [1])))) <|
  .call (.construct 0 none (.qubits (some [2])))

example : seen (qubitsOf 0 appendDemo.final).1 = .ok [.obj 0, .obj 1] ∧ (appendDemo.final.ops.map fun op => op.qubits) = [some [1], some [2]] ∧
    lockedIn appendDemo.final 0 = false ∧
    (appendOp 0 0 appendDemo.final).1 = .ok () ∧ (appendOp 0 1 appendDemo.final).1 = .error .valueError ∧
    (extendOps 0 [0, 0, 1, 0] appendDemo.final).1 = .error .valueError ∧ opsOf (extendOps 0 [0, 0, 1, 0] appendDemo.final).2 0 = [0, 0] ∧
    (appendOp 0 0 circDemo.final).1 = .error .circuitError := by
  decide +kernel

/-! ## C24 -/

/-- C24 for programs that neither assign to the qubits of an operation nor call `reset(keep_registers=False)`: every operation of a circuit
exists, and its qubits belong to `circuit.qubits`. Missing: programs with such calls, see below. -/
theorem C24_partial {A : Call K → Prop} (hA : ∀ e, A e → KeepsRegisters e ∧ KeepsOperands e) {w : World K} (h : Reach A w) {c : Nat} {C : Circ}
    (hC : w.circs[c]? = some C) :
    ∃ items, seen (qubitsOf c w).1 = .ok items ∧
      ∀ o ∈ opsOf w c, ∃ op, w.ops[o]? = some op ∧ ∀ q ∈ op.qubits.getD [], Lbl.obj q ∈ items := by
  have hi := QInv.reach (s := true) (u := true) (by simp) (h.imp fun e he => keeps_true_true e (hA e he))
  obtain ⟨L, h1, h2, -, h4, -⟩ := hi.bank C (mem_of_get? hC)
  refine ⟨_, (seen_qubits hC h1 (h2 (.inl rfl))).1, ?_⟩
  intro o ho
  rw [opsOf_of_get hC] at ho
  have hlt := hi.ops rfl C (mem_of_get? hC) o ho
  refine ⟨_, List.getElem?_eq_getElem hlt, fun q hq => ?_⟩
  refine List.mem_map_of_mem (h4 q ?_)
  simp only [World.usedIf, if_true, World.used, List.mem_flatMap]
  exact ⟨o, ho, by rw [List.getElem?_eq_getElem hlt]; exact hq⟩

example : opsOf circDemo.final 0 = [0] ∧ (circDemo.final.ops[0]?).map (fun op => op.qubits) = some (some [2]) := by decide +kernel

/-- An operation whose qubits are changed after it was appended. -/
def strayDemo : Prog Int := .seq appendDemo <| .seq (.call (.append 0 0)) <| .call (.setQubits 0 [2])

/-- C24 is violated: the operation now acts on a qubit that is not in the circuit. -/
theorem C24_assign_violated : opsOf strayDemo.final 0 = [0] ∧ (strayDemo.final.ops[0]?).map (fun op => op.qubits) = some (some [2]) ∧
    seen (qubitsOf 0 strayDemo.final).1 = .ok [.obj 0, .obj 1] := by decide +kernel

/-- A circuit is reset without keeping its registers, then used with the stale `circuit.qubits`. -/
def staleDemo : Prog Int :=
  .seq appendDemo <| .seq (.call (.readQubits 0)) <| .seq (.call (.reset 0 false)) <| .seq (.call (.append 0 0)) <| .call (.addQReg 0 1 none)

/-- C24 is violated: the operation on the old qubit was accepted. -/
theorem C24_reset_violated : (staleDemo.run {}).1 = .ok () ∧ opsOf staleDemo.final 0 = [0] ∧
    (staleDemo.final.ops[0]?).map (fun op => op.qubits) = some (some [1]) ∧ seen (qubitsOf 0 staleDemo.final).1 = .ok [.obj 3] := by
  decide +kernel

end DG.Props
