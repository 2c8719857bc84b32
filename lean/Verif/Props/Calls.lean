import Verif.Proofs.CallExact
import Verif.Props.TemplateMap

/-!
# Property C28: which calls of circuits succeed, and what the others leave

`Called`: a circuit is called, with the right number of qubits and bits, in the context of another circuit. `Copyable`: an operation of the called
circuit can be copied; `refusal`: the exception that is raised if it cannot. All are defined in `Spec/Call.lean`.
-/

namespace DG.Props
open Spec
variable {K : Type} [DecidableEq K] [Zero K]

theorem keepsRegisters_inv {P : Call K → Prop} {w : World K} (hw : Reach P w) (hP : ∀ e, P e → KeepsRegisters e) : QInv true false w :=
  QInv.reach (s := true) (u := false) (by simp) (hw.imp fun e he => keeps_true_false e (hP e he))

/-- C28: in any reachable state, if every operation of the circuit can be copied then the call succeeds, with the effect of `C28_call_partial`. -/
theorem C28_succeeds {P : Call K → Prop} {w : World K} (hw : Reach P w) (hP : ∀ e, P e → KeepsRegisters e) {a : Nat} {A : Circ}
    (hA : w.circs[a]? = some A) {qs : List Nat} {bits : Option (List Nat)} {B : Nat} {D : Circ} {L : Layout} {items : List Lbl} {bitItems : Option (List Lbl)}
    (h : Called w a qs bits B D L items bitItems) (hp : ∀ o ∈ A.ops, Copyable w D L.items items qs bitItems o) :
    ∃ R w' new, BitsGiven w a bits R ∧ callCirc a qs bits w = (.ok (), w') ∧ Appended w w' B new ∧
      List.Forall₂ (fun o op' => ∃ op C, w.ops[o]? = some op ∧ w.classes[op.cls]? = some C ∧
        CopyOf w C (D.parametric = false) (SamePlace items qs) R op op') A.ops new := by
  obtain ⟨w', hc⟩ := (callCirc_exact (keepsRegisters_inv hw hP) (OpsInv.reach hw) hA h).1 hp
  obtain ⟨D', items', R, new, h1, -, h3, -, -, h6, h7, h8⟩ := C28_call_partial hw h.target hc
  rw [h.circuit] at h1
  cases h1
  rw [h.qubits] at h3
  cases h3
  rw [opsOf_of_get hA] at h8
  exact ⟨R, w', new, h6, hc, h7, h8⟩

/-- C28: if the operations `pre` of the circuit can be copied but the next one, `o`, cannot, then the call raises the exception `e` that `refusal`
gives for it. The copies of `pre` stay appended; nothing else has changed (at most there is one more operation object, which is in no circuit). -/
theorem C28_fails {P : Call K → Prop} {w : World K} (hw : Reach P w) (hP : ∀ e, P e → KeepsRegisters e) {a : Nat} {A : Circ}
    (hA : w.circs[a]? = some A) {qs : List Nat} {bits : Option (List Nat)} {B : Nat} {D : Circ} {L : Layout} {items : List Lbl} {bitItems : Option (List Lbl)}
    (h : Called w a qs bits B D L items bitItems) {pre : List Nat} {o : Nat} {post : List Nat} {op : OpObj K} {C : OpCls} (hops : A.ops = pre ++ o :: post)
    (hp : ∀ o ∈ pre, Copyable w D L.items items qs bitItems o) (ho : IsOp w o op C) {e : Err}
    (he : refusal w D L.items items qs bitItems C op = some e) :
    ∃ R w1 w' new, BitsGiven w a bits R ∧ callCirc a qs bits w = (.error e, w') ∧ Appended w w1 B new ∧ NoneAppended w1 w' ∧
      List.Forall₂ (fun o op' => ∃ op C, w.ops[o]? = some op ∧ w.classes[op.cls]? = some C ∧
        CopyOf w C (D.parametric = false) (SamePlace items qs) R op op') pre new := by
  obtain ⟨R, w1, new, h1, h2, h3, h4, -⟩ := (callCirc_exact (keepsRegisters_inv hw hP) (OpsInv.reach hw) hA h).2 pre o post op C hops hp ho
  obtain ⟨w', h5, h6⟩ := h4 e he
  exact ⟨R, w1, w', new, h1, h5, h2, h6, h3⟩

/-- C28: if the operations `pre` can be copied and the next one is a measurement with less bits than qubits, while bits are given, then the call raises
`ValueError` after the measurement has been copied without bits. -/
theorem C28_fails_bits {P : Call K → Prop} {w : World K} (hw : Reach P w) (hP : ∀ e, P e → KeepsRegisters e) {a : Nat} {A : Circ}
    (hA : w.circs[a]? = some A) {qs : List Nat} {bits : Option (List Nat)} {B : Nat} {D : Circ} {L : Layout} {items : List Lbl} {bitItems : Option (List Lbl)}
    (h : Called w a qs bits B D L items bitItems) {pre : List Nat} {o : Nat} {post : List Nat} {op : OpObj K} {C : OpCls} (hops : A.ops = pre ++ o :: post)
    (hp : ∀ o ∈ pre, Copyable w D L.items items qs bitItems o) (ho : IsOp w o op C) (he : refusal w D L.items items qs bitItems C op = none)
    (hb : LacksBits bitItems C op) :
    ∃ R w' new op', BitsGiven w a bits R ∧ callCirc a qs bits w = (.error .valueError, w') ∧ Appended w w' B (new ++ [op']) ∧
      CopyOf w C (D.parametric = false) (SamePlace items qs) none op op' ∧
      List.Forall₂ (fun o op' => ∃ op C, w.ops[o]? = some op ∧ w.classes[op.cls]? = some C ∧
        CopyOf w C (D.parametric = false) (SamePlace items qs) R op op') pre new := by
  obtain ⟨R, w1, new, h1, h2, h3, -, h4⟩ := (callCirc_exact (keepsRegisters_inv hw hP) (OpsInv.reach hw) hA h).2 pre o post op C hops hp ho
  obtain ⟨w', op', h5, h6, h7⟩ := h4 he hb
  exact ⟨R, w', new, op', h1, h5, h6, h7, h3⟩

omit [DecidableEq K] in
theorem refusal_none {w : World K} {D : Circ} {L : List Nat} {items : List Lbl} {qs : List Nat} {bitItems : Option (List Lbl)} {op : OpObj K} {C : OpCls}
    {l : List Nat} (hl : D.locked = false) (hqs : ∀ q ∈ qs, q ∈ L) (h2 : op.qubits = some l) (h3 : l ≠ []) (h4 : ∀ q ∈ l, Lbl.obj q ∈ items)
    (h5 : C.ar.numQubits = none ∨ C.ar.numQubits = some l.length) (h6 : C.kind = .controlled → l.length = 2)
    (h7 : C.kind = .measurement → ∀ m, bitItems = some m → ∀ b ∈ op.bits.getD [], Lbl.obj b ∈ m)
    (h8 : C.kind.isParametric = true → C.numParams = some op.params.length ∧ (D.parametric = true ∨ ∀ v, OpParam.var v ∈ op.params → HasValue w v)) :
    refusal w D L items qs bitItems C op = none := by
  unfold refusal
  simp only [h2, Option.getD_some]
  rw [if_neg, if_neg, if_neg, if_neg, if_neg, if_neg, if_neg, if_neg, if_neg]
  · rintro ⟨q, -, q', ⟨i, -, g⟩, g'⟩
    exact g' (hqs q' (List.mem_of_getElem? g))
  · rintro ⟨g1, g2, v, g3, g4⟩
    rcases (h8 g1).2 with g | g
    · rw [g2] at g; cases g
    · exact g4 (g v g3)
  · simp [hl]
  · rintro ⟨g1, g2⟩
    rcases h5 with g | g
    · exact g1 g
    · exact g2 g
  · exact fun g => h3 g.2
  · exact fun g => g.2 (h8 g.1).1
  · exact fun g => g.2 (h6 g.1)
  · rintro ⟨g1, m, g2, b, g3, g4⟩
    exact g4 (h7 g1 m g2 b g3)
  · rintro ⟨q, g1, g2⟩
    exact g2 (h4 q g1)

/-- So a call in the context of an unlocked circuit that has the given qubits succeeds for every circuit whose operations are on its own qubits and
bits, with as many bits as qubits for measurements, with parameters and qubits as declared by their classes, controlled operations having one control
and one target, and variables having values unless the circuit of the context is parametric. -/
theorem C28_ordinary {P : Call K → Prop} {w : World K} (hw : Reach P w) (hP : ∀ e, P e → KeepsRegisters e) {a : Nat} {A : Circ}
    (hA : w.circs[a]? = some A) {qs : List Nat} {bits : Option (List Nat)} {B : Nat} {D : Circ} {L : Layout} {items : List Lbl} {bitItems : Option (List Lbl)}
    (h : Called w a qs bits B D L items bitItems) (hl : D.locked = false) (hqs : ∀ q ∈ qs, q ∈ L.items)
    (hops : ∀ o ∈ A.ops, ∃ op C l, IsOp w o op C ∧ op.qubits = some l ∧ l ≠ [] ∧ (∀ q ∈ l, Lbl.obj q ∈ items) ∧
      (C.ar.numQubits = none ∨ C.ar.numQubits = some l.length) ∧ (C.kind = .controlled → l.length = 2) ∧
      (C.kind = .measurement → ∀ m, bitItems = some m → ∃ bs, op.bits = some bs ∧ bs.length = l.length ∧ ∀ b ∈ bs, Lbl.obj b ∈ m) ∧
      (C.kind.isParametric = true → C.numParams = some op.params.length ∧ (D.parametric = true ∨ ∀ v, OpParam.var v ∈ op.params → HasValue w v))) :
    ∃ w', callCirc a qs bits w = (.ok (), w') := by
  refine (callCirc_exact (keepsRegisters_inv hw hP) (OpsInv.reach hw) hA h).1 fun o ho => ?_
  obtain ⟨op, C, l, h1, h2, h3, h4, h5, h6, h7, h8⟩ := hops o ho
  refine ⟨op, C, h1, refusal_none hl hqs h2 h3 h4 h5 h6 (fun g1 m hm b hb => ?_) h8, ?_⟩
  · obtain ⟨bs, k1, k2, k3⟩ := h7 g1 m hm
    rw [k1] at hb
    exact k3 b hb
  · rintro ⟨g1, g2, g3⟩
    obtain ⟨m, hm⟩ := Option.isSome_iff_exists.1 g2
    obtain ⟨bs, k1, k2, k3⟩ := h7 g1 m hm
    rw [h2, k1] at g3
    simp only [Option.getD_some] at g3
    omega

namespace OutcomeDemo
deriving instance DecidableEq for Arity.Cls, OpCls
end OutcomeDemo

/-- Two templates with a gate and a measurement, which has bits only in the first one, and another circuit. -/
def outcomeDemo : Prog Int :=
  .seq (.call (.newClass ⟨"X", .plain, ⟨false, some 1, none, none⟩, none⟩)) <|
  .seq (.call (.newClass ⟨"Measurement", .measurement, ⟨false, none, none, none⟩, none⟩)) <|
  .seq (.call (.newCirc false (some 2) (some 2))) <|
  .seq (.call (.newCirc false (some 2) (some 2))) <|
  .seq (.call (.newCirc false (some 2) (some 2))) <|
  .seq (.withCtx 0 (.seq (.call (.construct 0 none (.qubits (some [0])))) (.seq (.call (.construct 1 none (.qubits (some [0, 1])))) (.call (.measureInto 1 [1, 0]))))) <|
  .withCtx 1 (.seq (.call (.construct 0 none (.qubits (some [2])))) (.call (.construct 1 none (.qubits (some [2, 3])))))

/-- The state in the context of the third circuit. -/
def outcomeDemoAt : World Int := (openCtx 2 outcomeDemo.final).2

theorem outcomeDemo_reach : Reach KeepsRegisters outcomeDemoAt := by
  have h1 : outcomeDemo.run {} = (.ok (), outcomeDemo.final) := final_ok (by decide +kernel)
  have h2 : openCtx 2 outcomeDemo.final = (.ok 2, outcomeDemoAt) := eq_pair (by decide +kernel)
  refine ⟨.seq outcomeDemo (.withCtx 2 .skip), ?_, ?_⟩
  · simp [outcomeDemo, Prog.All, KeepsRegisters]
  · exact .inr ⟨outcomeDemo.final, h1, .inr (.inr ⟨2, outcomeDemoAt, h2, .inl rfl⟩)⟩

theorem outcomeDemo_objects : outcomeDemoAt.ops = [{ cls := 0, qubits := some [0], numQubits := some 1 },
    { cls := 1, qubits := some [0, 1], numQubits := some 2, bits := some [1, 0] }, { cls := 0, qubits := some [2], numQubits := some 1 },
    { cls := 1, qubits := some [2, 3], numQubits := some 2 }] ∧
    outcomeDemoAt.classes = [⟨"X", .plain, ⟨false, some 1, none, none⟩, none⟩, ⟨"Measurement", .measurement, ⟨false, none, none, none⟩, none⟩] ∧
    opsOf outcomeDemoAt 0 = [0, 1] ∧ opsOf outcomeDemoAt 1 = [2, 3] ∧ outcomeDemoAt.target = some 2 ∧ outcomeDemoAt.circs.map (·.locked) = [true, true, false] := by
  refine ⟨?_, ?_, ?_⟩ <;> decide +kernel

theorem outcomeDemo_shows : ∃ D, outcomeDemoAt.circs[2]? = some D ∧ Shows D.q [(.str "qreg0", [4, 5])] := shows_circ Circ.q (by decide +kernel)

/-- The first template is called, with any two qubits `qs`. -/
theorem outcomeDemo_called {D : Circ} (hD : outcomeDemoAt.circs[2]? = some D ∧ Shows D.q [(.str "qreg0", [4, 5])]) (q q' : Nat) :
    Called outcomeDemoAt 0 [q, q'] (some [4, 5]) 2 D [(.str "qreg0", [4, 5])] [.obj 0, .obj 1] (some [.obj 0, .obj 1]) :=
  ⟨outcomeDemo_objects.2.2.2.2.1, by decide, hD.1, hD.2, by decide +kernel, rfl, ⟨_, by decide +kernel, by decide +kernel, rfl⟩⟩

theorem outcomeDemo_unlocked {D : Circ} (hD : outcomeDemoAt.circs[2]? = some D) : D.locked = false := by
  have := congrArg (fun l => l[2]?) outcomeDemo_objects.2.2.2.2.2
  simpa [hD] using this

/-- `C28_ordinary`: the call `template((q5, q4), (c4, c5))` succeeds. -/
example : ∃ w', callCirc 0 [5, 4] (some [4, 5]) outcomeDemoAt = (.ok (), w') := by
  obtain ⟨D, hD⟩ := outcomeDemo_shows
  obtain ⟨h1, h2, h3, -, -, h6⟩ := outcomeDemo_objects
  obtain ⟨A, hA, -⟩ := shows_circ (w := outcomeDemoAt) (c := 0) Circ.q (L := [(.str "qreg0", [0, 1])]) (by decide +kernel)
  have hl := outcomeDemo_unlocked hD.1
  rw [opsOf_of_get hA] at h3
  refine C28_ordinary outcomeDemo_reach (fun _ h => h) hA (outcomeDemo_called hD 5 4) hl (by simp [Layout.items]) ?_
  rw [h3]
  intro o ho
  simp only [List.mem_cons, List.not_mem_nil, or_false] at ho
  rcases ho with rfl | rfl
  · exact ⟨_, _, [0], ⟨by rw [h1]; rfl, by rw [h2]; rfl, by simp⟩, rfl, by simp, by simp, by simp, by simp, by simp,
      by simp [OpKind.isParametric]⟩
  · exact ⟨_, _, [0, 1], ⟨by rw [h1]; rfl, by rw [h2]; rfl, by simp⟩, rfl, by simp, by simp, by simp, by simp, by simp,
      by simp [OpKind.isParametric]⟩

/-- `C28_fails`: the call `template((q4, q9), (c4, c5))`, where the circuit has no qubit `q9`, raises `ValueError` after the first operation. -/
example : ∃ R w1 w' new, BitsGiven outcomeDemoAt 0 (some [4, 5]) R ∧ callCirc 0 [4, 9] (some [4, 5]) outcomeDemoAt = (.error .valueError, w') ∧
    Appended outcomeDemoAt w1 2 new ∧ NoneAppended w1 w' ∧ new.length = 1 := by
  obtain ⟨D, hD⟩ := outcomeDemo_shows
  obtain ⟨h1, h2, h3, -, -, h6⟩ := outcomeDemo_objects
  obtain ⟨A, hA, -⟩ := shows_circ (w := outcomeDemoAt) (c := 0) Circ.q (L := [(.str "qreg0", [0, 1])]) (by decide +kernel)
  have hl := outcomeDemo_unlocked hD.1
  rw [opsOf_of_get hA] at h3
  obtain ⟨R, w1, w', new, g1, g2, g3, g4, g5⟩ := C28_fails outcomeDemo_reach (fun _ h => h) hA (outcomeDemo_called hD 4 9) (pre := [0]) (o := 1) (post := []) h3
    (by
      simp only [List.mem_singleton, forall_eq]
      refine ⟨_, _, ⟨by rw [h1]; rfl, by rw [h2]; rfl, by simp⟩, ?_, by simp [LacksBits]⟩
      unfold refusal
      have hr : ¬ ∃ q ∈ [0], ∃ q', SamePlace [.obj 0, .obj 1] [4, 9] q q' ∧ q' ∉ Layout.items [(RLabel.str "qreg0", [4, 5])] := by
        rintro ⟨q, hq, q', ⟨_ | _ | i, g1, g2⟩, g3⟩
        · simp at g2; subst g2; simp [Layout.items] at g3
        · simp at hq g1; omega
        · simp at g1
      simp only [Option.getD_some, if_neg hr]
      simp [hl, OpKind.isParametric])
    ⟨by rw [h1]; rfl, by rw [h2]; rfl, by simp⟩ (e := .valueError) (by
      unfold refusal
      have hr : ∃ q ∈ [0, 1], ∃ q', SamePlace [.obj 0, .obj 1] [4, 9] q q' ∧ q' ∉ Layout.items [(RLabel.str "qreg0", [4, 5])] :=
        ⟨1, by simp, 9, ⟨1, rfl, rfl⟩, by simp [Layout.items]⟩
      simp only [Option.getD_some, if_pos hr]
      simp [hl, OpKind.isParametric])
  exact ⟨R, w1, w', new, g1, g2, g3, g4, by simpa using g5.length_eq.symm⟩

/-- `C28_fails_bits`: the call of the second template with bits raises `ValueError` after both operations have been copied. -/
example : ∃ R w' new op', BitsGiven outcomeDemoAt 1 (some [4, 5]) R ∧ callCirc 1 [5, 4] (some [4, 5]) outcomeDemoAt = (.error .valueError, w') ∧
    Appended outcomeDemoAt w' 2 (new ++ [op']) ∧ new.length = 1 ∧ op'.bits = none := by
  obtain ⟨D, hD⟩ := outcomeDemo_shows
  obtain ⟨h1, h2, -, h3, h5, h6⟩ := outcomeDemo_objects
  obtain ⟨A, hA, -⟩ := shows_circ (w := outcomeDemoAt) (c := 1) Circ.q (L := [(.str "qreg0", [2, 3])]) (by decide +kernel)
  have hl := outcomeDemo_unlocked hD.1
  rw [opsOf_of_get hA] at h3
  have hc : Called outcomeDemoAt 1 [5, 4] (some [4, 5]) 2 D [(.str "qreg0", [4, 5])] [.obj 2, .obj 3] (some [.obj 2, .obj 3]) :=
    ⟨h5, by decide, hD.1, hD.2, by decide +kernel, rfl, ⟨_, by decide +kernel, by decide +kernel, rfl⟩⟩
  obtain ⟨R, w', new, op', g1, g2, g3, g4, g5⟩ := C28_fails_bits outcomeDemo_reach (fun _ h => h) hA hc (pre := [2]) (o := 3) (post := []) h3
    (by
      simp only [List.mem_singleton, forall_eq]
      exact ⟨_, _, ⟨by rw [h1]; rfl, by rw [h2]; rfl, by simp⟩, refusal_none hl (by simp [Layout.items]) rfl (by simp) (by simp) (by simp) (by simp) (by simp)
        (by simp [OpKind.isParametric]), by simp [LacksBits]⟩)
    ⟨by rw [h1]; rfl, by rw [h2]; rfl, by simp⟩
    (refusal_none hl (by simp [Layout.items]) rfl (by simp) (by simp) (by simp) (by simp) (by simp) (by simp [OpKind.isParametric])) (by simp [LacksBits])
  exact ⟨R, w', new, op', g1, g2, g3, by simpa using g5.length_eq.symm, g4.bits rfl⟩

/-! ## C83 -/

open Sim

theorem named_arity {name : String} {k : OpKind} {xs : List ℝ} {K : Kind} (h : GateNamed name k xs K) :
    arity K ≠ 0 ∧ (k = .controlled → arity K = 2) ∧ k ≠ .measurement := by
  cases h <;> simp [arity]

/-- C83 for all calls: in the context of an unlocked circuit, calling a template of library gates without conditions, whose classes declare their numbers
of parameters and qubits, with qubits of the circuit, one for each qubit of the template, succeeds: the template means some map `U` of states of its
qubits, and the operations that the call appends mean the map `U` on the given qubits. -/
theorem C83_succeeds {A : Call ℝ → Prop} (hA : ∀ e, A e → KeepsRegisters e ∧ KeepsOperands e) {w : World ℝ} (h : Reach A w) {a B : Nat} {T D : Circ}
    (hT : w.circs[a]? = some T) (hD : w.circs[B]? = some D) (hne : B ≠ a) (hl : D.locked = false) {LT L : Layout} (hLT : Shows T.q LT) (hL : Shows D.q L)
    (ht : w.target = some B) {S : List SOp} (hS : List.Forall₂ (Reads w) T.ops S)
    (hg : ∀ s ∈ S, GoodOperands s ∧ s.kind ≠ .measurement ∧ s.cond = none)
    (hdecl : ∀ o ∈ T.ops, ∀ op C, w.ops[o]? = some op → w.classes[op.cls]? = some C → (C.ar.numQubits = none ∨ C.ar.numQubits = op.qubits.map List.length) ∧
      (C.kind.isParametric = true → C.numParams = some op.params.length))
    (ι : Fin LT.items.length → Fin L.items.length) (hι : Function.Injective ι) :
    ∃ (w' : World ℝ) (U : _) (new : List Nat) (S' : List SOp),
      callCirc a (List.ofFn fun i => L.items[ι i]) none w = (.ok (), w') ∧ MeansMap LT.items S U ∧ opsOf w' B = opsOf w B ++ new ∧
      List.Forall₂ (Reads w') new S' ∧ MeansMap L.items S' (onQubits ι U) := by
  obtain ⟨g1, g2, g3⟩ := ops_inside hA h hT hLT hS fun s hs => (hg s hs).1
  have hc : Called w a (List.ofFn fun i => L.items[ι i]) none B D L (LT.items.map Lbl.obj) none :=
    ⟨ht, hne, hD, hL, g1, by simp, rfl⟩
  have hok : ∃ w', callCirc a (List.ofFn fun i => L.items[ι i]) none w = (.ok (), w') := by
    refine C28_ordinary h (fun e he => (hA e he).1) hT hc hl ?_ ?_
    · intro q hq
      obtain ⟨i, rfl⟩ := List.mem_ofFn.1 hq
      exact List.getElem_mem _
    · intro o ho
      obtain ⟨s, hs, op, k, r1, r2, r3, r4, r5, r6, r7⟩ := call_mem_left hS ho
      obtain ⟨d1, d2⟩ := hdecl o ho op k r1 r2
      obtain ⟨e1, e2, e3⟩ := hg s hs
      rcases r7 with ⟨-, r7⟩ | ⟨xs, r7, r8, r9⟩
      · exact absurd r7 e2
      · obtain ⟨n1, n2, hm⟩ := named_arity r8
        rcases e1 with e1 | ⟨e1, -⟩
        · exact absurd e1 e2
        have hin : ∀ q ∈ s.qubits, q ∈ LT.items := by
          rcases g3 s hs with g | g
          · exact g.2.2.2
          · exact absurd g.1 e2
        rw [r4] at d1
        refine ⟨op, k, s.qubits, ⟨r1, r2, ?_⟩, r4, ?_, ?_, d1, ?_, fun e => absurd e hm, fun e => ⟨d2 e, .inr ?_⟩⟩
        · rcases d1 with d | d <;> rw [d]
          · simp
          · simp only [Option.map_some, ne_eq, Option.some.injEq]; omega
        · intro e
          rw [e] at e1
          exact n1 e1.symm
        · intro q hq
          exact List.mem_map_of_mem (hin q hq)
        · intro e
          rw [e1]
          exact n2 e
        · intro v hv
          rw [r7] at hv
          simp at hv
  obtain ⟨w', hw'⟩ := hok
  obtain ⟨U, new, S', c1, c2, c3, c4, c5⟩ := (C83_call hA h hT hD hLT hL ht hS hg hw').2 ι hι (by intro i; simp)
  exact ⟨w', U, new, S', hw', c1, c2, c3, c5⟩

theorem mapDemo_declared : (mapDemoState.classes.map fun k => (k.ar.numQubits, k.kind.isParametric)) = [(some 1, false), (none, false)] := by decide +kernel

theorem mapDemo_unlocked : mapDemoState.circs.map (·.locked) = [true, false] := by decide +kernel

/-- `C83_succeeds` for the demo program: the template, a Hadamard gate and a controlled not, is called with the last and the first qubit of the circuit. -/
example : ∃ (w' : World ℝ) (U : State 2 ℂ → State 2 ℂ) (new : List Nat) (S' : List SOp), callCirc 0 [4, 2] none mapDemoState = (.ok (), w') ∧
    MeansMap [0, 1] [⟨0, .single .hadamard, [0], none, none⟩, ⟨1, .controlled 1 .x, [0, 1], none, none⟩] U ∧
    opsOf w' 1 = opsOf mapDemoState 1 ++ new ∧ List.Forall₂ (Reads w') new S' ∧ MeansMap [2, 3, 4] S' (onQubits ![2, 0] U) := by
  obtain ⟨T, hT, hLT⟩ := mapDemo_shows
  obtain ⟨D, hD, hL⟩ := mapDemo_shows'
  have hTo : T.ops = [0, 1] := by simpa only [opsOf, hT] using mapDemo_ops.1
  have hl : D.locked = false := by
    have := congrArg (fun l => l[1]?) mapDemo_unlocked
    simpa [hD] using this
  have h1 := mapDemo_objects
  have h2 := mapDemo_none
  have h3 := mapDemo_classes
  have h4 := mapDemo_declared
  match hops : mapDemoState.ops, hcl : mapDemoState.classes with
  | [o0, o1, o2], [k0, k1] =>
    rw [hops] at h1 h2
    rw [hcl] at h3 h4
    simp only [List.map_cons, List.map_nil, List.cons.injEq, Prod.mk.injEq, and_true] at h1 h2 h3 h4
    obtain ⟨⟨a1, a2, a3⟩, ⟨b1, b2, b3⟩, c1, c2, c3⟩ := h1
    obtain ⟨⟨a4, a5⟩, ⟨b4, b5⟩, c4, c5⟩ := h2
    obtain ⟨⟨k01, k02, k03⟩, k11, k12, k13⟩ := h3
    have r0 : Reads mapDemoState 0 ⟨0, .single .hadamard, [0], none, none⟩ :=
      ⟨o0, k0, by rw [hops]; rfl, by rw [hcl, a1]; rfl, rfl, a2, a4.symm, a5.symm, .inr ⟨[], List.length_eq_zero_iff.1 a3, by rw [k01, k02]; exact .hadamard, by rw [k02]; simp⟩⟩
    have r1 : Reads mapDemoState 1 ⟨1, .controlled 1 .x, [0, 1], none, none⟩ :=
      ⟨o1, k1, by rw [hops]; rfl, by rw [hcl, b1]; rfl, rfl, b2, b4.symm, b5.symm, .inr ⟨[], List.length_eq_zero_iff.1 b3, by rw [k11, k12]; exact .cx, fun _ => k13⟩⟩
    refine C83_succeeds (fun e he => he) mapDemo_reach hT hD (by decide) hl hLT hL mapDemo_ops.2.2 (by rw [hTo]; exact .cons r0 (.cons r1 .nil))
      (by simp [GoodOperands, arity]) ?_ (![2, 0] : Fin 2 → Fin 3) (show Function.Injective (![2, 0] : Fin 2 → Fin 3) by decide)
    rw [hTo, hops, hcl]
    intro o ho op C g1 g2
    simp only [List.mem_cons, List.not_mem_nil, or_false] at ho
    rcases ho with rfl | rfl
    · simp only [List.getElem?_cons_zero, Option.some.injEq] at g1
      subst g1
      rw [a1] at g2
      simp only [List.getElem?_cons_zero, Option.some.injEq] at g2
      subst g2
      rw [a2, k02]
      refine ⟨.inr ?_, by simp [OpKind.isParametric]⟩
      exact h4.1.1
    · simp only [List.getElem?_cons_succ, List.getElem?_cons_zero, Option.some.injEq] at g1
      subst g1
      rw [b1] at g2
      simp only [List.getElem?_cons_succ, List.getElem?_cons_zero, Option.some.injEq] at g2
      subst g2
      rw [b2, k12]
      exact ⟨.inl h4.2.1, by simp [OpKind.isParametric]⟩
  | [], _ => rw [hops] at h1; cases h1
  | [_], _ => rw [hops] at h1; simp at h1
  | [_, _], _ => rw [hops] at h1; simp at h1
  | _ :: _ :: _ :: _ :: _, _ => rw [hops] at h1; simp at h1
  | [_, _, _], [] => rw [hcl] at h3; cases h3
  | [_, _, _], [_] => rw [hcl] at h3; simp at h3
  | [_, _, _], _ :: _ :: _ :: _ => rw [hcl] at h3; simp at h3

end DG.Props
