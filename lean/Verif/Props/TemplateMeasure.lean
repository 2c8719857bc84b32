import Verif.Proofs.TemplateBranches
import Verif.Props.TemplateMap
import Verif.Props.Branches

/-!
# Property C83 for templates with measurements
-/

noncomputable section

namespace DG.Props
open Spec Sim

/-- The copies of operations without conditions are read as the same gates and measurements on the new qubits and bits. -/
theorem reads_copied {w w' : World ℝ} {B : Nat} {new : List (OpObj ℝ)} (h : Appended w w' B new) {o o' : Nat} {s : SOp} (hr : Reads w o s)
    (hc : s.cond = none) {op op' : OpObj ℝ} {C : OpCls} {P : Prop} {Q : Nat → Nat → Prop} {R : Option (Nat → Nat → Prop)}
    (ho : w.ops[o]? = some op) (hC : w.classes[op.cls]? = some C) (hcp : CopyOf w C P Q R op op') (ho' : w'.ops[o']? = some op') :
    ∃ s' : SOp, Reads w' o' s' ∧ s'.kind = s.kind ∧ s'.cond = none ∧ List.Forall₂ Q s.qubits s'.qubits ∧ (s.kind = .measurement → BitsCopied R s s') := by
  by_cases hk : s.kind = .measurement
  · obtain ⟨op1, k, h1, h2, h3, h4, h5, h6, h7⟩ := hr
    rw [ho] at h1
    cases h1
    rw [hC] at h2
    cases h2
    obtain ⟨k', g1, g2, g3, g4⟩ := appended_classes h hC
    obtain ⟨qs, e1, e2⟩ := hcp.qubits
    rw [h4] at e2
    have hm : C.kind = .measurement := by
      rcases h7 with h7 | ⟨xs, h7, h8, h9⟩
      · exact h7.1
      · have hn : ∀ {name : String} {kd : OpKind} {xs : List ℝ} {K : Kind}, GateNamed name kd xs K → K ≠ .measurement := by
          intro _ _ _ _ hh
          cases hh <;> exact Kind.noConfusion
        exact absurd hk (hn h8)
    refine ⟨⟨o', s.kind, qs, op'.cond, op'.bits⟩, ⟨op', k', ho', by rw [hcp.cls]; exact g1, rfl, e1, rfl, rfl, .inl ⟨by rw [g3]; exact hm, hk⟩⟩, rfl,
      hcp.cond (by rw [← h5]; exact hc), e2, fun _ => ?_⟩
    have hb := hcp.bits hm
    cases R with
    | none => exact hb
    | some r =>
      obtain ⟨bs, n, f1, f2, f3⟩ := hb
      refine ⟨bs, f1, ?_⟩
      have hn : n = s.qubits.length := by
        rw [hcp.number, e1] at f2
        simp only [Option.map_some, Option.some.injEq] at f2
        rw [← f2]
        exact e2.length_eq.symm
      rw [h6, ← hn]
      exact f3
  · obtain ⟨s', a1, a2, a3, a4⟩ := reads_copy h hr hc hk ho hC hcp ho'
    exact ⟨s', a1, a2, a3, a4, fun h => absurd h hk⟩

/-- C83 for templates with measurements: every possible course of the template's operations is one of the copies, with the same map on the given qubits and
the same measurement results, stored in the given bits, at the places of the template's bits; without given bits they are not stored. -/
theorem C83_measured {A : Call ℝ → Prop} (hA : ∀ e, A e → KeepsRegisters e ∧ KeepsOperands e) {w w' : World ℝ} (h : Reach A w) {a B : Nat} {T D : Circ}
    (hT : w.circs[a]? = some T) (hD : w.circs[B]? = some D) {LT L : Layout} (hLT : Shows T.q LT) (hL : Shows D.q L) (ht : w.target = some B)
    {S : List SOp} (hS : List.Forall₂ (Reads w) T.ops S) (hg : ∀ s ∈ S, GoodOperands s ∧ s.cond = none) {qs : List Nat}
    {bits : Option (List Nat)} (hcall : callCirc a qs bits w = (.ok (), w')) :
    qs.length = LT.items.length ∧ ∃ R, BitsGiven w a bits R ∧
    ∀ ι : Fin LT.items.length → Fin L.items.length, Function.Injective ι → (∀ i, qs[i.val]? = some L.items[ι i]) →
      ∃ (new : List Nat) (S' : List SOp), opsOf w' B = opsOf w B ++ new ∧ List.Forall₂ (Reads w') new S' ∧ (∀ s ∈ S', GoodOperands s ∧ s.cond = none) ∧
        ∀ vals vals', ∃ Bs Bs', Branches ⟨LT.items, S⟩ S vals Bs ∧ Branches ⟨L.items, S'⟩ S' vals' Bs' ∧ List.Forall₂ (CopiedBranch ι R) Bs Bs' := by
  obtain ⟨D', items, R, new, h1, h2, h3, h4, h5, h6, h7, h8⟩ := C28_call_partial h ht hcall
  rw [hD] at h1
  cases h1
  obtain ⟨g1, g2, g3⟩ := ops_inside hA h hT hLT hS fun s hs => (hg s hs).1
  rw [g1] at h3
  cases h3
  have hlen : qs.length = LT.items.length := by simpa using h4.symm
  refine ⟨hlen, R, h6, fun ι hι hat => ?_⟩
  have hops : opsOf w a = T.ops := by simp [opsOf, hT]
  rw [hops] at h8
  -- the new operations
  have hnew : ∃ S' : List SOp, List.Forall₂ (Reads w') (List.range' w.ops.length new.length) S' ∧
      List.Forall₂ (fun s s' : SOp => s'.kind = s.kind ∧ s'.cond = none ∧ List.Forall₂ (SamePlace (LT.items.map Lbl.obj) qs) s.qubits s'.qubits ∧
        (s.kind = .measurement → BitsCopied R s s')) S S' := by
    have key : ∀ (os : List Nat) (S : List SOp) (ns : List (OpObj ℝ)) (m : Nat), List.Forall₂ (Reads w) os S →
        (∀ s ∈ S, GoodOperands s ∧ s.cond = none) →
        List.Forall₂ (fun o op' => ∃ op C, w.ops[o]? = some op ∧ w.classes[op.cls]? = some C ∧
          CopyOf w C (D.parametric = false) (SamePlace (LT.items.map Lbl.obj) qs) R op op') os ns →
        (∀ i (op' : OpObj ℝ), ns[i]? = some op' → w'.ops[m + i]? = some op') →
        ∃ S' : List SOp, List.Forall₂ (Reads w') (List.range' m ns.length) S' ∧
          List.Forall₂ (fun s s' : SOp => s'.kind = s.kind ∧ s'.cond = none ∧ List.Forall₂ (SamePlace (LT.items.map Lbl.obj) qs) s.qubits s'.qubits ∧
            (s.kind = .measurement → BitsCopied R s s')) S S' := by
      intro os S ns m hr hg hcp
      induction hr generalizing ns m with
      | nil =>
        cases hcp
        exact fun _ => ⟨[], .nil, .nil⟩
      | @cons o s os S r1 r2 ih =>
        cases hcp with
        | @cons _ n1 _ ns c1 c2 =>
          intro hget
          obtain ⟨op, C, k1, k2, k3⟩ := c1
          obtain ⟨s', f1, f2⟩ := reads_copied h7 r1 (hg s (by simp)).2 k1 k2 k3 (o' := m) (hget 0 n1 rfl)
          obtain ⟨S', i1, i2⟩ := ih ns (m + 1) (fun s hs => hg s (by simp [hs])) c2 (fun i op' hi => by
            rw [show m + 1 + i = m + (i + 1) by omega]
            exact hget (i + 1) op' (by simpa using hi))
          exact ⟨s' :: S', .cons f1 i1, .cons f2 i2⟩
    refine key T.ops S new w.ops.length hS hg h8 fun i op' hi => ?_
    rw [h7.ops, List.getElem?_append_right (by omega), Nat.add_sub_cancel_left]
    exact hi
  obtain ⟨S', n1, n2⟩ := hnew
  have hplace : ∀ (s s' : SOp) (ts : List (Fin LT.items.length)), s.qubits = ts.map (fun i => LT.items[i]) →
      List.Forall₂ (SamePlace (LT.items.map Lbl.obj) qs) s.qubits s'.qubits → s'.qubits = (ts.map ι).map fun j => L.items[j] := by
    intro s s' ts hts hq
    have := samePlace_at g2 hq ts hts
    clear hq hts
    generalize s'.qubits = l at this
    induction this with
    | nil => rfl
    | @cons i q ts l e _ ih =>
      rw [hat i] at e
      cases e
      simp only [List.map_cons]
      rw [ih]
  refine ⟨List.range' w.ops.length new.length, S', ?_, n1, ?_, ?_⟩
  · obtain ⟨D'', k1, k2⟩ := h7.circs
    rw [hD] at k1
    cases k1
    have := congrArg (fun l => (l[B]?).map Circ.ops) k2
    simp only [List.getElem?_map, List.getElem?_set_self (List.getElem?_eq_some_iff.1 hD).1, Option.map_map, Option.map_some] at this
    simp only [opsOf, hD]
    cases hB : w'.circs[B]? with
    | none => rw [hB] at this; cases this
    | some D1 =>
      rw [hB] at this
      simpa [bare] using this
  · intro s' hs'
    obtain ⟨s, hs, e1, e2, e3, -⟩ := forall₂_mem_right n2 hs'
    obtain ⟨k1, k3⟩ := hg s hs
    refine ⟨?_, e2⟩
    rcases k1 with k1 | ⟨k4, k5⟩
    · exact .inl (by rw [e1]; exact k1)
    · refine .inr ⟨by rw [e1, ← e3.length_eq]; exact k4, ?_⟩
      have hin : ∀ q ∈ s.qubits, q ∈ LT.items := by
        rcases g3 s hs with g | g
        · exact g.2.2.2
        · exact g.2
      obtain ⟨ts, hts⟩ := exists_targets ⟨LT.items, S⟩ s.qubits hin
      rw [hplace s s' ts hts e3]
      rw [hts] at k5
      have hi := QInv.reach (s := true) (u := true) (by simp) (h.imp fun e he => keeps_true_true e (hA e he))
      obtain ⟨L', l1, -⟩ := hi.bank D (mem_of_get? hD)
      cases Bank.shows_unique l1.shows hL
      exact ((k5.of_map _).map hι).map fun i j e => Fin.ext ((List.Nodup.getElem_inj_iff l1.nodup).1 e)
  · exact template_branches (c := ⟨LT.items, S⟩) (c' := ⟨L.items, S'⟩) (ι := ι) hι S S' (fun s hs => ⟨g3 s hs, (hg s hs).2⟩)
      (n2.imp fun s s' hs => ⟨hs.1, hs.2.1, fun ts hts => hplace s s' ts hts hs.2.2.1, hs.2.2.2⟩)

/-! ## Example: a template `Hadamard(0)`, `Measurement((0, 1)) | (1, 0)`, called with the qubits 4 and 2 and the bits 2 and 3 of a circuit -/

/-- The two circuits. -/
def keepDemo : Prog ℝ :=
  .seq (.call (.newClass ⟨"Hadamard", .plain, ⟨false, some 1, none, none⟩, none⟩)) <|
  .seq (.call (.newClass ⟨"Measurement", .measurement, ⟨false, none, none, none⟩, none⟩)) <|
  .seq (.call (.newCirc false (some 2) (some 2))) <|
  .seq (.call (.newCirc false (some 3) (some 2))) <|
  .withCtx 0 <|
  .seq (.call (.construct 0 none (.qubits (some [0])))) <|
  .seq (.call (.construct 1 none (.qubits (some [0, 1])))) <|
  .call (.measureInto 1 [1, 0])

/-- The context of the second circuit is open, and has a first gate. -/
def keepDemoState : World ℝ := (execCall (.construct 0 none (.qubits (some [3]))) (openCtx 1 keepDemo.final).2).2

theorem keepDemo_reach : Reach (fun e => KeepsRegisters e ∧ KeepsOperands e) keepDemoState := by
  have h1 : keepDemo.run {} = (.ok (), keepDemo.final) := final_ok (by decide +kernel)
  have h2 : openCtx 1 keepDemo.final = (.ok 1, (openCtx 1 keepDemo.final).2) := eq_pair (by decide +kernel)
  refine ⟨.seq keepDemo (.withCtx 1 (.call (.construct 0 none (.qubits (some [3]))))), ?_, ?_⟩
  · simp [keepDemo, Prog.All, KeepsRegisters, KeepsOperands]
  · exact .inr ⟨keepDemo.final, h1, .inr (.inr ⟨1, (openCtx 1 keepDemo.final).2, h2, .inl (.inr rfl)⟩)⟩

theorem keepDemo_shows : ∃ C, keepDemoState.circs[0]? = some C ∧ Shows C.q [(.str "qreg0", [0, 1])] := shows_circ Circ.q (by decide +kernel)
theorem keepDemo_shows' : ∃ C, keepDemoState.circs[1]? = some C ∧ Shows C.q [(.str "qreg0", [2, 3, 4])] := shows_circ Circ.q (by decide +kernel)
theorem keepDemo_ops : opsOf keepDemoState 0 = [0, 1] ∧ opsOf keepDemoState 1 = [2] ∧ keepDemoState.target = some 1 := by decide +kernel
theorem keepDemo_objects : (keepDemoState.ops.map fun op => (op.cls, op.qubits, op.params.length)) =
    [(0, some [0], 0), (1, some [0, 1], 0), (0, some [3], 0)] := by decide +kernel
theorem keepDemo_bits : (keepDemoState.ops.map fun op => (op.cond, op.bits)) = [(none, none), (none, some [1, 0]), (none, none)] := by decide +kernel
theorem keepDemo_classes : (keepDemoState.classes.map fun k => (k.name, k.kind)) = [("Hadamard", .plain), ("Measurement", .measurement)] := by decide +kernel
theorem keepDemo_call : (callCirc 0 [4, 2] (some [2, 3]) keepDemoState).1 = .ok () := by decide +kernel
theorem keepDemo_seen : seen (bitsOf 0 keepDemoState).1 = .ok [.obj 0, .obj 1] := by decide +kernel

/-- `C83_measured` for the demo program: the results of the template go to bits 1 and 0, those of the copy to the bits 3 and 2. -/
example (vals vals' : Nat → Option Bool) : ∃ (S' : List SOp) (Bs : List (Branch 2)) (Bs' : List (Branch 3)),
    Branches ⟨[0, 1], [⟨0, .single .hadamard, [0], none, none⟩, ⟨1, .measurement, [0, 1], none, some [1, 0]⟩]⟩
      [⟨0, .single .hadamard, [0], none, none⟩, ⟨1, .measurement, [0, 1], none, some [1, 0]⟩] vals Bs ∧
    Branches ⟨[2, 3, 4], S'⟩ S' vals' Bs' ∧
    List.Forall₂ (CopiedBranch (![2, 0] : Fin 2 → Fin 3) (some (SamePlace [.obj 0, .obj 1] [2, 3]))) Bs Bs' := by
  obtain ⟨T, hT, hLT⟩ := keepDemo_shows
  obtain ⟨D, hD, hL⟩ := keepDemo_shows'
  have hTo : T.ops = [0, 1] := by simpa only [opsOf, hT] using keepDemo_ops.1
  have h1 := keepDemo_objects
  have h2 := keepDemo_bits
  have h3 := keepDemo_classes
  match hops : keepDemoState.ops, hcl : keepDemoState.classes with
  | [o0, o1, o2], [k0, k1] =>
    rw [hops] at h1 h2
    rw [hcl] at h3
    simp only [List.map_cons, List.map_nil, List.cons.injEq, Prod.mk.injEq, and_true] at h1 h2 h3
    obtain ⟨⟨a1, a2, a3⟩, ⟨b1, b2, b3⟩, c1, c2, c3⟩ := h1
    obtain ⟨⟨a4, a5⟩, ⟨b4, b5⟩, c4, c5⟩ := h2
    obtain ⟨⟨k01, k02⟩, k11, k12⟩ := h3
    have r0 : Reads keepDemoState 0 ⟨0, .single .hadamard, [0], none, none⟩ :=
      ⟨o0, k0, by rw [hops]; rfl, by rw [hcl, a1]; rfl, rfl, a2, a4.symm, a5.symm, .inr ⟨[], List.length_eq_zero_iff.1 a3, by rw [k01, k02]; exact .hadamard, by rw [k02]; simp⟩⟩
    have r1 : Reads keepDemoState 1 ⟨1, .measurement, [0, 1], none, some [1, 0]⟩ :=
      ⟨o1, k1, by rw [hops]; rfl, by rw [hcl, b1]; rfl, rfl, b2, b4.symm, b5.symm, .inl ⟨k12, rfl⟩⟩
    obtain ⟨-, R, e1, e2⟩ := C83_measured (fun e he => he) keepDemo_reach hT hD hLT hL keepDemo_ops.2.2 (qs := [4, 2]) (bits := some [2, 3])
      (by rw [hTo]; exact .cons r0 (.cons r1 .nil)) (by simp [GoodOperands, arity]) (eq_pair keepDemo_call)
    obtain ⟨items, f1, -, f3⟩ := e1
    rw [keepDemo_seen] at f1
    cases f1
    subst f3
    obtain ⟨new, S', -, -, -, e3⟩ := e2 (![2, 0] : Fin 2 → Fin 3) (show Function.Injective (![2, 0] : Fin 2 → Fin 3) by decide)
      (show ∀ i : Fin 2, [4, 2][i.val]? = some ([2, 3, 4][(![2, 0] : Fin 2 → Fin 3) i]) by decide)
    obtain ⟨Bs, Bs', g1, g2, g3⟩ := e3 vals vals'
    exact ⟨S', Bs, Bs', g1, g2, g3⟩
  | [], _ => rw [hops] at h1; cases h1
  | [_], _ => rw [hops] at h1; simp at h1
  | [_, _], _ => rw [hops] at h1; simp at h1
  | _ :: _ :: _ :: _ :: _, _ => rw [hops] at h1; simp at h1
  | [_, _, _], [] => rw [hcl] at h3; cases h3
  | [_, _, _], [_] => rw [hcl] at h3; simp at h3
  | [_, _, _], _ :: _ :: _ :: _ => rw [hcl] at h3; simp at h3

end DG.Props
