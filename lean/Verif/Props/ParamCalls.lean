import Verif.Props.Calls

/-!
# Property C29: which calls of parametric circuits succeed
-/

namespace DG.Props
open Spec
variable {K : Type} [DecidableEq K] [Zero K]

omit [DecidableEq K] in
/-- Operations that fit can be copied if their variables have values or the circuit of the context is parametric. -/
theorem fits_copyable {w : World K} {D : Circ} {L : List Nat} {items : List Lbl} {qs : List Nat} {bitItems : Option (List Lbl)} {o : Nat}
    (hl : D.locked = false) (hqs : ∀ q ∈ qs, q ∈ L) (h : Fits w items bitItems o) (hv : D.parametric = true ∨ NonzeroIn w w.varVal o) :
    Copyable w D L items qs bitItems o := by
  obtain ⟨op, C, l, h1, h2, h3, h4, h5, h6, h7, h8⟩ := h
  refine ⟨op, C, h1, refusal_none hl hqs h2 h3 h4 h5 h6 (fun g1 m hm b hb => ?_) (fun g => ⟨h8 g, ?_⟩), ?_⟩
  · obtain ⟨bs, k1, k2, k3⟩ := h7 g1 m hm
    rw [k1] at hb
    exact k3 b hb
  · rcases hv with hv | hv
    · exact .inl hv
    · exact .inr (hv op C h1.object h1.cls g)
  · rintro ⟨g1, g2, g3⟩
    obtain ⟨m, hm⟩ := Option.isSome_iff_exists.1 g2
    obtain ⟨bs, k1, k2, k3⟩ := h7 g1 m hm
    rw [h2, k1] at g3
    simp only [Option.getD_some] at g3
    omega

omit [DecidableEq K] in
/-- Otherwise `ValueError` is raised. -/
theorem fits_refused {w : World K} {D : Circ} {L : List Nat} {items : List Lbl} {qs : List Nat} {bitItems : Option (List Lbl)} {o : Nat}
    (hl : D.locked = false) (hD : D.parametric = false) (h : Fits w items bitItems o) (hv : ¬ NonzeroIn w w.varVal o) :
    ∃ op C, IsOp w o op C ∧ refusal w D L items qs bitItems C op = some .valueError := by
  obtain ⟨op, C, l, h1, h2, h3, h4, h5, h6, h7, h8⟩ := h
  refine ⟨op, C, h1, ?_⟩
  have hv' : C.kind.isParametric = true ∧ D.parametric = false ∧ ∃ v, OpParam.var v ∈ op.params ∧ ¬ HasValue w v := by
    by_contra hc
    refine hv fun op' C' e1 e2 e3 v hm => ?_
    rw [h1.object] at e1
    cases e1
    rw [h1.cls] at e2
    cases e2
    by_contra hx
    exact hc ⟨e3, hD, v, hm, hx⟩
  unfold refusal
  simp only [h2, Option.getD_some]
  rw [if_neg, if_neg, if_neg, if_neg, if_neg, if_neg, if_neg, if_pos hv']
  · simp [hl]
  · rintro ⟨g1, g2⟩
    rcases h5 with g | g
    · exact g1 g
    · exact g2 g
  · exact fun g => h3 g.2
  · exact fun g => g.2 (h8 g.1)
  · exact fun g => g.2 (h6 g.1)
  · rintro ⟨g1, m, g2, b, g3, g4⟩
    obtain ⟨bs, k1, k2, k3⟩ := h7 g1 m g2
    rw [k1] at g3
    exact g4 (k3 b g3)
  · rintro ⟨q, g1, g2⟩
    exact g2 (h4 q g1)

omit [DecidableEq K] [Zero K] in
theorem qubitsOf_congr {w w' : World K} (h : w'.circs = w.circs) (a : Nat) : (qubitsOf a w').1 = (qubitsOf a w).1 := by
  unfold qubitsOf
  rw [h]
  cases w.circs[a]? with
  | none => rfl
  | some C => rfl

omit [DecidableEq K] [Zero K] in
theorem bitsOf_congr {w w' : World K} (h : w'.circs = w.circs) (hb : w'.bits = w.bits) (a : Nat) : (bitsOf a w').1 = (bitsOf a w).1 := by
  unfold bitsOf
  rw [h]
  cases w.circs[a]? with
  | none => rfl
  | some C => dsimp only; unfold World.bitEnv; rw [hb]

omit [DecidableEq K] [Zero K] in
theorem called_vars {w : World K} {a : Nat} {qs : List Nat} {bits : Option (List Nat)}
    {B : Nat} {D : Circ} {L : Layout} {items : List Lbl} {bitItems : Option (List Lbl)} (h : Called w a qs bits B D L items bitItems)
    (l : List (VarObj K)) (ex : List Nat) : Called { w with vars := l, onExit := ex } a qs bits B D L items bitItems := by
  refine ⟨h.target, h.other, h.circuit, h.registers, ?_, h.count, ?_⟩
  · have e := qubitsOf_congr (w := w) (w' := { w with vars := l, onExit := ex }) rfl a
    exact (congrArg seen e).trans h.qubits
  · have hb := h.bits
    rcases bits with _ | (_ | ⟨b, bs⟩)
    · exact hb
    · exact hb
    · have e := bitsOf_congr (w := w) (w' := { w with vars := l, onExit := ex }) rfl rfl a
      obtain ⟨items, g1, g2, g3⟩ := hb
      exact ⟨items, (congrArg seen e).trans g1, (congrArg count e).trans g2, g3⟩

/-- The first element without a property. -/
theorem first_without {α : Type} (R : α → Prop) : ∀ l : List α, (∀ x ∈ l, R x) ∨ ∃ pre x post, l = pre ++ x :: post ∧ (∀ y ∈ pre, R y) ∧ ¬ R x
  | [] => .inl (by simp)
  | a :: l => by
    by_cases ha : R a
    · rcases first_without R l with h | ⟨pre, x, post, h1, h2, h3⟩
      · exact .inl (by simpa [ha] using h)
      · exact .inr ⟨a :: pre, x, post, by simp [h1], by simpa [ha] using h2, h3⟩
    · exact .inr ⟨[], a, l, rfl, by simp, ha⟩

/-- C29: a parametric circuit whose operations fit is called with enough parameters, in the context of an unlocked circuit that is not parametric and has
the given qubits. The call succeeds exactly if all variables that the parametric operations use get nonzero values; otherwise it raises `ValueError`. -/
theorem C29_exact {P : Call K → Prop} {w : World K} (hw : Reach P w) (hP : ∀ e, P e → KeepsRegisters e) {a : Nat} {A : Circ}
    (hA : w.circs[a]? = some A) (hp : A.param = true) {ps : List K} (hn : A.vars.length ≤ ps.length) {qs : List Nat} {bits : Option (List Nat)}
    {B : Nat} {D : Circ} {L : Layout} {items : List Lbl} {bitItems : Option (List Lbl)} (h : Called w a qs bits B D L items bitItems)
    (hl : D.locked = false) (hD : D.parametric = false) (hqs : ∀ q ∈ qs, q ∈ L.items) (hops : ∀ o ∈ A.ops, Fits w items bitItems o) :
    ((∀ o ∈ A.ops, NonzeroIn w (assigned A.vars ps w.varVal) o) → (callParam a ps qs bits w).1 = .ok ()) ∧
    (¬ (∀ o ∈ A.ops, NonzeroIn w (assigned A.vars ps w.varVal) o) → (callParam a ps qs bits w).1 = .error .valueError) := by
  obtain ⟨l, h1, h2, h3⟩ := callParam_eq (Refs.reach hw) hA hp (World.target_active h.target) hn qs bits
  rw [h3, ← funext h2]
  have hq : QInv true false { w with vars := l, onExit := w.onExit ++ [a] } := (keepsRegisters_inv hw hP).same rfl rfl rfl
  have hov : OpsInv { w with vars := l, onExit := w.onExit ++ [a] } := ⟨(OpsInv.reach hw).ops⟩
  have hE := callCirc_exact hq hov hA (bits := bits) (qs := qs) (B := B) (D := D) (L := L) (items := items) (bitItems := bitItems)
    (called_vars h l (w.onExit ++ [a]))
  have hfit : ∀ o ∈ A.ops, Fits { w with vars := l, onExit := w.onExit ++ [a] } items bitItems o := by
    intro o ho
    obtain ⟨op, C, l, g, g'⟩ := hops o ho
    exact ⟨op, C, l, ⟨g.object, g.cls, g.some_qubits⟩, g'⟩
  constructor
  · intro hv
    obtain ⟨w', hc⟩ := hE.1 fun o ho => fits_copyable hl hqs (hfit o ho) (.inr (hv o ho))
    rw [hc]
  · intro hv
    rcases first_without (NonzeroIn w (World.varVal { w with vars := l, onExit := w.onExit ++ [a] })) A.ops with hg | ⟨pre, o, post, e1, e2, e3⟩
    · exact absurd hg hv
    · have hf := hfit o (by rw [e1]; simp)
      obtain ⟨op, C, g1, g2⟩ := fits_refused (L := L.items) (qs := qs) hl hD hf e3
      obtain ⟨R, w1, new, -, -, -, k1, -⟩ := hE.2 pre o post op C e1
        (fun o' ho' => fits_copyable hl hqs (hfit o' (by rw [e1]; simp [ho'])) (.inr (e2 o' ho'))) g1
      obtain ⟨w', k2, -⟩ := k1 _ g2
      rw [k2]

/-- C29: in the context of a parametric circuit, such a call always succeeds. -/
theorem C29_exact_parametric {P : Call K → Prop} {w : World K} (hw : Reach P w) (hP : ∀ e, P e → KeepsRegisters e) {a : Nat} {A : Circ}
    (hA : w.circs[a]? = some A) (hp : A.param = true) {ps : List K} (hn : A.vars.length ≤ ps.length) {qs : List Nat} {bits : Option (List Nat)}
    {B : Nat} {D : Circ} {L : Layout} {items : List Lbl} {bitItems : Option (List Lbl)} (h : Called w a qs bits B D L items bitItems)
    (hl : D.locked = false) (hD : D.parametric = true) (hqs : ∀ q ∈ qs, q ∈ L.items) (hops : ∀ o ∈ A.ops, Fits w items bitItems o) :
    (callParam a ps qs bits w).1 = .ok () := by
  obtain ⟨l, h1, h2, h3⟩ := callParam_eq (Refs.reach hw) hA hp (World.target_active h.target) hn qs bits
  rw [h3]
  have hq : QInv true false { w with vars := l, onExit := w.onExit ++ [a] } := (keepsRegisters_inv hw hP).same rfl rfl rfl
  have hov : OpsInv { w with vars := l, onExit := w.onExit ++ [a] } := ⟨(OpsInv.reach hw).ops⟩
  obtain ⟨w', hc⟩ := (callCirc_exact hq hov hA (bits := bits) (qs := qs) (B := B) (D := D) (L := L) (items := items) (bitItems := bitItems)
    (called_vars h l (w.onExit ++ [a]))).1 fun o ho => by
      refine fits_copyable hl hqs ?_ (.inl hD)
      obtain ⟨op, C, l, g, g'⟩ := hops o ho
      exact ⟨op, C, l, ⟨g.object, g.cls, g.some_qubits⟩, g'⟩
  rw [hc]

namespace ParamOutcome
deriving instance DecidableEq for Arity.Cls, OpCls
end ParamOutcome

theorem paramDemo_reach : Reach KeepsRegisters paramDemoAt := by
  have h1 : paramDemo.run {} = (.ok (), paramDemo.final) := final_ok (by decide +kernel)
  have h2 : openCtx 2 paramDemo.final = (.ok 2, paramDemoAt) := eq_pair (by decide +kernel)
  refine ⟨.seq paramDemo (.withCtx 2 .skip), ?_, ?_⟩
  · simp [paramDemo, Prog.All, KeepsRegisters]
  · exact .inr ⟨paramDemo.final, h1, .inr (.inr ⟨2, paramDemoAt, h2, .inl rfl⟩)⟩

theorem paramDemo_objects : paramDemoAt.ops = [{ cls := 0, qubits := some [0], numQubits := some 1, params := [.var 1] },
      { cls := 0, qubits := some [1], numQubits := some 1, params := [.var 0] },
      { cls := 1, qubits := some [2, 3], numQubits := some 2, control := some [2], target := some [3], params := [.var 2] }] ∧
    paramDemoAt.classes = [⟨"RX", .parametric, ⟨false, some 1, none, none⟩, some 1⟩, ⟨"CRX", .pcontrolled, ⟨true, none, some 1, some 1⟩, some 1⟩] ∧
    opsOf paramDemoAt 0 = [0, 1] ∧ paramDemoAt.target = some 2 := by
  refine ⟨?_, ?_, ?_, ?_⟩ <;> decide +kernel

theorem paramDemo_circs : paramDemoAt.circs.map (fun C => (C.param, C.vars, C.locked, C.parametric)) =
    [(true, [0, 1], true, true), (true, [2], true, true), (false, [], false, false)] := by decide +kernel

/-- `C29_exact` for the demo program: `template((x, y), (q5, q4))` succeeds exactly if both numbers are nonzero. -/
example (x y : Int) : ((callParam 0 [x, y] [5, 4] none paramDemoAt).1 = .ok () ↔ x ≠ 0 ∧ y ≠ 0) ∧
    (¬ (x ≠ 0 ∧ y ≠ 0) → (callParam 0 [x, y] [5, 4] none paramDemoAt).1 = .error .valueError) := by
  obtain ⟨D, hD⟩ := shows_circ (w := paramDemoAt) (c := 2) Circ.q (L := [(.str "qreg0", [4, 5])]) (by decide +kernel)
  obtain ⟨A, hA, -⟩ := shows_circ (w := paramDemoAt) (c := 0) Circ.q (L := [(.str "qreg0", [0, 1])]) (by decide +kernel)
  obtain ⟨h1, h2, h3, h4⟩ := paramDemo_objects
  have hc := paramDemo_circs
  have cA := congrArg (fun l => l[0]?) hc
  have cD := congrArg (fun l => l[2]?) hc
  simp [hA] at cA
  simp [hD.1] at cD
  rw [opsOf_of_get hA] at h3
  have hcall : Called paramDemoAt 0 [5, 4] none 2 D [(.str "qreg0", [4, 5])] [.obj 0, .obj 1] none :=
    ⟨h4, by decide, hD.1, hD.2, by decide +kernel, rfl, rfl⟩
  have hE := C29_exact paramDemo_reach (fun _ h => h) hA cA.1 (ps := [x, y]) (by rw [cA.2.1]; simp) hcall cD.2.2.1 cD.2.2.2 (by simp [Layout.items]) (by
    rw [h3]
    intro o ho
    simp only [List.mem_cons, List.not_mem_nil, or_false] at ho
    rcases ho with rfl | rfl
    · exact ⟨_, _, [0], ⟨by rw [h1]; rfl, by rw [h2]; rfl, by simp⟩, rfl, by simp, by simp, by simp, by simp, by simp, by simp⟩
    · exact ⟨_, _, [1], ⟨by rw [h1]; rfl, by rw [h2]; rfl, by simp⟩, rfl, by simp, by simp, by simp, by simp, by simp, by simp⟩)
  have hv : (∀ o ∈ A.ops, NonzeroIn paramDemoAt (assigned A.vars [x, y] paramDemoAt.varVal) o) ↔ x ≠ 0 ∧ y ≠ 0 := by
    rw [h3, cA.2.1]
    unfold NonzeroIn
    rw [h1, h2]
    have a0 : assigned [0, 1] [x, y] paramDemoAt.varVal 0 = some x := rfl
    have a1 : assigned [0, 1] [x, y] paramDemoAt.varVal 1 = some y := rfl
    constructor
    · intro h
      obtain ⟨y', g1, g2⟩ := h 0 (by simp) _ _ rfl rfl rfl 1 (by simp)
      obtain ⟨x', g3, g4⟩ := h 1 (by simp) _ _ rfl rfl rfl 0 (by simp)
      rw [a1] at g1
      rw [a0] at g3
      cases g1
      cases g3
      exact ⟨g4, g2⟩
    · rintro ⟨gx, gy⟩ o ho op C e1 e2 - v hv
      simp only [List.mem_cons, List.not_mem_nil, or_false] at ho
      rcases ho with rfl | rfl
      · simp only [List.getElem?_cons_zero, Option.some.injEq] at e1
        subst e1
        simp only [List.mem_singleton, OpParam.var.injEq] at hv
        subst hv
        exact ⟨y, a1, gy⟩
      · simp only [List.getElem?_cons_succ, List.getElem?_cons_zero, Option.some.injEq] at e1
        subst e1
        simp only [List.mem_singleton, OpParam.var.injEq] at hv
        subst hv
        exact ⟨x, a0, gx⟩
  rw [hv] at hE
  refine ⟨⟨fun h => ?_, hE.1⟩, hE.2⟩
  by_contra hn
  rw [hE.2 hn] at h
  cases h

end DG.Props
