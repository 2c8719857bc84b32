import Verif.Proofs.Loads
import Verif.Proofs.Enter

/-! What loading leaves as it is, whether it succeeds or not. -/

namespace DG
open Spec
variable {K : Type} [DecidableEq K] [Zero K]

/-- Circuits other than `c`, the operations of `c`, and all objects are what they were; there may be more objects, and more operations in `c`. -/
structure Kept (c : Nat) (w0 w : World K) : Prop where
  other : ∀ d, d ≠ c → w.circs[d]? = w0.circs[d]?
  front : opsOf w0 c <+: opsOf w c
  ops : w0.ops <+: w.ops
  qubits : w0.qubits <+: w.qubits
  bits : w0.bits <+: w.bits

omit [DecidableEq K] [Zero K] in
theorem Kept.refl (c : Nat) (w : World K) : Kept c w w := ⟨fun _ _ => rfl, List.prefix_rfl, List.prefix_rfl, List.prefix_rfl, List.prefix_rfl⟩

omit [DecidableEq K] [Zero K] in
theorem Kept.setC {c : Nat} {w0 w w' : World K} (h : Kept c w0 w) {C C' : Circ} (hC : w.circs[c]? = some C) (h1 : w'.circs = w.circs.set c C')
    (h2 : C.ops <+: C'.ops) (h3 : w'.ops = w.ops) (h4 : w.qubits <+: w'.qubits) (h5 : w.bits <+: w'.bits) : Kept c w0 w' where
  other d hd := by
    rw [h1, List.getElem?_set_ne (Ne.symm hd)]
    exact h.other d hd
  front := by
    have := h.front
    have e1 : opsOf w c = C.ops := by simp [opsOf, hC]
    have e2 : opsOf w' c = C'.ops := by simp [opsOf, h1, List.getElem?_set_self (List.getElem?_eq_some_iff.1 hC).1]
    rw [e2]
    rw [e1] at this
    exact this.trans h2
  ops := by rw [h3]; exact h.ops
  qubits := h.qubits.trans h4
  bits := h.bits.trans h5

omit [DecidableEq K] [Zero K] in
theorem Kept.same {c : Nat} {w0 w w' : World K} (h : Kept c w0 w) (h1 : w'.circs = w.circs) (h3 : w.ops <+: w'.ops) (h4 : w'.qubits = w.qubits)
    (h5 : w'.bits = w.bits) : Kept c w0 w' where
  other d hd := by rw [h1]; exact h.other d hd
  front := by
    have : opsOf w' c = opsOf w c := by simp [opsOf, h1]
    rw [this]; exact h.front
  ops := h.ops.trans h3
  qubits := by rw [h4]; exact h.qubits
  bits := by rw [h5]; exact h.bits

/-- `P` is kept, and results satisfy `Q`. -/
def Post {α : Type} (P : World K → Prop) (Q : α → Prop) (m : M K α) : Prop := ∀ w, P w → P (m w).2 ∧ ∀ a, (m w).1 = .ok a → Q a

section
variable {α β : Type} {P : World K → Prop} {Q : α → Prop} {R : β → Prop}

omit [DecidableEq K] [Zero K] in
theorem Post.of_pres {m : M K α} (h : Pres P m) : Post P (fun _ => True) m := fun w hw => ⟨h w hw, fun _ _ => trivial⟩

omit [DecidableEq K] [Zero K] in
theorem Post.pres {m : M K α} (h : Post P Q m) : Pres P m := fun w hw => (h w hw).1

omit [DecidableEq K] [Zero K] in
theorem Post.bind {m : M K α} {f : α → M K β} (hm : Post P Q m) (hf : ∀ a, Q a → Post P R (f a)) : Post P R (m >>= f) := by
  intro w hw
  have h1 := hm w hw
  rw [bind_def]
  generalize m w = z at h1
  obtain ⟨e | a, w1⟩ := z
  · exact ⟨h1.1, fun a ha => by cases ha⟩
  · exact hf a (h1.2 a rfl) w1 h1.1

omit [DecidableEq K] [Zero K] in
theorem Post.pure {a : α} (h : Q a) : Post P Q (pure a : M K α) := fun _ hw => ⟨hw, fun b hb => by cases hb; exact h⟩
end

section
variable {c : Nat} {w0 : World K}

omit [DecidableEq K] [Zero K] in
theorem kept_modCirc {f : Circ → Circ} (hf : ∀ C, C.ops <+: (f C).ops) : Pres (Kept c w0) (modCirc c f) := by
  intro w h
  unfold modCirc M.write
  dsimp only
  split
  · next C hC => exact h.setC hC rfl (hf C) rfl List.prefix_rfl List.prefix_rfl
  · exact h

omit [DecidableEq K] [Zero K] in
theorem kept_qubitsOf : Pres (Kept c w0) (qubitsOf c) := by
  intro w h
  unfold qubitsOf
  split
  · exact h
  · next C hC => exact h.setC hC rfl List.prefix_rfl rfl List.prefix_rfl List.prefix_rfl

omit [DecidableEq K] [Zero K] in
theorem kept_bitsOf : Pres (Kept c w0) (bitsOf c) := by
  intro w h
  unfold bitsOf
  split
  · exact h
  · next C hC => exact h.setC hC rfl List.prefix_rfl rfl List.prefix_rfl List.prefix_rfl

omit [DecidableEq K] [Zero K] in
theorem kept_addQubit : Pres (Kept c w0) (addQubit c .none none) := by
  intro w h
  unfold addQubit
  split
  · exact h
  · next C hC =>
    dsimp only
    split
    · exact h.setC hC rfl List.prefix_rfl rfl List.prefix_rfl List.prefix_rfl
    · exact h.setC hC rfl List.prefix_rfl rfl (List.prefix_append _ _) List.prefix_rfl

omit [DecidableEq K] [Zero K] in
theorem kept_addBit : Pres (Kept c w0) (addBit c .none none) := by
  intro w h
  unfold addBit
  split
  · exact h
  · next C hC =>
    dsimp only
    split
    · exact h.setC hC rfl List.prefix_rfl rfl List.prefix_rfl List.prefix_rfl
    · exact h.setC hC rfl List.prefix_rfl rfl List.prefix_rfl (List.prefix_append _ _)

omit [DecidableEq K] [Zero K] in
theorem kept_unlock : Pres (Kept c w0) (unlockCirc c) := kept_modCirc fun C => by
  split <;> exact List.prefix_rfl

omit [DecidableEq K] [Zero K] in
theorem kept_resetVariables (d : Nat) : Pres (Kept c w0) (resetVariables d) := by
  refine pres_bind (pres_deref _) fun C => pres_each fun v w h => ?_
  unfold resetVar M.write
  dsimp only
  split
  · exact h.same rfl List.prefix_rfl rfl rfl
  · exact h

omit [DecidableEq K] [Zero K] in
theorem kept_contextOf : Pres (Kept c w0) (contextOf c) := by
  intro w h
  unfold contextOf
  split
  · exact h
  · next C hC =>
    split
    · exact h
    · exact h.setC hC rfl List.prefix_rfl rfl List.prefix_rfl List.prefix_rfl

/-- `x` is a context of circuit `c`. -/
def CtxIs (c x : Nat) (w : World K) : Prop := ∃ X, w.ctxs[x]? = some X ∧ X.circuit = c

omit [DecidableEq K] [Zero K] in
theorem ctxs_qubitsOf (d : Nat) (w : World K) : (qubitsOf d w).2.ctxs = w.ctxs ∧ (qubitsOf d w).2.active = w.active := by
  unfold qubitsOf
  split <;> exact ⟨rfl, rfl⟩

omit [DecidableEq K] [Zero K] in
theorem ctxs_bitsOf (d : Nat) (w : World K) : (bitsOf d w).2.ctxs = w.ctxs ∧ (bitsOf d w).2.active = w.active := by
  unfold bitsOf
  split <;> exact ⟨rfl, rfl⟩

omit [DecidableEq K] [Zero K] in
theorem kept_enter {w : World K} (h : Kept c w0 w) {x : Nat} (hx : CtxIs c x w) : Kept c w0 (enterCtx x w).2 := by
  obtain ⟨X, h1, h2⟩ := hx
  unfold enterCtx ctxObj
  rw [bind_def]
  simp only [M.deref, h1]
  rw [h2]
  refine pres_bind (P := Kept c w0) (pres_deref _) (fun C => pres_bind (pres_raiseIf _ _) fun _ => pres_bind (pres_read _) fun a => pres_bind (pres_raiseIf _ _) fun _ =>
    pres_bind (fun w h => ?_) fun _ => pres_bind kept_qubitsOf fun _ => pres_bind kept_bitsOf fun _ => pres_pure _) w h
  exact h.same rfl List.prefix_rfl rfl rfl

omit [DecidableEq K] [Zero K] in
theorem kept_open {w : World K} (hr : Refs w) (h : Kept c w0 w) : Kept c w0 (openCtx c w).2 := by
  unfold openCtx
  rw [bind_def]
  cases hC : w.circs[c]? with
  | none =>
    have : contextOf c w = (.error .typeError, w) := by unfold contextOf; rw [hC]
    rw [this]
    exact h
  | some C =>
    obtain ⟨x, X, h1, h2, h3, -, -⟩ := contextOf_ok hr hC
    have hk := kept_contextOf w h
    rw [h1]
    dsimp only
    rw [bind_def]
    have := kept_enter hk ⟨X, h2, h3⟩
    generalize enterCtx x (contextOf c w).2 = z at this
    obtain ⟨_ | _, _⟩ := z <;> exact this

omit [DecidableEq K] [Zero K] in
theorem kept_exit {w : World K} (h : Kept c w0 w) {x : Nat} (hx : CtxIs c x w) : Kept c w0 (exitCtx x w).2 := by
  obtain ⟨X, h1, h2⟩ := hx
  unfold exitCtx ctxObj
  rw [bind_def]
  simp only [M.deref, h1]
  rw [h2]
  refine pres_bind (P := Kept c w0) (kept_modCirc fun C => ?_) (fun _ => pres_bind (fun w h => ?_) fun _ => pres_bind (pres_read _) fun fs =>
    pres_bind (pres_each fun d => kept_resetVariables d) fun _ => pres_bind (fun w h => ?_) fun _ => kept_modCirc fun C => ?_) w h
  · split <;> exact List.prefix_rfl
  · exact h.same rfl List.prefix_rfl rfl rfl
  · exact h.same rfl List.prefix_rfl rfl rfl
  · exact List.prefix_rfl

/-- The state inside a context of `c`. -/
def KeptIn (c x : Nat) (w0 w : World K) : Prop := Kept c w0 w ∧ w.active = some x ∧ CtxIs c x w

omit [DecidableEq K] [Zero K] in
theorem KeptIn.qubitsOf {x : Nat} : Pres (KeptIn c x w0) (qubitsOf c) := fun w h =>
  ⟨kept_qubitsOf w h.1, by rw [(ctxs_qubitsOf c w).2]; exact h.2.1, by unfold CtxIs; rw [(ctxs_qubitsOf c w).1]; exact h.2.2⟩

omit [DecidableEq K] [Zero K] in
theorem KeptIn.bitsOf {x : Nat} : Pres (KeptIn c x w0) (bitsOf c) := fun w h =>
  ⟨kept_bitsOf w h.1, by rw [(ctxs_bitsOf c w).2]; exact h.2.1, by unfold CtxIs; rw [(ctxs_bitsOf c w).1]; exact h.2.2⟩

omit [DecidableEq K] [Zero K] in
theorem KeptIn.same {x : Nat} {w w' : World K} (h : KeptIn c x w0 w) (h1 : w'.circs = w.circs) (h3 : w0.ops <+: w'.ops) (h4 : w'.qubits = w.qubits)
    (h5 : w'.bits = w.bits) (h6 : w'.active = w.active) (h7 : w'.ctxs = w.ctxs) : KeptIn c x w0 w' := by
  refine ⟨⟨?_, ?_, h3, ?_, ?_⟩, h6.trans h.2.1, ?_⟩
  · rw [h1]; exact h.1.other
  · have : opsOf w' c = opsOf w c := by simp [opsOf, h1]
    rw [this]; exact h.1.front
  · rw [h4]; exact h.1.qubits
  · rw [h5]; exact h.1.bits
  · unfold CtxIs; rw [h7]; exact h.2.2

omit [DecidableEq K] [Zero K] in
theorem prefix_set {α : Type} {l m : List α} (h : l <+: m) {i : Nat} (hi : l.length ≤ i) (a : α) : l <+: m.set i a := by
  obtain ⟨t, rfl⟩ := h
  rw [List.set_append_right i a hi]
  exact List.prefix_append _ _

omit [DecidableEq K] [Zero K] in
theorem KeptIn.modOp {x o : Nat} (ho : w0.ops.length ≤ o) (f : OpObj K → OpObj K) : Pres (KeptIn c x w0) (modOp o f) := by
  intro w h
  unfold DG.modOp M.write
  dsimp only
  split
  · exact h.same rfl (prefix_set h.1.ops ho _) rfl rfl rfl rfl
  · exact h

theorem KeptIn.evalInPlace {x o : Nat} (ho : w0.ops.length ≤ o) (g : Option (List K)) : Pres (KeptIn c x w0) (evalInPlace o g) := by
  intro w h
  unfold DG.evalInPlace
  split
  · exact h
  · next op hop =>
    split
    · exact h
    · split
      · dsimp only
        exact h.same rfl (prefix_set h.1.ops ho _) rfl rfl rfl rfl
      · exact h

theorem KeptIn.append {x o : Nat} (ho : w0.ops.length ≤ o) : Pres (KeptIn c x w0) (appendOp c o) := by
  refine pres_bind (pres_deref _) fun C => pres_bind (pres_raiseIf _ _) fun _ => pres_bind (pres_whenever (KeptIn.evalInPlace ho none)) fun _ =>
    pres_bind (pres_deref _) fun op => pres_bind ?_ fun _ w h => ?_
  · exact pres_each fun q => pres_bind KeptIn.qubitsOf fun _ => pres_raiseIf _ _
  · refine ⟨kept_modCirc (fun C => List.prefix_append _ _) w h.1, ?_, ?_⟩
    · unfold modCirc M.write
      dsimp only
      split <;> exact h.2.1
    · unfold CtxIs modCirc M.write
      dsimp only
      split <;> exact h.2.2

theorem KeptIn.init {x : Nat} (op : OpObj K) (q : Option (List Nat)) : Post (KeptIn c x w0) (fun o => w0.ops.length ≤ o) (initOperation op q) := by
  intro w h
  unfold initOperation
  rw [bind_def]
  simp only [M.read]
  refine Post.bind (Post.of_pres (P := KeptIn c x w0) ?_) (fun _ _ => Post.bind (Q := fun o => w0.ops.length ≤ o) ?_ fun o ho => Post.bind (Post.of_pres ?_) fun _ _ => Post.pure ho) w h
  · cases q with
    | none => exact pres_raiseIf _ _
    | some l =>
      intro w h
      unfold checkArg checkArity
      dsimp only
      split
      · exact h
      · exact h.same rfl h.1.ops rfl rfl rfl rfl
  · intro w h
    refine ⟨h.same rfl (h.1.ops.trans (List.prefix_append _ _)) rfl rfl rfl rfl, fun o ho => ?_⟩
    cases ho
    exact h.1.ops.length_le
  · unfold register
    cases hw : w.active with
    | none => exact pres_pure _
    | some y =>
      intro w' h'
      dsimp only
      have hy : y = x := by
        have := h.2.1
        rw [hw] at this
        cases this
        rfl
      subst hy
      obtain ⟨X, e1, e2⟩ := h'.2.2
      rw [bind_def]
      simp only [ctxObj, M.deref, e1]
      rw [e2]
      exact pres_whenever (KeptIn.append ho) w' h'

theorem KeptIn.construct {x : Nat} (k : Nat) (ps : Option (List (OpParam K))) (a : QArgs) :
    Post (KeptIn c x w0) (fun o => w0.ops.length ≤ o) (construct k ps a) := by
  unfold DG.construct
  refine Post.bind (Post.of_pres (pres_deref _)) fun C _ => ?_
  split
  · exact KeptIn.init _ _
  · exact KeptIn.init _ _
  · exact Post.bind (Post.of_pres (pres_raiseIf _ _)) fun _ _ => KeptIn.init _ _
  · exact KeptIn.init _ _
  · exact Post.bind (Post.of_pres (pres_raiseIf _ _)) fun _ _ => Post.bind (KeptIn.init _ _) fun o ho => Post.bind (Post.of_pres (pres_raiseIf _ _)) fun _ _ =>
      Post.bind (Post.of_pres (KeptIn.modOp ho _)) fun _ _ => Post.pure ho
  · exact fun w h => ⟨h, fun a ha => by cases ha⟩

theorem KeptIn.measureInto {x o : Nat} (ho : w0.ops.length ≤ o) (bs : List Nat) : Pres (KeptIn c x w0) (measureInto o bs) := by
  unfold DG.measureInto
  refine pres_bind (pres_deref _) fun op => pres_bind (pres_deref _) fun C => ?_
  split
  · exact pres_bind (pres_raiseIf _ _) fun _ => KeptIn.modOp ho _
  · exact pres_raise _

/-- Inside a context that was opened for `c`, and after it. -/
theorem kept_with {m : M K Unit} (hm : ∀ x, Pres (KeptIn c x w0) m) {w : World K} (hr : Refs w) (h : Kept c w0 w) :
    Kept c w0 (withStmt (openCtx c) m exitCtx w).2 := by
  have h1 := kept_open hr h
  unfold withStmt
  rcases ho : openCtx c w with ⟨e | x, w1⟩
  · rw [ho] at h1
    exact h1
  · rw [ho] at h1
    obtain ⟨g1, g2⟩ := openCtx_inv hr ho
    have h2 := hm x w1 ⟨h1, g1, g2⟩
    have h3 := kept_exit h2.1 h2.2.2
    dsimp only
    generalize exitCtx x (m w1).2 = z at h3
    obtain ⟨_ | _, _⟩ := z <;> exact h3

theorem refs_done {A : Call K → Prop} {α : Type} {m : M K α} (h : Done A m) : Pres (Refs (K := K)) m := by
  intro w hw
  obtain ⟨p, -, e⟩ := h w
  have := Refs.run p w hw
  rw [e] at this
  exact this

/-- The state of a load between contexts. -/
def KeptR (c : Nat) (w0 w : World K) : Prop := Refs w ∧ Kept c w0 w

open Qir

theorem kept_apply (lib : String → Nat) (name : String) (ps : List K) (qs : List Nat) (x : Nat) : Pres (KeptIn c x w0) (Qir.apply lib c name ps qs) := by
  refine pres_bind KeptIn.qubitsOf fun r => pres_bind (fun w h => h) fun l => pres_bind (pres_deref _) fun k => ?_
  split
  · exact pres_raise _
  · exact pres_void (KeptIn.construct _ _ _).pres

theorem kept_loadGate (lib : String → Nat) (name : String) (ps : List K) (qs : List Nat) : Pres (KeptR c w0) (loadGate lib c name ps qs) := by
  have hd : Pres (Refs (K := K)) (qubitsOf c) := Refs.qubitsOf c
  refine pres_bind (fun w h => ⟨hd w h.1, kept_qubitsOf w h.2⟩) fun r => pres_bind (pres_each fun _ w h => ⟨?_, kept_addQubit w h.2⟩) fun _ =>
    pres_bind (fun w h => ⟨?_, kept_unlock w h.2⟩) fun _ w h => ⟨?_, kept_with (kept_apply lib name ps qs) h.1 h.2⟩
  · exact refs_done (A := BuildCall) (Done.unit (.addQubit c .none none) trivial rfl) w h.1
  · exact refs_done (A := BuildCall) (Done.unit (.unlock c) trivial rfl) w h.1
  · exact refs_done (Done.withCtx c (done_apply lib c name ps qs)) w h.1

theorem kept_applyMeasure (lib : String → Nat) (qs bs : List Nat) (x : Nat) : Pres (KeptIn c x w0) (applyMeasure lib c qs bs) :=
  Post.pres (Q := fun _ => True) (Post.bind (Post.of_pres KeptIn.qubitsOf) fun _ _ => Post.bind (Post.of_pres fun w h => h) fun _ _ =>
    Post.bind (Post.of_pres KeptIn.bitsOf) fun _ _ => Post.bind (Post.of_pres fun w h => h) fun _ _ =>
      Post.bind (KeptIn.construct _ _ _) fun o ho => Post.of_pres (KeptIn.measureInto ho _))

theorem kept_addMeasurements (lib : String → Nat) (qs bs : List Nat) : Pres (KeptR c w0) (addMeasurements lib c qs bs) := by
  have hd : Pres (Refs (K := K)) (bitsOf c) := Refs.bitsOf c
  refine pres_bind (fun w h => ⟨hd w h.1, kept_bitsOf w h.2⟩) fun r => pres_bind (pres_each fun _ w h => ⟨?_, kept_addBit w h.2⟩) fun _ =>
    pres_bind (fun w h => ⟨?_, kept_unlock w h.2⟩) fun _ w h => ⟨?_, kept_with (kept_applyMeasure lib qs bs) h.1 h.2⟩
  · exact refs_done (A := BuildCall) (Done.unit (.addBit c .none none) trivial rfl) w h.1
  · exact refs_done (A := BuildCall) (Done.unit (.unlock c) trivial rfl) w h.1
  · exact refs_done (Done.withCtx c (done_applyMeasure lib c qs bs)) w h.1

theorem kept_loadCall (lib : String → Nat) (f : String) (args : List (QirArg K)) (acc : List Nat × List Nat) : Pres (KeptR c w0) (loadCall lib c f args acc) := by
  unfold loadCall
  split
  · exact pres_pure _
  split
  · exact pres_raise _
  split
  · exact pres_raise _
  split
  · exact pres_pure _
  · exact pres_bind (kept_loadGate lib _ _ _) fun _ => pres_pure _

theorem kept_loadBlock (lib : String → Nat) : ∀ (b : List (LInstr K)) (acc : List Nat × List Nat), Pres (KeptR c w0) (loadBlock lib c b acc)
  | [], _ => pres_pure _
  | .ret :: _, _ => pres_pure _
  | .other :: is, acc => kept_loadBlock lib is acc
  | .call f args :: is, acc => pres_bind (kept_loadCall lib f args acc) fun _ => kept_loadBlock lib is _

theorem kept_loadFunction (lib : String → Nat) : ∀ (f : List (List (LInstr K))) (acc : List Nat × List Nat), Pres (KeptR c w0) (loadFunction lib c f acc)
  | [], _ => pres_pure _
  | b :: bs, acc => pres_bind (kept_loadBlock lib b acc) fun r => by
      split
      · exact pres_pure _
      · exact kept_loadFunction lib bs _

theorem kept_loadFunctions (lib : String → Nat) : ∀ (P : QirProgram K) (acc : List Nat × List Nat), Pres (KeptR c w0) (loadFunctions lib c P acc)
  | [], _ => pres_pure _
  | f :: fs, acc => pres_bind (kept_loadFunction lib f acc) fun _ => kept_loadFunctions lib fs _

theorem kept_loadInto (lib : String → Nat) (P : QirProgram K) : Pres (KeptR c w0) (loadInto lib c P) :=
  pres_bind (kept_loadFunctions lib P _) fun _ => pres_whenever (kept_addMeasurements lib _ _)

end

end DG
