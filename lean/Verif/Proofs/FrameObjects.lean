import Verif.Proofs.Frame

/-! Lemmas for C123, objects other than circuits. -/

namespace DG
open Spec
variable {K : Type}

/-- The operations in `O`, bits in `B`, variables in `V` and qubits in `Q` are as in `w0`. -/
structure Fixed (w0 : World K) (O B V Q : Nat → Prop) (w : World K) : Prop where
  ops : ∀ i x, O i → w0.ops[i]? = some x → w.ops[i]? = some x
  bits : ∀ i x, B i → w0.bits[i]? = some x → w.bits[i]? = some x
  vars : ∀ i x, V i → w0.vars[i]? = some x → w.vars[i]? = some x
  qubits : ∀ i x, Q i → w0.qubits[i]? = some x → w.qubits[i]? = some x

/-- `m` keeps `P`, and its result satisfies `R`. -/
def Gives {α : Type} (P : World K → Prop) (R : α → Prop) (m : M K α) : Prop := ∀ w, P w → P (m w).2 ∧ ∀ a, (m w).1 = .ok a → R a

theorem gives_bind {α β : Type} {P : World K → Prop} {R : α → Prop} {S : β → Prop} {m : M K α} {f : α → M K β} (hm : Gives P R m) (hf : ∀ a, R a → Gives P S (f a)) :
    Gives P S (m >>= f) := by
  intro w h
  have h1 := hm w h
  rw [bind_def]
  rcases hw : m w with ⟨e | a, w'⟩
  · rw [hw] at h1
    exact ⟨h1.1, fun a ha => by cases ha⟩
  · rw [hw] at h1
    exact hf a (h1.2 a rfl) w' h1.1

theorem gives_pure {α : Type} {P : World K → Prop} {R : α → Prop} {a : α} (ha : R a) : Gives P R (pure a : M K α) := fun _ h => ⟨h, fun _ e => by cases e; exact ha⟩

theorem Pres.gives {α : Type} {P : World K → Prop} {m : M K α} (h : Pres P m) : Gives P (fun _ => True) m := fun w hw => ⟨h w hw, fun _ _ => trivial⟩

theorem Gives.pres {α : Type} {P : World K → Prop} {R : α → Prop} {m : M K α} (h : Gives P R m) : Pres P m := fun w hw => (h w hw).1

theorem gives_raise {α : Type} {P : World K → Prop} {R : α → Prop} (e : Err) : Gives P R (M.raise e : M K α) := fun _ h => ⟨h, fun _ e => by cases e⟩

theorem grown {α : Type} {l l' : List α} {i : Nat} {x : α} (h : l[i]? = some x) : (l ++ l')[i]? = some x := by
  rw [List.getElem?_append_left (List.getElem?_eq_some_iff.1 h).1]
  exact h

section
variable {w0 : World K} {O B V Q : Nat → Prop}

theorem Fixed.grow {w w' : World K} (h : Fixed w0 O B V Q w) {a : List (OpObj K)} {b : List BitObj} {c : List (VarObj K)} {d : List RLabel} (h1 : w'.ops = w.ops ++ a)
    (h2 : w'.bits = w.bits ++ b) (h3 : w'.vars = w.vars ++ c) (h4 : w'.qubits = w.qubits ++ d) : Fixed w0 O B V Q w' :=
  ⟨fun i x hi hx => by rw [h1]; exact grown (h.ops i x hi hx), fun i x hi hx => by rw [h2]; exact grown (h.bits i x hi hx),
    fun i x hi hx => by rw [h3]; exact grown (h.vars i x hi hx), fun i x hi hx => by rw [h4]; exact grown (h.qubits i x hi hx)⟩

theorem Fixed.same {w w' : World K} (h : Fixed w0 O B V Q w) (h1 : w'.ops = w.ops) (h2 : w'.bits = w.bits) (h3 : w'.vars = w.vars) (h4 : w'.qubits = w.qubits) :
    Fixed w0 O B V Q w' := ⟨by rw [h1]; exact h.ops, by rw [h2]; exact h.bits, by rw [h3]; exact h.vars, by rw [h4]; exact h.qubits⟩

/-- Operation `o` is none of those that stay as they are. -/
def NotFixed (w0 : World K) (O : Nat → Prop) (o : Nat) : Prop := ∀ x, O o → w0.ops[o]? ≠ some x

theorem Fixed.setOp {w : World K} (h : Fixed w0 O B V Q w) {o : Nat} (ho : NotFixed w0 O o) (op : OpObj K) : Fixed w0 O B V Q (w.setOp o op) := by
  refine ⟨fun i x hi hx => ?_, h.bits, h.vars, h.qubits⟩
  have hne : o ≠ i := by rintro rfl; exact ho x hi hx
  simp only [World.setOp]
  rw [List.getElem?_set_ne hne]
  exact h.ops i x hi hx

theorem fixed_modOp {o : Nat} (ho : NotFixed w0 O o) (f : OpObj K → OpObj K) : Pres (Fixed w0 O B V Q) (modOp o f) := by
  intro w h
  unfold modOp M.write
  dsimp only
  split
  · exact h.setOp ho _
  · exact h

theorem fixed_modCirc (c : Nat) (f : Circ → Circ) : Pres (Fixed w0 O B V Q) (modCirc c f) := by
  intro w h
  unfold modCirc M.write
  dsimp only
  split
  · exact h.same rfl rfl rfl rfl
  · exact h

theorem fixed_qubitsOf (c : Nat) : Pres (Fixed w0 O B V Q) (qubitsOf c) := by
  intro w h
  unfold qubitsOf
  split
  · exact h
  · exact h.same rfl rfl rfl rfl

theorem fixed_bitsOf (c : Nat) : Pres (Fixed w0 O B V Q) (bitsOf c) := by
  intro w h
  unfold bitsOf
  split
  · exact h
  · exact h.same rfl rfl rfl rfl

theorem fixed_addQReg (c : Nat) (n : Int) (l : Option RLabel) : Pres (Fixed w0 O B V Q) (addQReg c n l) := by
  intro w h
  unfold addQReg
  split
  · exact h
  · split
    · exact h.same rfl rfl rfl rfl
    · exact h.grow (List.append_nil _).symm (List.append_nil _).symm (List.append_nil _).symm rfl

theorem fixed_addCReg (c : Nat) (n : Int) (l : Option RLabel) : Pres (Fixed w0 O B V Q) (addCReg c n l) := by
  intro w h
  unfold addCReg
  split
  · exact h
  · split
    · exact h.same rfl rfl rfl rfl
    · exact h.grow (List.append_nil _).symm rfl (List.append_nil _).symm (List.append_nil _).symm

theorem fixed_addQubit (c : Nat) (q : Given) (l : Option RLabel) : Pres (Fixed w0 O B V Q) (addQubit c q l) := by
  intro w h
  unfold addQubit
  split
  · exact h
  · dsimp only
    repeat' split
    all_goals first
      | exact h
      | exact h.same rfl rfl rfl rfl
      | exact h.grow (List.append_nil _).symm (List.append_nil _).symm (List.append_nil _).symm rfl

theorem fixed_addBit (c : Nat) (q : Given) (l : Option RLabel) : Pres (Fixed w0 O B V Q) (addBit c q l) := by
  intro w h
  unfold addBit
  split
  · exact h
  · dsimp only
    repeat' split
    all_goals first
      | exact h
      | exact h.same rfl rfl rfl rfl
      | exact h.grow (List.append_nil _).symm rfl (List.append_nil _).symm (List.append_nil _).symm

theorem fixed_getParam (c : Nat) (i : Int) : Pres (Fixed w0 O B V Q) (getParam c i) := by
  intro w h
  unfold getParam
  split
  · exact h
  · split
    · exact h
    · dsimp only
      split
      · exact h.grow (List.append_nil _).symm (List.append_nil _).symm rfl (List.append_nil _).symm
      · repeat' split
        all_goals exact h

theorem fixed_setVar {v : Nat} (hv : ¬ V v) (x : K) : Pres (Fixed w0 O B V Q) (setVar v x) := by
  intro w h
  unfold setVar M.write
  dsimp only
  split
  · refine ⟨h.ops, h.bits, fun i y hi hy => ?_, h.qubits⟩
    have hne : v ≠ i := by rintro rfl; exact hv hi
    dsimp only
    rw [List.getElem?_set_ne hne]
    exact h.vars i y hi hy
  · exact h

theorem fixed_resetVar {v : Nat} (hv : ¬ V v) : Pres (Fixed w0 O B V Q) (resetVar v) := by
  intro w h
  unfold resetVar M.write
  dsimp only
  split
  · refine ⟨h.ops, h.bits, fun i y hi hy => ?_, h.qubits⟩
    have hne : v ≠ i := by rintro rfl; exact hv hi
    dsimp only
    rw [List.getElem?_set_ne hne]
    exact h.vars i y hi hy
  · exact h

theorem fixed_setVars : ∀ (vs : List Nat) (xs : List K), (∀ v ∈ vs, ¬ V v) → Pres (Fixed w0 O B V Q) (setVars vs xs)
  | [], _, _ => pres_pure _
  | _ :: _, [], _ => pres_raise _
  | v :: vs, x :: xs, h => pres_bind (fixed_setVar (h v (by simp)) x) fun _ => fixed_setVars vs xs fun u hu => h u (by simp [hu])

theorem fixed_resetVars : ∀ (vs : List Nat), (∀ v ∈ vs, ¬ V v) → Pres (Fixed w0 O B V Q) (M.each vs resetVar)
  | [], _ => pres_pure _
  | v :: vs, h => pres_bind (fixed_resetVar (h v (by simp))) fun _ => fixed_resetVars vs fun u hu => h u (by simp [hu])

theorem fixed_resetItem {x : Lbl} (hx : ∀ k, x = .obj k → ¬ B k) : Pres (Fixed w0 O B V Q) (resetItem x) := by
  intro w h
  unfold resetItem
  split
  · rename_i k
    unfold M.write
    dsimp only
    split
    · refine ⟨h.ops, fun i y hi hy => ?_, h.vars, h.qubits⟩
      have hne : k ≠ i := by rintro rfl; exact hx k rfl hi
      dsimp only
      rw [List.getElem?_set_ne hne]
      exact h.bits i y hi hy
    · exact h
  · exact h

theorem fixed_resetItems : ∀ (l : List Lbl), (∀ k, .obj k ∈ l → ¬ B k) → Pres (Fixed w0 O B V Q) (M.each l resetItem)
  | [], _ => pres_pure _
  | x :: l, h => pres_bind (fixed_resetItem fun k hk => h k (by simp [hk])) fun _ => fixed_resetItems l fun k hk => h k (by simp [hk])

theorem fixed_checkArity (k m : Nat) : Pres (Fixed w0 O B V Q) (checkArity k m) := by
  intro w h
  unfold checkArity
  split
  · exact h
  · exact h.same rfl rfl rfl rfl

theorem fixed_measureInto {o : Nat} (ho : NotFixed w0 O o) (bs : List Nat) : Pres (Fixed w0 O B V Q) (measureInto o bs) := by
  unfold measureInto
  refine pres_bind (pres_deref _) fun op => pres_bind (pres_deref _) fun C => ?_
  split
  · exact pres_bind (pres_raiseIf _ _) fun _ => fixed_modOp ho _
  · exact pres_raise _

theorem fixed_newOp (op : OpObj K) : Gives (Fixed w0 O B V Q) (NotFixed w0 O) (newOp op) := by
  intro w h
  refine ⟨h.grow rfl (List.append_nil _).symm (List.append_nil _).symm (List.append_nil _).symm, ?_⟩
  intro o ho x hO hx
  cases ho
  have := (List.getElem?_eq_some_iff.1 (h.ops _ x hO hx)).1
  omega

theorem fixed_deepCopy (c : Nat) : Pres (Fixed w0 O B V Q) (deepCopy c) := by
  intro w h
  unfold deepCopy
  split
  · exact h
  · exact h.grow rfl rfl rfl (List.append_nil _).symm

variable [DecidableEq K] [Zero K]

theorem fixed_evalInPlace {o : Nat} (ho : NotFixed w0 O o) (g : Option (List K)) : Pres (Fixed w0 O B V Q) (evalInPlace o g) := by
  intro w h
  unfold evalInPlace
  split
  · exact h
  · split
    · exact h
    · split
      · exact h.setOp ho _
      · exact h

theorem fixed_appendOp (c : Nat) {o : Nat} (ho : NotFixed w0 O o) : Pres (Fixed w0 O B V Q) (appendOp c o) := by
  unfold appendOp
  refine pres_bind (pres_deref _) fun C => pres_bind (pres_raiseIf _ _) fun _ => pres_bind (pres_whenever (fixed_evalInPlace ho _)) fun _ =>
    pres_bind (pres_deref _) fun op => pres_bind ?_ fun _ => fixed_modCirc _ _
  exact pres_each fun q => pres_bind (fixed_qubitsOf _) fun r => pres_raiseIf _ _

theorem fixed_extend (c : Nat) : ∀ (os : List Nat), (∀ o ∈ os, NotFixed w0 O o) → Pres (Fixed w0 O B V Q) (M.each os (appendOp c))
  | [], _ => pres_pure _
  | o :: os, h => pres_bind (fixed_appendOp c (h o (by simp))) fun _ => fixed_extend c os fun u hu => h u (by simp [hu])

theorem fixed_register (a : Option Nat) {o : Nat} (ho : NotFixed w0 O o) : Pres (Fixed w0 O B V Q) (register a o) := by
  unfold register
  split
  · exact pres_pure _
  · exact pres_bind (pres_deref _) fun C => pres_whenever (fixed_appendOp _ ho)

theorem fixed_init (op : OpObj K) (qs : Option (List Nat)) : Gives (Fixed w0 O B V Q) (NotFixed w0 O) (initOperation op qs) := by
  unfold initOperation
  refine gives_bind (pres_read _).gives fun a _ => gives_bind (Pres.gives ?_) fun _ _ => gives_bind (fixed_newOp _) fun o ho => gives_bind (fixed_register a ho).gives fun _ _ => gives_pure ho
  cases qs with
  | none => exact pres_raiseIf _ _
  | some l => exact fixed_checkArity _ _

theorem fixed_construct (k : Nat) (ps : Option (List (OpParam K))) (a : QArgs) : Gives (Fixed w0 O B V Q) (NotFixed w0 O) (construct k ps a) := by
  unfold construct
  refine gives_bind (pres_deref _).gives fun C _ => ?_
  split
  · exact fixed_init _ _
  · exact fixed_init _ _
  · exact gives_bind (pres_raiseIf _ _).gives fun _ _ => fixed_init _ _
  · exact fixed_init _ _
  · exact gives_bind (pres_raiseIf _ _).gives fun _ _ => gives_bind (fixed_init _ _) fun o ho => gives_bind (pres_raiseIf _ _).gives fun _ _ =>
      gives_bind (fixed_modOp ho _).gives fun _ _ => gives_pure ho
  · exact gives_raise _

theorem fixed_reapply (o : Nat) (a : QArgs) : Pres (Fixed w0 O B V Q) (reapply o a) := by
  unfold reapply
  refine pres_bind (pres_deref _) fun op => pres_bind (pres_deref _) fun C => ?_
  split <;> first | exact (fixed_construct _ _ _).pres | exact pres_raise _

theorem fixed_callOne (qm : PyDict Lbl Nat) (bm : Option (PyDict Lbl Nat)) (o : Nat) : Pres (Fixed w0 O B V Q) (callOne qm bm o) := by
  unfold callOne
  refine pres_bind (pres_deref _) fun op => pres_bind (pres_deref _) fun C => pres_bind (pres_lookupAll _ _) fun m => ?_
  have hc := fun k ps a => pres_bind (fixed_construct (w0 := w0) (O := O) (B := B) (V := V) (Q := Q) k ps a).pres fun _ => pres_pure ()
  split
  · exact pres_bind (pres_lookupAll _ _) fun _ => (gives_bind (fixed_construct _ _ _) fun o ho => (fixed_measureInto ho _).gives).pres
  · exact hc _ _ _
  · exact hc _ _ _
  · exact hc _ _ _
  · split
    · exact hc _ _ _
    · exact pres_raise _
  · exact hc _ _ _

theorem fixed_callCirc (a : Nat) (qs : List Nat) (bs : Option (List Nat)) : Pres (Fixed w0 O B V Q) (callCirc a qs bs) := by
  unfold callCirc
  refine pres_bind (pres_read _) fun act => ?_
  split
  · exact pres_raise _
  · refine pres_bind (pres_deref _) fun Y => pres_bind (pres_raiseIf _ _) fun _ => pres_bind (fixed_qubitsOf _) fun r => pres_bind (pres_raiseIf _ _) fun _ =>
      pres_bind ?_ fun bm => pres_bind (fixed_qubitsOf _) fun r => pres_bind (pres_zipMap _ _) fun qm => pres_bind (pres_deref _) fun C => pres_each fun o => fixed_callOne _ _ _
    unfold bitMap
    split
    · exact pres_pure _
    · exact pres_bind (fixed_bitsOf _) fun r => pres_bind (pres_raiseIf _ _) fun _ => pres_bind (pres_zipMap _ _) fun _ => pres_pure _

theorem fixed_evalOps (c : Nat) (inplace : Bool) (g : Option (List (List K))) : ∀ (l : List Nat) (i : Nat), (inplace = true → ∀ o ∈ l, NotFixed w0 O o) →
    Pres (Fixed w0 O B V Q) (evalOps c g inplace i l)
  | [], _, _ => pres_pure _
  | o :: l, i, hl => by
    refine pres_bind ?_ fun _ => fixed_evalOps c inplace g l (i + 1) fun h u hu => hl h u (by simp [hu])
    unfold evalAt
    refine pres_bind (pres_deref _) fun op => pres_bind (pres_deref _) fun C => ?_
    split
    · exact pres_raise _
    · split
      · split
        · rename_i hi
          exact fixed_evalInPlace (hl hi o (by simp)) _
        · refine pres_bind ?_ fun o' => fixed_modCirc _ _
          intro w h
          unfold evalOpCopy
          split
          · exact h
          · split
            · exact h
            · exact h.grow rfl rfl (List.append_nil _).symm (List.append_nil _).symm
      · exact pres_pure _

end
end DG
