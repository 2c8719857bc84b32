import Verif.Props.RefusedItems
import Verif.Props.Templates

/-!
# C124 — calls of templates

Whether it raises or not, a call of a template only appends operations to circuits: registers, locks and parameter registers stay, and the operations that were there before are a prefix of
those afterwards.
-/

namespace DG.Props
open DG.Spec
variable {K : Type}

/-- Circuit `d` is as `C`, but for operations that were appended. -/
def Longer (d : Nat) (C : Circ) (A : Option Nat) (X : List Ctx) (w : World K) : Prop := ∃ new, Keep d (sees { C with ops := C.ops ++ new }) A X w

section
variable {d : Nat} {C : Circ} {A : Option Nat} {X : List Ctx}

theorem longer_of {α : Type} {m : M K α} (h : ∀ V, Pres (Keep (K := K) d V A X) m) : Pres (Longer (K := K) d C A X) m := fun w ⟨new, hw⟩ => ⟨new, h _ w hw⟩

variable [DecidableEq K] [Zero K]

theorem longer_appendOp (c o : Nat) : Pres (Longer (K := K) d C A X) (appendOp c o) := by
  by_cases hc : c = d
  · subst hc
    rintro w ⟨new, hw⟩
    have h := either_appendOp c o { C with ops := C.ops ++ new } A X w hw
    rcases hm : appendOp c o w with ⟨e | u, w'⟩ <;> rw [hm] at h
    · exact ⟨new, h⟩
    · refine ⟨new ++ [o], ?_⟩
      rw [← List.append_assoc]
      exact h
  · exact longer_of fun V => keep_appendOp hc o

theorem longer_init (op : OpObj K) (qs : Option (List Nat)) : Pres (Longer (K := K) d C A X) (initOperation op qs) := by
  unfold initOperation
  refine pres_bind (pres_read _) fun a => pres_bind ?_ fun _ => pres_bind (longer_of fun V w h => h.same rfl rfl rfl) fun o =>
    pres_bind (pres_register (fun c o => longer_appendOp c o) a o) fun _ => pres_pure _
  cases qs with
  | none => exact pres_raiseIf _ _
  | some l => exact longer_of fun V => keep_checkArity _ _

theorem longer_construct (k : Nat) (ps : Option (List (OpParam K))) (a : QArgs) : Pres (Longer (K := K) d C A X) (construct k ps a) := by
  unfold construct
  refine pres_bind (pres_deref _) fun C => ?_
  split
  · exact longer_init _ _
  · exact longer_init _ _
  · exact pres_bind (pres_raiseIf _ _) fun _ => longer_init _ _
  · exact longer_init _ _
  · exact pres_bind (pres_raiseIf _ _) fun _ => pres_bind (longer_init _ _) fun _ => pres_bind (pres_raiseIf _ _) fun _ =>
      pres_bind (longer_of fun V => keep_modOp _ _) fun _ => pres_pure _
  · exact pres_raise _

theorem longer_callOne (qm : PyDict Lbl Nat) (bm : Option (PyDict Lbl Nat)) (o : Nat) : Pres (Longer (K := K) d C A X) (callOne qm bm o) := by
  unfold callOne
  refine pres_bind (pres_deref _) fun op => pres_bind (pres_deref _) fun D => pres_bind (pres_lookupAll _ _) fun m => ?_
  have hc := fun k ps a => pres_bind (longer_construct (K := K) (d := d) (C := C) (A := A) (X := X) k ps a) fun _ => pres_pure ()
  split
  · exact pres_bind (pres_lookupAll _ _) fun _ => pres_bind (longer_construct _ _ _) fun _ => longer_of fun V => keep_measureInto _ _
  · exact hc _ _ _
  · exact hc _ _ _
  · exact hc _ _ _
  · split
    · exact hc _ _ _
    · exact pres_raise _
  · exact hc _ _ _

theorem longer_callCirc (a : Nat) (qs : List Nat) (bs : Option (List Nat)) : Pres (Longer (K := K) d C A X) (callCirc a qs bs) := by
  unfold callCirc
  refine pres_bind (pres_read _) fun act => ?_
  split
  · exact pres_raise _
  · refine pres_bind (pres_deref _) fun Y => pres_bind (pres_raiseIf _ _) fun _ => pres_bind (longer_of fun V => keep_qubitsOf _) fun r => pres_bind (pres_raiseIf _ _) fun _ =>
      pres_bind ?_ fun bm => pres_bind (longer_of fun V => keep_qubitsOf _) fun r => pres_bind (pres_zipMap _ _) fun qm => pres_bind (pres_deref _) fun C =>
        pres_each fun o => longer_callOne _ _ _
    unfold bitMap
    split
    · exact pres_pure _
    · exact pres_bind (longer_of fun V => keep_bitsOf _) fun r => pres_bind (pres_raiseIf _ _) fun _ => pres_bind (pres_zipMap _ _) fun _ => pres_pure _

theorem longer_callParam (a : Nat) (p : List K) (qs : List Nat) (bs : Option (List Nat)) : Pres (Longer (K := K) d C A X) (callParam a p qs bs) :=
  pres_bind (pres_deref _) fun _ => pres_bind (pres_raiseIf _ _) fun _ => pres_bind (pres_read _) fun _ => pres_bind (pres_whenever (longer_of fun V => keep_setVars _ _)) fun _ =>
    pres_bind (longer_of fun V w h => h.same rfl rfl rfl) fun _ => longer_callCirc a qs bs

/-- C124: a call of a template, whether it raises or not, only appends operations: what a user sees of any circuit is as before, but for operations at the end; and the same circuit stays active. -/
theorem C124_template_partial (w : World K) (a : Nat) (qs : List Nat) (bs : Option (List Nat)) {d : Nat} {C : Circ} (hC : w.circs[d]? = some C) :
    (∃ new, ((execCall (.call a qs bs) w).2.circs[d]?).map sees = some (sees { C with ops := C.ops ++ new })) ∧
    (execCall (.call a qs bs) w).2.active = w.active ∧ (execCall (.call a qs bs) w).2.ctxs = w.ctxs := by
  have h0 : Longer d C w.active w.ctxs w := ⟨[], by rw [List.append_nil]; exact ⟨by rw [hC]; rfl, rfl, rfl⟩⟩
  obtain ⟨new, h1, h2⟩ := longer_callCirc a qs bs w h0
  exact ⟨⟨new, h1⟩, h2⟩

/-- C124: the same for templates with parameters. -/
theorem C124_parametric_template_partial (w : World K) (a : Nat) (p : List K) (qs : List Nat) (bs : Option (List Nat)) {d : Nat} {C : Circ} (hC : w.circs[d]? = some C) :
    (∃ new, ((execCall (.callParam a p qs bs) w).2.circs[d]?).map sees = some (sees { C with ops := C.ops ++ new })) ∧
    (execCall (.callParam a p qs bs) w).2.active = w.active ∧ (execCall (.callParam a p qs bs) w).2.ctxs = w.ctxs := by
  have h0 : Longer d C w.active w.ctxs w := ⟨[], by rw [List.append_nil]; exact ⟨by rw [hC]; rfl, rfl, rfl⟩⟩
  obtain ⟨new, h1, h2⟩ := longer_callParam a p qs bs w h0
  exact ⟨⟨new, h1⟩, h2⟩

end

/-- C124 fails for calls of templates: with bits for a measurement that has none, the call raises `ValueError`, but the measurement has been appended. -/
theorem C124_template_violated :
    let w := (openCtx 2 failDemo.final).2
    let r := execCall (.call 0 [4] (some [1])) w
    r.1 = .error .valueError ∧ opsOf w 2 = [] ∧ opsOf r.2 2 = [2] := by decide +kernel

end DG.Props
