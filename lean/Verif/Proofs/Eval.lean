import Verif.Spec.Eval
import Verif.Proofs.Pres

/-! `ParametricCircuit.eval` leaves alone what exists, unless it works in place. -/

namespace DG
open Spec
variable {K : Type} [DecidableEq K] [Zero K]

omit [DecidableEq K] [Zero K] in
theorem Spec.Untouched.refl (w : World K) : Untouched w w :=
  ⟨rfl, List.prefix_rfl, List.prefix_rfl, rfl, List.prefix_rfl, List.prefix_rfl, List.prefix_rfl, rfl, rfl⟩

omit [DecidableEq K] [Zero K] in
theorem Spec.Untouched.copied (w : World K) (C : Circ) : Untouched w (w.copied C) :=
  ⟨rfl, List.prefix_append _ _, List.prefix_append _ _, rfl, List.prefix_append _ _, List.prefix_append _ _, List.prefix_append _ _, rfl, rfl⟩

omit [DecidableEq K] [Zero K] in
theorem prefix_set {α : Type} {l l' : List α} (h : l <+: l') {i : Nat} (hi : l.length ≤ i) (a : α) : l <+: l'.set i a := by
  obtain ⟨m, rfl⟩ := h
  rw [List.set_append_right _ _ hi]
  exact List.prefix_append _ _

omit [DecidableEq K] [Zero K] in
theorem Spec.Untouched.replaced {w v : World K} (h : Untouched w v) {d : Nat} (hd : w.circs.length ≤ d) (i : Nat) (D : Circ) (op : OpObj K) (ps : List (OpParam K)) :
    Untouched w (v.replaced d i D op ps) :=
  ⟨h.qubits, h.bits.trans (List.prefix_append _ _), h.vars, h.classes, h.ops.trans (List.prefix_append _ _), prefix_set h.circs hd _, h.ctxs, h.active, h.onExit⟩

theorem evalCirc_untouched (c : Nat) (given : Option (List (List K))) (w : World K) : Untouched w (evalCirc c given false w).2 := by
  by_cases hp : ∀ C, w.circs[c]? = some C → C.param = false
  · obtain ⟨e, h1, -⟩ := evalCirc_none hp given false
    rw [h1]; exact .refl w
  push Not at hp
  obtain ⟨C, hC, hp⟩ := hp
  rw [evalCirc_copy_eq hC (by simpa using hp)]
  have := EvalPrims.evalOps_copy (P := Untouched w) w.circs.length (fun i o v D op ps hv _ _ _ _ => hv.replaced (Nat.le_refl _) i D op ps) given (w.copyOf C).ops 0
    (w.copied C) (.copied w C) ⟨_, copied_get w C, rfl⟩
  generalize evalOps w.circs.length given false 0 (w.copyOf C).ops (w.copied C) = z at this
  obtain ⟨_ | _, _⟩ := z <;> exact this

end DG
