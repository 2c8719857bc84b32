import Verif.Model.Simulator
import Verif.Props.Kernels
import Verif.Proofs.GateAct

/-! # One gate of the simulator -/

namespace DG.Sim
open Complex Spec Kernel Props

variable {n : Nat}

/-- The arrays given to the kernels are C-ordered complex arrays. -/
def usable : Kind → Prop
  | .single b => ∀ a, b.matrix = .ok a → a.cOrder = true ∧ a.complexType = true
  | .controlled _ b => ∀ a, b.matrix = .ok a → a.cOrder = true ∧ a.complexType = true
  | _ => True

theorem usable_of_library {b : Base} (h : Library b) : ∀ a, b.matrix = .ok a → a.cOrder = true ∧ a.complexType = true := by
  obtain ⟨a, h1, h2, h3, _⟩ := library_cols h
  intro a' h'
  rw [h1] at h'; cases h'
  exact ⟨h2, h3⟩

theorem mat2_gateOf (a : Arr2) : mat2 a.e00 a.e01 a.e10 a.e11 = gateOf a := by
  funext i j; cases i <;> cases j <;> rfl

/-- The conjugated array if asked for. -/
noncomputable def conjIf (conj : Bool) (a : Arr2) : Arr2 := if conj then a.conj else a

theorem gateArray_ok {b : Base} {a : Arr2} (ha : b.matrix = .ok a) (h1 : a.cOrder = true) (h2 : a.complexType = true)
    (conj : Bool) : gateArray b conj = .ok [(conjIf conj a).e00, (conjIf conj a).e01, (conjIf conj a).e10, (conjIf conj a).e11] := by
  cases conj <;> simp [gateArray, ha, bind, Except.bind, memview, conjIf, Arr2.conj, Arr2.buffer, h1, h2]

/-- Conjugated action. -/
def conjAct (conj : Bool) (f : State n ℂ → State n ℂ) (ψ : State n ℂ) : State n ℂ :=
  if conj then fun x => star (f (fun y => star (ψ y)) x) else f ψ

theorem applyGate_conj (t : Fin n) (conj : Bool) (a : Arr2) (ψ : State n ℂ) :
    applyGate t (gateOf (conjIf conj a)) ψ = conjAct conj (applyGate t (gateOf a)) ψ := by
  cases conj
  · rfl
  · funext x
    simp only [conjAct, conjIf, if_true, applyGate, Fintype.sum_bool, star_add, star_mul', star_star]
    cases x t <;> rfl

theorem applyControlled_conj (cs : List (Fin n)) (t : Fin n) (conj : Bool) (a : Arr2) (ψ : State n ℂ) :
    applyControlled cs t (gateOf (conjIf conj a)) ψ = conjAct conj (applyControlled cs t (gateOf a)) ψ := by
  have h := applyGate_conj t conj a ψ
  cases conj
  · rfl
  · funext x
    simp only [conjAct, if_true, applyControlled]
    split
    · rw [h]; rfl
    · simp

theorem callKernel_eq {op : OpSpec ℂ} {le : Bool} {mem gate mem' : List ℂ} {targets controls : List (Fin n)} {r : ℝ}
    (h : run op Complex.normSq le (BitVec.ofNat 64 n) mem gate (args targets) (args controls) 1 = .ok (r, mem')) :
    callKernel op le n mem gate (targets.map Fin.val) (controls.map Fin.val) = .ok mem' := by
  rw [args_eq, args_eq] at h
  unfold callKernel
  rw [h]
  rfl

theorem ok_bind {α β : Type} (x : α) (f : α → Except Err β) : (Except.ok x >>= f) = f x := rfl
theorem err_bind {α β : Type} (e : Err) (f : α → Except Err β) : ((Except.error e : Except Err α) >>= f) = .error e := rfl
theorem item0 (a : Nat) (l : List Nat) : item (a :: l) 0 = .ok a := rfl
theorem item1 (a b : Nat) (l : List Nat) : item (a :: b :: l) 1 = .ok b := rfl
theorem item2 (a b c : Nat) (l : List Nat) : item (a :: b :: c :: l) 2 = .ok c := rfl
theorem pure_ok {α : Type} (x : α) : (pure x : Except Err α) = .ok x := rfl

/-- **One gate.** An unblocked operation whose meaning is `f` turns the vector of `ψ` into that of `f ψ` and changes
nothing else. -/
theorem apply_gate_ok (hn : n ≤ 30) (u : Nat → ℝ) (op : SOp) {ts : List (Fin n)} {f : State n ℂ → State n ℂ}
    (hk : GateAct op.kind ts f) (hu : usable op.kind) (le conj : Bool) (w : World) {ψ : State n ℂ}
    (hm : Stores le w.mem ψ) (hb : isBlocked op w.bits = false) :
    ∃ mem', applyInstruction u n op (ts.map Fin.val) le conj w = .ok { w with mem := mem' } ∧
      Stores le mem' (conjAct conj f ψ) := by
  unfold applyInstruction
  rw [hb]
  generalize op.kind = k at *
  cases hk with
  | @single b a t ha =>
    obtain ⟨h1, h2⟩ := hu a ha
    obtain ⟨mem', e1, e2⟩ := kernel2 (N := ℝ) Complex.normSq singleQubit rfl rfl rfl rfl rfl le hn t [] (by simp) rfl
      (conjIf conj a).e00 (conjIf conj a).e01 (conjIf conj a).e10 (conjIf conj a).e11 1 w.mem ψ hm
    rw [applyControlled_nil, mat2_gateOf, applyGate_conj] at e2
    refine ⟨mem', ?_, e2⟩
    have := callKernel_eq e1
    simp only [List.map_cons, List.map_nil] at this
    simp only [List.map_cons, List.map_nil, gateArray_ok ha h1 h2, ok_bind, item0, item1, item2, this, pure_ok,
      Bool.false_eq_true, if_false, if_true, OfNat.ofNat_ne_one]
  | @controlled1 b a c t ha hct =>
    obtain ⟨h1, h2⟩ := hu a ha
    obtain ⟨mem', e1, e2⟩ := kernel2 (N := ℝ) Complex.normSq gateControl rfl rfl rfl rfl rfl le hn t [c] (by simp [Ne.symm hct]) rfl
      (conjIf conj a).e00 (conjIf conj a).e01 (conjIf conj a).e10 (conjIf conj a).e11 1 w.mem ψ hm
    rw [mat2_gateOf, applyControlled_conj] at e2
    refine ⟨mem', ?_, e2⟩
    have := callKernel_eq e1
    simp only [List.map_cons, List.map_nil] at this
    simp only [List.map_cons, List.map_nil, gateArray_ok ha h1 h2, ok_bind, item0, item1, item2, this, pure_ok,
      Bool.false_eq_true, if_false, if_true, OfNat.ofNat_ne_one]
  | @controlled2 b a c c' t ha h3 h4 h5 =>
    obtain ⟨h1, h2⟩ := hu a ha
    obtain ⟨mem', e1, e2⟩ := kernel2 (N := ℝ) Complex.normSq gateTwoControl rfl rfl rfl rfl rfl le hn t [c, c']
      (by simp [Ne.symm h4, Ne.symm h5, h3]) rfl
      (conjIf conj a).e00 (conjIf conj a).e01 (conjIf conj a).e10 (conjIf conj a).e11 1 w.mem ψ hm
    rw [mat2_gateOf, applyControlled_conj] at e2
    refine ⟨mem', ?_, e2⟩
    have := callKernel_eq e1
    simp only [List.map_cons, List.map_nil] at this
    simp only [List.map_cons, List.map_nil, gateArray_ok ha h1 h2, ok_bind, item0, item1, item2, this, pure_ok,
      Bool.false_eq_true, if_false, if_true, OfNat.ofNat_ne_one]
  | swap a b hab =>
    obtain ⟨mem', e1, e2⟩ := C38_swap (N := ℝ) Complex.normSq le hn b a (Ne.symm hab) [] 1 w.mem ψ hm
    refine ⟨mem', ?_, ?_⟩
    · have := callKernel_eq (targets := [b, a]) (controls := []) e1
      simp only [List.map_cons, List.map_nil] at this
      simp only [List.map_cons, List.map_nil, ok_bind, item0, item1, item2, this, pure_ok, Bool.false_eq_true, if_false]
    · rw [Equiv.swap_comm] at e2
      cases conj
      · exact e2
      · simpa [conjAct, applySwap] using e2
  | cswap c a b h1 h2 h3 =>
    obtain ⟨mem', e1, e2⟩ := C39_cswap (N := ℝ) Complex.normSq le hn c a b h3 h1 h2 [] 1 w.mem ψ hm
    refine ⟨mem', ?_, ?_⟩
    · have := callKernel_eq (targets := [a, b]) (controls := [c]) e1
      simp only [List.map_cons, List.map_nil] at this
      simp only [List.map_cons, List.map_nil, ok_bind, item0, item1, item2, this, pure_ok, Bool.false_eq_true, if_false]
    · cases conj
      · exact e2
      · have : conjAct true (applyCSwap c a b) ψ = fun x => if x c = true then ψ (x ∘ Equiv.swap a b) else ψ x := by
          funext x
          simp only [conjAct, if_true, applyCSwap, applySwap]
          split <;> simp
        rw [this]; exact e2
  | ccx c c' t h1 h2 h3 =>
    obtain ⟨mem', e1, e2⟩ := C37_ccx (N := ℝ) Complex.normSq le hn c c' t h1 h2 h3 1 w.mem ψ hm
    refine ⟨mem', ?_, ?_⟩
    · have := callKernel_eq (targets := [t]) (controls := [c, c']) e1
      simp only [List.map_cons, List.map_nil] at this
      simp only [List.map_cons, List.map_nil, ok_bind, item0, item1, item2, this, pure_ok, Bool.false_eq_true, if_false]
    · cases conj
      · exact e2
      · have : conjAct true (fun (ψ : State n ℂ) x => if x c = true ∧ x c' = true then ψ (Function.update x t (!x t)) else ψ x) ψ =
            fun x => if x c = true ∧ x c' = true then ψ (Function.update x t (!x t)) else ψ x := by
          funext x
          simp only [conjAct, if_true]
          split <;> simp
        rw [this]; exact e2

theorem apply_blocked (u : Nat → ℝ) (m : Nat) (op : SOp) (targets : List Nat) (le conj : Bool) (w : World)
    (hb : isBlocked op w.bits = true) : applyInstruction u m op targets le conj w = .ok w := by
  simp [applyInstruction, hb]

end DG.Sim
