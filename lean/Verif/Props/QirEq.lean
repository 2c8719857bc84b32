import Verif.Model.QirEq
import Mathlib.Data.List.Forall2

/-!
# Property C97: equality of QIR instructions
-/

namespace DG.Spec
variable {K : Type}

/-- The same argument, except that it may be another qubit or another result. -/
def SameButPlace : QirArg K → QirArg K → Prop
  | .dbl x, .dbl y => x = y
  | .qubit _, .qubit _ => True
  | .result _, .result _ => True
  | .other, .other => True
  | _, _ => False

end DG.Spec

namespace DG.Props
open Spec Qir
variable {K : Type} [DecidableEq K]

omit [DecidableEq K] in
theorem SameButPlace.of_types : ∀ {as bs : List (QirArg K)}, as.map argTy = bs.map argTy → numbers as = numbers bs → List.Forall₂ SameButPlace as bs
  | [], [], _, _ => .nil
  | [], _ :: _, h, _ => by cases h
  | _ :: _, [], h, _ => by cases h
  | a :: as, b :: bs, h, hn => by
    simp only [List.map_cons, List.cons.injEq] at h
    cases a <;> cases b <;> simp [argTy] at h <;>
      simp only [numbers, List.filterMap_cons, List.cons.injEq] at hn
    · exact .cons hn.1 (SameButPlace.of_types h hn.2)
    all_goals exact .cons trivial (SameButPlace.of_types h hn)

/-- C97: equality is an equivalence relation. -/
theorem C97_equivalence : Equivalence fun a b : QirInstr K => instrEq a b = true := by
  have key : ∀ a b : QirInstr K, instrEq a b = true ↔ (a.name = b.name ∧ a.type = b.type ∧ numQubits a.args = numQubits b.args ∧
      numResults a.args = numResults b.args ∧ numbers a.args = numbers b.args) := by
    intro a b
    unfold instrEq
    simp [and_assoc]
  refine ⟨fun a => ?_, fun {a b} h => ?_, fun {a b c} h h' => ?_⟩
  · rw [key]; exact ⟨rfl, rfl, rfl, rfl, rfl⟩
  · rw [key] at h ⊢
    obtain ⟨h1, h2, h3, h4, h5⟩ := h
    exact ⟨h1.symm, h2.symm, h3.symm, h4.symm, h5.symm⟩
  · rw [key] at h h' ⊢
    obtain ⟨h1, h2, h3, h4, h5⟩ := h
    obtain ⟨g1, g2, g3, g4, g5⟩ := h'
    exact ⟨h1.trans g1, h2.trans g2, h3.trans g3, h4.trans g4, h5.trans g5⟩

/-- C97 for instructions of the base set and measurements: two instructions that can be executed are equal exactly if they have the same name and type and the calls
that they add to the module call the same function with the same numbers, in the same places. The qubits and results may be others. -/
theorem C97_call_partial {a b : QirInstr K} (ht : a.type = .base ∨ a.type = .measurement) {f g : String} {as bs : List (QirArg K)}
    (ha : execute a = .ok (.call f as)) (hb : execute b = .ok (.call g bs)) :
    instrEq a b = true ↔ a.name = b.name ∧ a.type = b.type ∧ f = g ∧ List.Forall₂ SameButPlace as bs := by
  have exec : ∀ {i : QirInstr K} {f : String} {l : List (QirArg K)}, (i.type = .base ∨ i.type = .measurement) → execute i = .ok (.call f l) →
      ∃ tys, qis.get? i.name = some (f, tys) ∧ l = i.args ∧ i.args.map argTy = tys.map some := by
    intro i f l ht h
    unfold execute at h
    rcases ht with e | e
    all_goals
      simp only [e] at h
      cases hq : qis.get? i.name with
      | none => rw [hq] at h; cases h
      | some p =>
        obtain ⟨callee, tys⟩ := p
        rw [hq] at h
        dsimp only at h
        split at h
        · next e =>
          cases h
          exact ⟨tys, rfl, rfl, e⟩
        · cases h
  unfold instrEq
  simp only [Bool.if_false_right, Bool.and_true, Bool.and_eq_true, decide_eq_true_eq, and_assoc]
  constructor
  · rintro ⟨h1, h2, h3, h4, h5⟩
    obtain ⟨t1, a1, rfl, a3⟩ := exec ht ha
    obtain ⟨t2, b1, rfl, b3⟩ := exec (h2 ▸ ht) hb
    rw [h1, b1] at a1
    cases a1
    exact ⟨h1, h2, rfl, SameButPlace.of_types (a3.trans b3.symm) h5⟩
  · rintro ⟨h1, h2, rfl, h4⟩
    obtain ⟨t1, -, rfl, -⟩ := exec ht ha
    obtain ⟨t2, -, rfl, -⟩ := exec (h2 ▸ ht) hb
    refine ⟨h1, h2, ?_⟩
    generalize a.args = l at h4
    generalize b.args = m at h4
    clear ha hb
    induction h4 with
    | nil => exact ⟨rfl, rfl, rfl⟩
    | @cons x y l m h _ ih =>
      obtain ⟨i1, i2, i3⟩ := ih
      unfold numQubits numResults numbers at *
      cases x <;> cases y <;> simp [SameButPlace] at h <;> simp_all

/-- `RX(2)` on two qubits. -/
example : instrEq (⟨.base, "rx", [.dbl 2, .qubit 0], none⟩ : QirInstr Int) ⟨.base, "rx", [.dbl 2, .qubit 1], none⟩ = true ∧
    execute (⟨.base, "rx", [.dbl 2, .qubit 0], none⟩ : QirInstr Int) = .ok (.call "__quantum__qis__rx__body" [.dbl 2, .qubit 0]) ∧
    instrEq (⟨.base, "rx", [.dbl 2, .qubit 0], none⟩ : QirInstr Int) ⟨.base, "rx", [.dbl 3, .qubit 0], none⟩ = false ∧
    instrEq (⟨.base, "rx", [.dbl 2, .qubit 0], none⟩ : QirInstr Int) ⟨.base, "ry", [.dbl 2, .qubit 0], none⟩ = false := ⟨by decide, by rfl, by decide, by decide⟩

/-- C97 is violated: the order of the arguments does not matter for equality, and the function of an external instruction does not, but they do for what the
instructions do. -/
theorem C97_violated :
    instrEq (⟨.base, "rx", [.dbl 2, .qubit 0], none⟩ : QirInstr Int) ⟨.base, "rx", [.qubit 0, .dbl 2], none⟩ = true ∧
    execute (⟨.base, "rx", [.qubit 0, .dbl 2], none⟩ : QirInstr Int) = .error .typeError ∧
    instrEq (⟨.external, "g", [.qubit 0], some ("f1", [.qubit])⟩ : QirInstr Int) ⟨.external, "g", [.qubit 0], some ("f2", [.qubit])⟩ = true ∧
    execute (⟨.external, "g", [.qubit 0], some ("f1", [.qubit])⟩ : QirInstr Int) = .ok (.call "f1" [.qubit 0]) ∧
    execute (⟨.external, "g", [.qubit 0], some ("f2", [.qubit])⟩ : QirInstr Int) = .ok (.call "f2" [.qubit 0]) := ⟨by decide, by rfl, by decide, by rfl, by rfl⟩

end DG.Props
