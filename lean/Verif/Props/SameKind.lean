import Verif.Model.Primitives
import Verif.Model.Register

/-!
# C16 and C08, strengthened: objects of the same class, and registers that are distinct objects
-/

namespace DG.Props

section C16
variable {K : Type} [DecidableEq K] [Zero K]

/-- Two objects of the same class: two qubits, two bits, or two variables; their values are arbitrary. -/
def SameClass : PyVal K → PyVal K → Prop
  | .qubit _, .qubit _ => True
  | .bit _ _, .bit _ _ => True
  | .variable _ _, .variable _ _ => True
  | _, _ => False

/-- `Qubit.id`, `Bit.id` or `Variable.name`. -/
def identifier : PyVal K → Option String
  | .qubit i => some i
  | .bit i _ => some i
  | .variable n _ => some n
  | .num _ => none

/-- **C16 within a class.**  For objects of the same class, with whatever values: they are equal exactly if their ids (names) are; equal objects have equal hashes; and equality is
transitive. -/
theorem C16_same_class (hs : String → Int) (hn : K → Int) (a b : PyVal K) (hab : SameClass a b) :
    (PyVal.eq a b = true ↔ identifier a = identifier b) ∧
    (PyVal.eq a b = true → PyVal.hash hs hn a = PyVal.hash hs hn b) ∧
    (∀ c, SameClass b c → PyVal.eq a b = true → PyVal.eq b c = true → PyVal.eq a c = true) := by
  refine ⟨?_, ?_, ?_⟩
  · cases a <;> cases b <;> simp_all [SameClass, PyVal.eq, identifier]
  · cases a <;> cases b <;> simp_all [SameClass, PyVal.eq, PyVal.hash]
  · intro c
    cases a <;> cases b <;> cases c <;> simp_all [SameClass, PyVal.eq]

/-- Setting or resetting the value of a bit or a variable changes neither its hash nor what other bits (variables) it equals, so it stays in its place in a set or dictionary. -/
theorem C16_value_irrelevant (hs : String → Int) (hn : K → Int) (i : String) (v w : Option K) :
    PyVal.hash hs hn (.bit i v) = PyVal.hash hs hn (.bit i w) ∧
    PyVal.hash hs hn (.variable i v) = PyVal.hash hs hn (.variable i w) ∧
    (∀ j u, PyVal.eq (.bit i v) (.bit j u) = PyVal.eq (.bit i w) (.bit j u)) ∧
    (∀ j u, PyVal.eq (.variable i v) (.variable j u) = PyVal.eq (.variable i w) (.variable j u)) :=
  ⟨rfl, rfl, fun _ _ => by simp [PyVal.eq], fun _ _ => by simp [PyVal.eq]⟩

/-- Not vacuous: two variables with the same name and different values; two with different names. -/
example : SameClass (.variable "x" (some 1) : PyVal Int) (.variable "x" none) ∧ PyVal.eq (.variable "x" (some 1) : PyVal Int) (.variable "x" none) = true ∧
    SameClass (.variable "x" (some 1) : PyVal Int) (.variable "y" (some 1)) ∧ PyVal.eq (.variable "x" (some 1) : PyVal Int) (.variable "y" (some 1)) = false :=
  ⟨trivial, by decide, trivial, by decide⟩

end C16

/-- **C08, distinct objects.**  Adding items to a register or freezing it changes that register as the call says and no other register; in particular neither a sum nor its operands are
changed by later calls on one of them. -/
theorem C08_distinct_objects (ev : EqEnv) (h : RegHeap) (a : Nat) (r : Reg) (ha : h[a]? = some r) (data : List Lbl) :
    (h.add ev a data).1 = (r.add ev data).1 ∧
    (h.add ev a data).2[a]? = some (r.add ev data).2 ∧
    (∀ i, i ≠ a → (h.add ev a data).2[i]? = h[i]?) ∧
    (h.freeze a)[a]? = some { r with frozen := some true } ∧
    (∀ i, i ≠ a → (h.freeze a)[i]? = h[i]?) := by
  obtain ⟨hlt, hget⟩ := List.getElem?_eq_some_iff.mp ha
  refine ⟨?_, ?_, ?_, ?_, ?_⟩
  · simp [RegHeap.add, ha]
  · simp [RegHeap.add, hlt, hget]
  · intro i hi
    simp [RegHeap.add, ha, Ne.symm hi]
  · simp [RegHeap.freeze, hlt, hget, Reg.freeze]
  · intro i hi
    simp [RegHeap.freeze, ha, Ne.symm hi]

/-- Not vacuous: two registers, the first one is frozen. -/
example : let h : RegHeap := [{ cy := {} }, { cy := {} }]
    h[0]? = some ({ cy := {} } : Reg) ∧ h.freeze 0 = [({ frozen := some true } : Reg), { cy := {} }] := by decide

end DG.Props
