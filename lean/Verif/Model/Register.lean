import Verif.Model.CyRegister

/-!
# `dwave/gate/registers/registers.py`

`Register` adds the attribute `_frozen` to `cyRegister`.  `copy` creates the new object with `__new__`, so the
copy has no such attribute (`frozen = none`).  Registers are mutable objects: `RegHeap` is the list of all register
objects and a reference is a position in it.
-/

namespace DG

/-- A `Register` object (registers.py 41-50). `frozen = none`: the attribute `_frozen` does not exist. -/
structure Reg where
  cy : CyReg := {}
  frozen : Option Bool := some false
  deriving Repr, DecidableEq

namespace Reg

/-- `Register(data)` (registers.py 48-50) for a sequence of items. -/
def new (ev : EqEnv) (data : List Lbl) : Reg :=
  { cy := CyReg.init ev (.iter data), frozen := some false }

/-- property `frozen` (registers.py 65-68). -/
def getFrozen (r : Reg) : Except Err Bool :=
  match r.frozen with
  | some b => .ok b
  | none => .error .attributeError

/-- `freeze` (registers.py 70-72). -/
def freeze (r : Reg) : Reg := { r with frozen := some true }

/-- `add(data)` (registers.py 95-109) for a sequence (a single item is wrapped in a list). -/
def add (ev : EqEnv) (r : Reg) (data : List Lbl) : Except Err Unit × Reg :=
  match r.getFrozen with
  | .error e => (.error e, r)
  | .ok true => (.error .registerError, r)
  | .ok false =>
    let (res, cy) := r.cy.extend ev data false
    (res, { r with cy := cy })

/-- The item created by `Variable(str(i))`: variables are equal iff their names are (primitives.py 174-180), so
the object number of a variable named by the decimal number `i` is `i`. -/
def autoVar (i : Nat) : Lbl := .obj i

/-- `SelfIncrementingRegister.__getitem__` (registers.py 195-210) for an integer index. `len(self.data)` iterates
over the register. -/
def selfGetItem (ev : EqEnv) (r : Reg) (index : Int) : Except Err Lbl × Reg :=
  match r.cy.iter with
  | .error e => (.error e, r)
  | .ok data =>
    if index ≥ data.length then
      match r.getFrozen with
      | .error e => (.error e, r)
      | .ok true => (r.cy.at index, r)
      | .ok false =>
        -- range(len(self.data), index + 1)
        let vars := (List.range (index + 1 - data.length).toNat).map fun (j : Nat) => autoVar (data.length + j)
        match r.add ev vars with
        | (.error e, r') => (.error e, r')
        | (.ok _, r') => (r'.cy.at index, r')
    else (r.cy.at index, r)

end Reg

/-- All register objects of the program; a reference is a position in the list. -/
abbrev RegHeap := List Reg

namespace RegHeap

/-- `a + b` (registers.py 82-93): copy `a` into a new object (cyregister.pyx 264-270), extend it by the items
of `b`, return the new object. An invalid reference cannot occur in Python; it is mapped to `typeError`. -/
def plus (ev : EqEnv) (h : RegHeap) (a b : Nat) : Except Err Nat × RegHeap :=
  match h[a]?, h[b]? with
  | some ra, some rb =>
    let copy : Reg := { cy := ra.cy.copy, frozen := none }
    let ref := h.length
    match rb.cy.iter with
    | .error e => (.error e, h ++ [copy])
    | .ok items =>
      match copy.cy.extend ev items false with
      | (.error e, cy) => (.error e, h ++ [{ copy with cy := cy }])
      | (.ok _, cy) => (.ok ref, h ++ [{ copy with cy := cy }])
  | _, _ => (.error .typeError, h)

/-- `r.add(data)` on the object with reference `a` (registers.py 95-109). -/
def add (ev : EqEnv) (h : RegHeap) (a : Nat) (data : List Lbl) : Except Err Unit × RegHeap :=
  match h[a]? with
  | some r => ((r.add ev data).1, h.set a (r.add ev data).2)
  | none => (.error .typeError, h)

/-- `r.freeze()` on the object with reference `a`. -/
def freeze (h : RegHeap) (a : Nat) : RegHeap :=
  match h[a]? with
  | some r => h.set a r.freeze
  | none => h

end RegHeap
end DG
