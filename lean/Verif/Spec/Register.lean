import Verif.Model.CyRegister
import Mathlib.Order.Lattice.Nat

/-!
# Specification of registers: a Python list without duplicates

This file only uses lists of labels.  Nothing here refers to the dictionaries of the implementation.
-/

namespace DG.Spec

/-- Operations a register history consists of (constructor arguments as in the Python methods). -/
inductive RegOp
  | append (v : Option Lbl) (permissive : Bool)
  | extend (vs : List Lbl) (permissive : Bool)
  | pop
  | clear
  | relabel (m : List (Lbl × Lbl))
  | relabelAsIntegers
  | remove (v : Lbl)

/-- The label given to an item appended without a label: the length if unused, otherwise the least unused
natural number. -/
noncomputable def autoLabel (L : List Lbl) : Lbl :=
  open Classical in
  if Lbl.int L.length ∈ L then .int (sInf {n : Nat | Lbl.int n ∉ L} : Nat) else .int L.length

/-- Appending one item to a duplicate-free list. -/
noncomputable def append (L : List Lbl) (v : Option Lbl) (permissive : Bool) : Except Err Lbl × List Lbl :=
  match v with
  | none => (.ok (autoLabel L), L ++ [autoLabel L])
  | some v =>
    if v ∈ L then (if permissive then .ok v else .error .valueError, L)
    else (.ok v, L ++ [v])

/-- Appending items one by one, stopping at the first failure. -/
noncomputable def extend (L : List Lbl) (vs : List Lbl) (permissive : Bool) : Except Err Unit × List Lbl :=
  match vs with
  | [] => (.ok (), L)
  | v :: vs =>
    if v ∈ L then
      if permissive then extend L vs permissive else (.error .valueError, L)
    else extend (L ++ [v]) vs permissive

/-- Simultaneous substitution. -/
def substAll (m : List (Lbl × Lbl)) (L : List Lbl) : List Lbl :=
  L.map fun x => match m.find? (fun p => p.1 = x) with
    | some p => p.2
    | none => x

/-- A relabelling is admissible if no two items get the same new label, and no item gets the label of an
existing item that is not itself relabelled. -/
def RelabelOk (m : List (Lbl × Lbl)) (L : List Lbl) : Prop :=
  (m.map Prod.snd).Nodup ∧ ∀ new ∈ m.map Prod.snd, new ∈ L → new ∈ m.map Prod.fst

/-- One operation on the list: the returned label (if the method returns one) or the exception. -/
noncomputable def step (L : List Lbl) : RegOp → Except Err (Option Lbl) × List Lbl
  | .append v p => ((append L v p).1.map some, (append L v p).2)
  | .extend vs p => ((extend L vs p).1.map fun _ => none, (extend L vs p).2)
  | .pop => match L.getLast? with
    | none => (.error .indexError, L)
    | some x => (.ok (some x), L.dropLast)
  | .clear => (.ok none, [])
  | .relabel m =>
    open Classical in
    if RelabelOk m L then (.ok none, substAll m L) else (.error .valueError, L)
  | .relabelAsIntegers => (.ok none, (List.range L.length).map fun (i : Nat) => .int i)
  | .remove v => if v ∈ L then (.ok none, L.erase v) else (.error .valueError, L)

/-- What the caller of `_relabel` must respect: the mapping is a dictionary whose keys are present. -/
def Pre (L : List Lbl) : RegOp → Prop
  | .relabel m => (m.map Prod.fst).Nodup ∧ ∀ k ∈ m.map Prod.fst, k ∈ L
  | _ => True

/-- The list after a history, together with all results. -/
noncomputable def run : List RegOp → List Lbl → List (Except Err (Option Lbl)) × List Lbl
  | [], L => ([], L)
  | op :: ops, L =>
    let rest := run ops (step L op).2
    ((step L op).1 :: rest.1, rest.2)

/-- Every call of the history respects `Pre` at the moment it is made. -/
def PreAll : List RegOp → List Lbl → Prop
  | [], _ => True
  | op :: ops, L => Pre L op ∧ PreAll ops (step L op).2

/-- `L[i]` with Python's convention for negative `i`. -/
def getItem (L : List Lbl) (i : Int) : Except Err Lbl :=
  if 0 ≤ i then
    match L[i.toNat]? with
    | some x => .ok x
    | none => .error .indexError
  else if -(L.length : Int) ≤ i then
    match L[(L.length + i).toNat]? with
    | some x => .ok x
    | none => .error .indexError
  else .error .indexError

/-- `range(a, b, s)` has more than `k` elements (the one with number `k` is `a + k * s`). -/
def Visited (a b s : Int) (k : Nat) : Prop := (0 < s ∧ a + k * s < b) ∨ (s < 0 ∧ b < a + k * s)

instance (a b s : Int) (k : Nat) : Decidable (Visited a b s k) := by unfold Visited; infer_instance

/-- The item at position `a + k * s` exists and is not at an earlier position `a + j * s`. -/
def FreshAt (L : List Lbl) (a s : Int) (k : Nat) : Prop := ∃ v, getItem L (a + k * s) = .ok v ∧ ∀ j < k, getItem L (a + j * s) ≠ .ok v

end DG.Spec
