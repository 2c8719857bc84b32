import Verif.Model.World
import Mathlib.Data.List.Forall2

/-!
# Specification of the registers of a circuit

A layout is the list of the registers in the order in which they were added: label and contents. Nothing here refers to
caches or to the dictionaries inside registers.
-/

namespace DG.Spec

/-- Registers of one kind: labels and contents, in insertion order. Qubits and bits are numbers. -/
abbrev Layout := List (RLabel × List Nat)

/-- All items, register after register. -/
def Layout.items (L : Layout) : List Nat := L.flatMap Prod.snd

/-- The labels. -/
def Layout.labels (L : Layout) : List RLabel := L.map Prod.fst

/-- Item `k` appended to the register `l`. -/
def Layout.addTo (L : Layout) (l : RLabel) (k : Nat) : Layout :=
  L.map fun p => if p.1 = l then (p.1, p.2 ++ [k]) else p

/-- The layout with the register that an addition goes to: the named one (created at the end if missing), or the first one
(created with the default label if there is none). -/
def Layout.withRegister (L : Layout) (pre : String) (label : Option RLabel) : RLabel × Layout :=
  match label with
  | some l => (l, if l ∈ L.labels then L else L ++ [(l, [])])
  | none => match L with
    | [] => (.str (pre ++ "0"), [(.str (pre ++ "0"), [])])
    | p :: _ => (p.1, L)

/-- What a user sees by iterating over every register of the circuit, in the order of the dictionary. -/
def Shows (b : Bank) (L : Layout) : Prop :=
  List.Forall₂ (fun p q => p.1 = q.1 ∧ p.2.cy.iter = .ok (q.2.map Lbl.obj)) b.regs L

/-- What a user sees by iterating over the flattened register (`circuit.qubits`, `circuit.bits`). -/
def seen (r : Except Err Reg) : Except Err (List Lbl) :=
  match r with
  | .ok r => r.cy.iter
  | .error e => .error e

/-- `len(circuit.qubits)`. -/
def count (r : Except Err Reg) : Except Err Nat :=
  match r with
  | .ok r => .ok r.cy.stop
  | .error e => .error e

end DG.Spec
