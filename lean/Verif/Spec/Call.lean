import Verif.Spec.Program

/-!
# Specification of calls of circuits: when they fail
-/

namespace DG.Spec
variable {K : Type}

open Classical in
/-- The exception that is raised, if any, when the operation `op`, of class `C`, of the called circuit is to be copied, in the order of the checks.
`items` and `bitItems` are the qubits and the bits of the called circuit (`none` if no bits are given), `qs` the given qubits; `D` is the circuit
of the context and `L` its qubits. -/
noncomputable def refusal [Zero K] (w : World K) (D : Circ) (L : List Nat) (items : List Lbl) (qs : List Nat) (bitItems : Option (List Lbl))
    (C : OpCls) (op : OpObj K) : Option Err :=
  let qubits := op.qubits.getD []
  -- the operation uses qubits or bits that the called circuit does not have
  if ∃ q ∈ qubits, Lbl.obj q ∉ items then some .keyError
  else if C.kind = .measurement ∧ ∃ l, bitItems = some l ∧ ∃ b ∈ op.bits.getD [], Lbl.obj b ∉ l then some .keyError
  -- controlled operations are constructed from one control and one target
  else if C.kind = .controlled ∧ qubits.length ≠ 2 then some .typeError
  -- wrong number of parameters, no qubits, wrong number of qubits
  else if C.kind.isParametric = true ∧ C.numParams ≠ some op.params.length then some .valueError
  else if C.kind = .pcontrolled ∧ qubits = [] then some .typeError
  else if C.ar.numQubits ≠ none ∧ C.ar.numQubits ≠ some qubits.length then some .valueError
  -- the circuit of the context is locked, needs numbers for the variables, or does not have the qubits
  else if D.locked = true then some .circuitError
  else if C.kind.isParametric = true ∧ D.parametric = false ∧ ∃ v, OpParam.var v ∈ op.params ∧ ¬ HasValue w v then some .valueError
  else if ∃ q ∈ qubits, ∃ q', SamePlace items qs q q' ∧ q' ∉ L then some .valueError
  else none

/-- Bits are given, but the measurement `op` has less bits than qubits. -/
def LacksBits (bitItems : Option (List Lbl)) (C : OpCls) (op : OpObj K) : Prop :=
  C.kind = .measurement ∧ bitItems.isSome = true ∧ (op.bits.getD []).length < (op.qubits.getD []).length

/-- The bits that `bits`, passed to a call of circuit `a`, stand for: the bits of the circuit. No bits (`None` or an empty list) do not stand for any. -/
def BitsFor (w : World K) (a : Nat) (bits : Option (List Nat)) (bitItems : Option (List Lbl)) : Prop :=
  match bits with
  | none | some [] => bitItems = none
  | some (b :: bs) => ∃ items, seen (bitsOf a w).1 = .ok items ∧ count (bitsOf a w).1 = .ok (b :: bs).length ∧ bitItems = some items

/-- No circuit has changed. There may be additional operations that are in no circuit. -/
structure NoneAppended (w w' : World K) : Prop where
  ops : w.ops <+: w'.ops
  circs : w'.circs.map bare = w.circs.map bare
  classes : w'.classes = w.classes
  qubits : w'.qubits = w.qubits
  bits : w'.bits = w.bits
  vars : w'.vars = w.vars
  active : w'.active = w.active
  ctxs : w'.ctxs = w.ctxs
  onExit : w'.onExit = w.onExit

/-- Circuit `a`, with the qubits `items`, is called with as many qubits `qs` and with bits that stand for `bitItems`, while new operations go to
another circuit `B`, which is `D` with the quantum registers `L`. -/
structure Called (w : World K) (a : Nat) (qs : List Nat) (bits : Option (List Nat)) (B : Nat) (D : Circ) (L : Layout) (items : List Lbl)
    (bitItems : Option (List Lbl)) : Prop where
  target : w.target = some B
  other : B ≠ a
  circuit : w.circs[B]? = some D
  registers : Shows D.q L
  qubits : seen (qubitsOf a w).1 = .ok items
  count : items.length = qs.length
  bits : BitsFor w a bits bitItems

/-- Operation `o` is `op`, of a class `C` that is not declared to act on zero qubits. -/
structure IsOp (w : World K) (o : Nat) (op : OpObj K) (C : OpCls) : Prop where
  object : w.ops[o]? = some op
  cls : w.classes[op.cls]? = some C
  some_qubits : C.ar.numQubits ≠ some 0

/-- Operation `o` is on qubits `items` and bits `bitItems` of its circuit, measurements having as many bits as qubits, with parameters and qubits as
declared by its class, controlled operations having one control and one target. -/
def Fits (w : World K) (items : List Lbl) (bitItems : Option (List Lbl)) (o : Nat) : Prop :=
  ∃ op C l, IsOp w o op C ∧ op.qubits = some l ∧ l ≠ [] ∧ (∀ q ∈ l, Lbl.obj q ∈ items) ∧
    (C.ar.numQubits = none ∨ C.ar.numQubits = some l.length) ∧ (C.kind = .controlled → l.length = 2) ∧
    (C.kind = .measurement → ∀ m, bitItems = some m → ∃ bs, op.bits = some bs ∧ bs.length = l.length ∧ ∀ b ∈ bs, Lbl.obj b ∈ m) ∧
    (C.kind.isParametric = true → C.numParams = some op.params.length)

/-- The variables of operation `o`, if it is parametric, have nonzero values, according to `val`. -/
def NonzeroIn [Zero K] (w : World K) (val : Nat → Option K) (o : Nat) : Prop :=
  ∀ op C, w.ops[o]? = some op → w.classes[op.cls]? = some C → C.kind.isParametric = true →
    ∀ v, OpParam.var v ∈ op.params → ∃ x, val v = some x ∧ x ≠ 0

/-- Nothing prevents operation `o` from being copied. -/
def Copyable [Zero K] (w : World K) (D : Circ) (L : List Nat) (items : List Lbl) (qs : List Nat) (bitItems : Option (List Lbl)) (o : Nat) : Prop :=
  ∃ op C, IsOp w o op C ∧ refusal w D L items qs bitItems C op = none ∧ ¬ LacksBits bitItems C op

end DG.Spec
