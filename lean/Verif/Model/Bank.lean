import Verif.Model.Register

/-!
# The registers of a circuit: `dwave/gate/circuit.py` 225-241, 362-583

The methods for qubits and for bits are copies of each other; `Bank` is the part of a circuit that holds the registers of one
kind together with the cached property (`qubits` or `bits`). The functions here are used once for qubits and once for bits.

Simplifications:
* labels are strings or integers (any hashable in Python); only equality and truth value of labels matter;
* qubits and bits are numbered objects (`Lbl.obj k`); an item that is a plain integer (`Lbl.int`) can only arise by the loss
  of a bit (see C12);
* the dictionaries `circuit.qregisters`/`circuit.cregisters` and their registers are only changed by circuit methods.
-/

namespace DG

/-- A register label, or the label of a qubit or bit. -/
inductive RLabel
  | str (s : String)
  | int (n : Int)
  deriving DecidableEq, Repr

/-- `bool(label)`. -/
def RLabel.truthy : RLabel → Bool
  | .str s => s != ""
  | .int n => n != 0

/-- The registers of one kind of a circuit (circuit.py 80-81) and the cached flattened register, which is stored in the
instance dictionary by `cached_property` (circuit.py 225-241). -/
structure Bank where
  regs : PyDict RLabel Reg := []
  cache : Option Reg := none

namespace Bank

/-- `a + b` for registers (registers.py 82-93): a copy of `a` (without attribute `_frozen`) extended by the items of `b`. -/
def plus (ev : EqEnv) (a b : Reg) : Except Err Reg :=
  match b.cy.iter with
  | .error e => .error e
  | .ok items =>
    match a.cy.copy.extend ev items false with
    | (.error e, _) => .error e
    | (.ok _, cy) => .ok { cy := cy, frozen := none }

/-- The loop `for qreg in self.qregisters.values(): qubit_reg += qreg` (circuit.py 229-230, 238-239). -/
def sum (ev : EqEnv) : List Reg → Reg → Except Err Reg
  | [], acc => .ok acc
  | r :: rs, acc =>
    match plus ev acc r with
    | .error e => .error e
    | .ok acc' => sum ev rs acc'

/-- `self.qubits` (circuit.py 225-232) / `self.bits` (circuit.py 234-241), with the cache. -/
def flat (ev : EqEnv) (b : Bank) : Except Err Reg × Bank :=
  match b.cache with
  | some r => (.ok r, b)
  | none =>
    match sum ev b.regs.values (Reg.new ev []) with
    | .error e => (.error e, b)
    | .ok r => (.ok r, { b with cache := some r })

/-- `num_qubits` (circuit.py 294-297) / `num_bits` (circuit.py 299-302). -/
def size (ev : EqEnv) (b : Bank) : Except Err Nat × Bank :=
  match b.flat ev with
  | (.error e, b') => (.error e, b')
  | (.ok r, b') => (.ok r.cy.stop, b')

/-- `add_qregister(n, label)` (circuit.py 424-444) / `add_cregister` (circuit.py 446-466). `pre` is `"qreg"` or `"creg"`;
`fresh` is the number of the next new object. Returns the labels of the created objects, numbered from `fresh`. -/
def addRegister (ev : EqEnv) (b : Bank) (pre : String) (n : Int) (label : Option RLabel) (fresh : Nat) :
    Except Err (List RLabel) × Bank :=
  let label := match label with
    | none => RLabel.str (pre ++ toString b.regs.length)
    | some l => l
  if b.regs.contains label then (.error .valueError, b)
  else match b.size ev with
    | (.error e, b') => (.error e, b')
    | (.ok k, b') =>
      let data := (List.range n.toNat).map fun (i : Nat) => Lbl.obj (fresh + i)
      let created := (List.range n.toNat).map fun (i : Nat) => RLabel.str (toString (k + i))
      (.ok created, { regs := b'.regs.set label (Reg.new ev data), cache := none })

/-- The first part of `add_qubit` (circuit.py 375-381) / `add_bit` (circuit.py 406-412): the label of the register to add to,
which is created if necessary. -/
def chooseRegister (ev : EqEnv) (b : Bank) (pre : String) (label : Option RLabel) (fresh : Nat) :
    Except Err RLabel × Bank :=
  match label with
  | some l =>
    if b.regs.contains l then (.ok l, b)
    else match b.addRegister ev pre 0 (some l) fresh with
      | (.error e, b') => (.error e, b')
      | (.ok _, b') => (.ok l, b')
  | none =>
    match b.regs.keys with
    | l :: _ => (.ok l, b)
    | [] => match b.addRegister ev pre 0 none fresh with
      | (.error e, b') => (.error e, b')
      | (.ok _, b') => match b'.regs.keys with
        | l :: _ => (.ok l, b')
        | [] => (.error .indexError, b')

/-- `item in register` for an optional object; `None` is in no register (pyx 284-302). -/
def holds (r : Reg) : Option Nat → Bool
  | some k => r.cy.count (.obj k)
  | none => false

/-- `self.qregisters[label].add(item)` followed by the deletion of the cache (circuit.py 387-392, 418-422). -/
def store (ev : EqEnv) (b : Bank) (label : RLabel) (item : Nat) : Except Err Unit × Bank :=
  match b.regs.get? label with
  | none => (.error .keyError, b)
  | some r =>
    match r.add ev [.obj item] with
    | (.error e, r') => (.error e, { b with regs := b.regs.set label r' })
    | (.ok _, r') => (.ok (), { regs := b.regs.set label r', cache := none })

/-- `add_qubit(item, label)` (circuit.py 362-392) / `add_bit(item, label)` (circuit.py 394-422). `given` is the object passed and
its truth value (`item or Bit(...)`: a bit with value 0 is false, primitives.py 141-145; a qubit is always true).
Returns the labels of the created objects (none or one, with number `fresh`). -/
def addItem (ev : EqEnv) (b : Bank) (pre : String) (given : Option (Nat × Bool)) (label : Option RLabel) (fresh : Nat) :
    Except Err (List RLabel) × Bank :=
  match b.chooseRegister ev pre label fresh with
  | (.error e, b1) => (.error e, b1)
  | (.ok l, b1) =>
    match b1.flat ev with
    | (.error e, b2) => (.error e, b2)
    | (.ok all, b2) =>
      if holds all (given.map Prod.fst) then (.error .valueError, b2)
      else match given with
        | some (k, true) =>
          match b2.store ev l k with
          | (.error e, b3) => (.error e, b3)
          | (.ok _, b3) => (.ok [], b3)
        | _ =>
          match b2.store ev l fresh with
          | (.error e, b3) => (.error e, b3)
          | (.ok _, b3) => (.ok [.str (toString all.cy.stop)], b3)

/-- Result of `get_qubit`/`get_bit`. -/
inductive Found
  | one (k : Nat)
  | many (ks : List Nat)
  deriving DecidableEq, Repr

/-- The loop of `get_qubit` (circuit.py 494-503) / `get_bit` (circuit.py 550-559); `lab k` is the label of object `k`. An integer has
no attribute `label`. -/
def search (lab : Nat → Option RLabel) (label : RLabel) (all : Bool) : List Lbl → List Nat → Except Err Found
  | [], acc => if acc.isEmpty then .error .valueError else .ok (.many acc)
  | .int _ :: _, _ => .error .attributeError
  | .obj k :: rest, acc =>
    if lab k = some label then
      if all then search lab label all rest (acc ++ [k]) else .ok (.one k)
    else search lab label all rest acc

/-- All items of registers one after the other (`itertools.chain.from_iterable`, circuit.py 492, 548). -/
def chain : List Reg → Except Err (List Lbl)
  | [] => .ok []
  | r :: rs =>
    match r.cy.iter, chain rs with
    | .ok a, .ok b => .ok (a ++ b)
    | .error e, _ => .error e
    | _, .error e => .error e

/-- `get_qubit(label, qreg_label, return_all)` (circuit.py 473-503) / `get_bit` (circuit.py 529-559). -/
def getItem (b : Bank) (lab : Nat → Option RLabel) (label : RLabel) (reg : Option RLabel) (all : Bool) : Except Err Found :=
  match reg with
  | some l =>
    if l.truthy then
      match b.regs.get? l with
      | none => .error .keyError
      | some r => match r.cy.iter with
        | .error e => .error e
        | .ok items => search lab label all items []
    else match chain b.regs.values with
      | .error e => .error e
      | .ok items => search lab label all items []
  | none => match chain b.regs.values with
    | .error e => .error e
    | .ok items => search lab label all items []

/-- The loop of `find_qubit` (circuit.py 520-525) / `find_bit` (circuit.py 576-581). -/
def findLoop (item : Nat) (asLabel : Bool) : PyDict RLabel Reg → Nat → Except Err ((RLabel ⊕ Nat) × Int)
  | [], _ => .error .valueError
  | (l, r) :: rest, i =>
    if r.cy.count (.obj item) then
      match r.cy.index (.obj item) with
      | .error e => .error e
      | .ok idx => if asLabel then .ok (.inl l, idx) else .ok (.inr i, idx)
    else findLoop item asLabel rest (i + 1)

/-- `find_qubit(qubit, qreg_label)` (circuit.py 505-527) / `find_bit` (circuit.py 561-583). -/
def findItem (b : Bank) (item : Nat) (asLabel : Bool) : Except Err ((RLabel ⊕ Nat) × Int) :=
  findLoop item asLabel b.regs 0

/-- The register part of `reset(keep_registers=False)` (circuit.py 353-355): the dictionary is emptied, the cache is kept. -/
def clear (b : Bank) : Bank := { b with regs := [] }

end Bank
end DG
