import Verif.Model.Program

/-!
# The list of operations of a circuit that is used directly

`circuit.circuit` (circuit.py 175-178) returns the list of the circuit itself, so that a user can call the methods of Python lists on it.  These calls do not go through methods of the
circuit.  Not modelled: `sort` (operations cannot be compared), slices and `extend` of the list (several of the calls below).
-/

namespace DG
variable {K : Type}

/-- A call of a method of the list `circuit.circuit`. -/
inductive ListCall
  /-- `l.append(op)` -/
  | append (o : Nat)
  /-- `l.insert(i, op)` -/
  | insert (i : Int) (o : Nat)
  /-- `l[i] = op` -/
  | assign (i : Int) (o : Nat)
  /-- `del l[i]`, `l.pop(i)` -/
  | delete (i : Int)
  | clear
  | reverse
  deriving DecidableEq, Repr

/-- A position in a list of length `n`: negative ones count from the end; `IndexError` outside of the list. -/
def listIndex (n : Nat) (i : Int) : Except Err Nat :=
  if 0 ≤ i ∧ i < n then .ok i.toNat
  else if i < 0 ∧ 0 ≤ i + n then .ok (i + n).toNat
  else .error .indexError

/-- Python's lists: the list after the call. `insert` accepts every position; those outside of the list are moved to its ends. -/
def ListCall.run (l : List Nat) : ListCall → Except Err (List Nat)
  | .append o => .ok (l ++ [o])
  | .insert i o =>
    let k := (if i < 0 then i + l.length else i).toNat
    .ok (l.take k ++ o :: l.drop k)
  | .assign i o => match listIndex l.length i with
    | .ok k => .ok (l.set k o)
    | .error e => .error e
  | .delete i => match listIndex l.length i with
    | .ok k => .ok (l.eraseIdx k)
    | .error e => .error e
  | .clear => .ok []
  | .reverse => .ok l.reverse

/-- A call on `circuit.circuit` (circuit.py 175-178): neither the lock nor the qubits are checked (compare `append`, circuit.py 180-201), and variables are not replaced. -/
def directOps (c : Nat) (e : ListCall) : M K Unit := fun w =>
  match w.circs[c]? with
  | none => (.error .typeError, w)
  | some C => match e.run C.ops with
    | .error e => (.error e, w)
    | .ok l => (.ok (), w.setCirc c { C with ops := l })

end DG
