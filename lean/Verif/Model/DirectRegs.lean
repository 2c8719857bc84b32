import Verif.Model.World

/-!
# Registers of a circuit that are used directly

`circuit.qregisters` (circuit.py 157-164) returns the dictionary of the circuit itself, and `circuit.qubits` (circuit.py 225-232) the cached register itself, so that a user can
call the methods of `registers/registers.py` on them.  The calls here do not go through methods of the circuit.
Not modelled: changes of the dictionary (`circuit.qregisters[...] = ...`, which the type `Mapping` does not offer).
-/

namespace DG.Bank

/-- `circuit.qregisters[label].add(item)` (registers.py 95-109): the cache of the circuit is not told. -/
def directAdd (ev : EqEnv) (b : Bank) (label : RLabel) (item : Nat) : Except Err Unit × Bank :=
  match b.regs.get? label with
  | none => (.error .keyError, b)
  | some r =>
    let x := r.add ev [.obj item]
    (x.1, { b with regs := b.regs.set label x.2 })

/-- `circuit.qregisters[label].freeze()` (registers.py 70-72). -/
def directFreeze (b : Bank) (label : RLabel) : Except Err Unit × Bank :=
  match b.regs.get? label with
  | none => (.error .keyError, b)
  | some r => (.ok (), { b with regs := b.regs.set label r.freeze })

/-- `circuit.qubits.add(item)`: the cached register is changed, no register of the circuit. -/
def flatAdd (ev : EqEnv) (b : Bank) (item : Nat) : Except Err Unit × Bank :=
  match b.flat ev with
  | (.error e, b') => (.error e, b')
  | (.ok r, b') =>
    let x := r.add ev [.obj item]
    (x.1, { b' with cache := some x.2 })

end DG.Bank
