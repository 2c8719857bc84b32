import Verif.Model.Py

/-!
# `dwave/gate/primitives.py`

Python objects that occur in comparisons: qubits, bits, variables and numbers (`K`: whatever type numbers have).
-/

namespace DG

/-- A Python object; `Qubit.id`, `Bit.id`, `Variable.name` are strings; labels play no role in `==`/`hash`. -/
inductive PyVal (K : Type)
  /-- primitives.py 31-69 -/
  | qubit (id : String)
  /-- primitives.py 72-145; `value` is `_value` -/
  | bit (id : String) (value : Option K)
  /-- primitives.py 148-202; `value` is `_value` -/
  | variable (name : String) (value : Option K)
  | num (x : K)
  deriving DecidableEq

namespace PyVal
variable {K : Type} [DecidableEq K] [Zero K]

/-- `variable == x` for a number `x` (primitives.py 178): `self._value and self._value == object`; zero is falsy. -/
def varEqNum (value : Option K) (x : K) : Bool :=
  match value with
  | none => false
  | some v => if v = 0 then false else decide (v = x)

/-- `bit == x` for a number `x` (primitives.py 108): `self._value is not None and self._value == object`. -/
def bitEqNum (value : Option K) (x : K) : Bool :=
  match value with
  | none => false
  | some v => decide (v = x)

/-- Python's `a == b`. The left operand's `__eq__` decides, numbers return `NotImplemented` for non-numbers so the
reflected `__eq__` of the right operand is used (Qubit 53-57, Bit 104-110, Variable 174-180). -/
def eq : PyVal K → PyVal K → Bool
  | .qubit i, .qubit j => decide (i = j)
  | .qubit _, _ => false
  | .bit i _, .bit j _ => decide (i = j)
  -- `self._value == object` with a number on the left: reflected `object.__eq__(self._value)`
  | .bit _ none, _ => false
  | .bit _ (some _), .qubit _ => false
  | .bit _ (some v), .variable _ w => varEqNum w v
  | .bit _ (some v), .num x => bitEqNum (some v) x
  | .variable n _, .variable m _ => decide (n = m)
  | .variable _ none, _ => false
  | .variable _ (some v), .qubit _ => if v = 0 then false else false
  | .variable _ (some v), .bit _ w => if v = 0 then false else bitEqNum w v
  | .variable _ (some v), .num x => varEqNum (some v) x
  | .num _, .qubit _ => false
  | .num x, .bit _ w => bitEqNum w x
  | .num x, .variable _ w => varEqNum w x
  | .num x, .num y => decide (x = y)

/-- `hash(a)` (primitives.py 63-65, 118-120, 188-190) for a given string hash and number hash. -/
def hash (hs : String → Int) (hn : K → Int) : PyVal K → Int
  | .qubit i => hs ("Qubit" ++ i)
  | .bit i _ => hs ("Bit" ++ i)
  | .variable n _ => hs n
  | .num x => hn x

end PyVal

/-- The mutable value of a `Bit` (primitives.py 82-86). -/
structure BitState where
  value : Option Int
  deriving DecidableEq, Repr

namespace BitState

/-- `Bit.set(value, force)` (primitives.py 122-135). The argument is represented by the outcome of `bool(value)`. -/
def set (b : BitState) (value : Except Err Bool) (force : Bool) : Except Err Unit × BitState :=
  match value with
  | .error e => (.error e, b)
  | .ok v =>
    let v : Int := if v then 1 else 0
    if b.value.isSome && !force then (.error .valueError, b)
    else (.ok (), { value := some v })

/-- `Bit.reset()` (primitives.py 137-139). -/
def reset (_ : BitState) : BitState := { value := none }

/-- `Bit.__bool__` (primitives.py 141-145). -/
def bool (b : BitState) : Bool :=
  match b.value with
  | some v => decide (v ≠ 0)
  | none => true

end BitState
end DG
