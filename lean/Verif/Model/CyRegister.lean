import Verif.Model.Py

/-!
# `dwave/gate/registers/cyregister.pyx`

The Cython base class of all registers.  A register holds `stop` items; item number `i` is the integer `i`
itself unless `_index_to_label` says otherwise.  `_label_to_index` is the reverse dictionary.

Simplifications (all definitions of this file):
* items are Python integers (`Lbl.int`) or other hashable objects identified by a number (`Lbl.obj`); floats and
  other `Number`s that equal an integer (pyx 292-296) and unhashable items (pyx 300-302) are not modelled;
* Python `int`s are unbounded: `OverflowError` for labels outside `Py_ssize_t` (pyx 274) is not modelled;
* dictionary lookup uses hash and equality: an object and an integer are different keys even if `==` holds
  (their hashes differ: primitives.py 69, 120, 190 hash a string); direct comparisons `a == b` use `pyEq` below.
-/

namespace DG

/-- A register item: a Python integer, or any other hashable object (qubit, bit, variable, string...). -/
inductive Lbl
  | int (n : Int)
  | obj (k : Nat)
  deriving DecidableEq, Repr

/-- The run-time environment of `==`: the integer an object currently compares equal to, if any.
`Bit.__eq__` (primitives.py 104-110) compares a valued bit equal to its value, `Variable.__eq__` (174-180)
does the same for non-zero values. Qubits, strings and unset bits have `none`. -/
abbrev EqEnv := Nat → Option Int

/-- Python `a == b` for two register items. -/
def pyEq (ev : EqEnv) : Lbl → Lbl → Bool
  | .int a, .int b => a == b
  | .obj a, .obj b => a == b
  | .obj a, .int b => ev a == some b
  | .int a, .obj b => ev b == some a

/-- `class cyRegister` (pyx 29-33). -/
structure CyReg where
  /-- `_index_to_label` -/
  i2l : PyDict Lbl Lbl := []
  /-- `_label_to_index` -/
  l2i : PyDict Lbl Lbl := []
  /-- `_stop` -/
  stop : Nat := 0
  deriving Repr, DecidableEq

namespace CyReg

/-- `_is_range` (pyx 135-137). -/
def isRange (r : CyReg) : Bool := r.l2i.length == 0

/-- `_count_int` (pyx 272-282). -/
def countInt (r : CyReg) (v : Int) : Bool :=
  if r.isRange then
    decide (0 ≤ v) && decide (v < r.stop)
  else
    (decide (0 ≤ v) && decide (v < r.stop) && !(r.i2l.contains (.int v))) || r.l2i.contains (.int v)

/-- `count` (pyx 284-302), also `__contains__` (pyx 51-52). The result 0/1 is a `Bool`. -/
def count (r : CyReg) : Lbl → Bool
  | .int v => r.countInt v
  | .obj k => r.l2i.contains (.obj k)

/-- `at` (pyx 237-262). -/
def «at» (r : CyReg) (idx : Int) : Except Err Lbl :=
  let idx := if idx < 0 then (r.stop : Int) + idx else idx
  if ¬ (0 ≤ idx ∧ idx < r.stop) then .error .indexError
  else if r.isRange then .ok (.int idx)
  else match r.i2l.get? (.int idx) with
    | none => .ok (.int idx)
    | some v => .ok v

/-- `index(v, permissive=False)` (pyx 304-335). `int(pyobj)` of a non-integer raises `TypeError`. -/
def index (r : CyReg) (v : Lbl) : Except Err Int :=
  if !r.count v then .error .valueError
  else
    let toInt : Lbl → Except Err Int
      | .int n => .ok n
      | .obj _ => .error .typeError
    if r.isRange then toInt v
    else match r.l2i.get? v with
      | none => toInt v
      | some w => toInt w

/-- `__iter__` (pyx 76-83), collected in a list. -/
def iter (r : CyReg) : Except Err (List Lbl) :=
  if r.isRange then .ok ((List.range r.stop).map fun (i : Nat) => Lbl.int (i : Int))
  else (List.range r.stop).mapM fun (i : Nat) => r.at (i : Int)

/-- The loop `while self.count(v): v += 1` (pyx 111-112) with fuel. -/
def firstFree (r : CyReg) : (fuel : Nat) → (v : Nat) → Option Nat
  | 0, _ => none
  | fuel + 1, v => if r.count (.int v) then firstFree r fuel (v + 1) else some v

/-- The tail of `_append` (pyx 120-127): store `v` at the end. -/
def push (ev : EqEnv) (r : CyReg) (v : Lbl) : CyReg :=
  let idx : Lbl := .int r.stop
  if !(pyEq ev idx v) then
    { i2l := r.i2l.set idx v, l2i := r.l2i.set v idx, stop := r.stop + 1 }
  else { r with stop := r.stop + 1 }

/-- `_append` (pyx 88-127). Returns the label, or the exception, and the register afterwards. -/
def append (ev : EqEnv) (r : CyReg) (v : Option Lbl) (permissive : Bool) : Except Err Lbl × CyReg :=
  match v with
  | none =>
    if !r.isRange && r.count (.int r.stop) then
      match r.firstFree (r.stop + 1) 0 with
      | none => (.error .diverges, r)
      | some w => (.ok (.int w), r.push ev (.int w))
    else (.ok (.int r.stop), r.push ev (.int r.stop))
  | some v =>
    if r.count v then
      if permissive then (.ok v, r) else (.error .valueError, r)
    else (.ok v, r.push ev v)

/-- `_clear` (pyx 129-133). -/
def clear (_r : CyReg) : CyReg := {}

/-- `_extend` (pyx 139-156): stops at the first exception. -/
def extend (ev : EqEnv) (r : CyReg) (vs : List Lbl) (permissive : Bool) : Except Err Unit × CyReg :=
  match vs with
  | [] => (.ok (), r)
  | v :: vs =>
    match r.append ev (some v) permissive with
    | (.ok _, r') => extend ev r' vs permissive
    | (.error e, r') => (.error e, r')

/-- `_pop` (pyx 158-174). -/
def pop (r : CyReg) : Except Err Lbl × CyReg :=
  if r.stop = 0 then (.error .indexError, r)
  else
    let idx : Lbl := .int ((r.stop - 1 : Nat) : Int)
    let label := (r.i2l.get? idx).getD idx   -- `dict.pop(idx, idx)`
    (.ok label, { i2l := r.i2l.erase idx, l2i := r.l2i.erase label, stop := r.stop - 1 })

/-- The loop `lbl = next(counter); while lbl in ...: lbl = next(counter)` (pyx 420-422) with fuel;
`c` is the value of the counter before the call. Returns the label found (the counter is then one more). -/
def nextLabel (bad : Lbl → Bool) : (fuel : Nat) → (c : Nat) → Option Nat
  | 0, _ => none
  | fuel + 1, c => if bad (.int c) then nextLabel bad fuel (c + 1) else some c

/-- `_resolve_label_conflict` (pyx 383-432). The loop over `mapping.items()` with the counter, the two
dictionaries being built, and the fuel for each label search. -/
def resolveLoop (ev : EqEnv) (existing : Lbl → Bool) (oldLabels newLabels : List Lbl) (fuel : Nat) :
    (items : List (Lbl × Lbl)) → (counter : Nat) → (oti itn : PyDict Lbl Lbl) →
    Except Err (PyDict Lbl Lbl × PyDict Lbl Lbl)
  | [], _, oti, itn => .ok (oti, itn)
  | (old, new) :: rest, counter, oti, itn =>
    if pyEq ev old new then resolveLoop ev existing oldLabels newLabels fuel rest counter oti itn
    else if newLabels.contains old || oldLabels.contains new then
      match nextLabel (fun l => newLabels.contains l || oldLabels.contains l || existing l) fuel counter with
      | none => .error .diverges
      | some l =>
        resolveLoop ev existing oldLabels newLabels fuel rest (l + 1)
          (oti.set old (.int l)) (itn.set (.int l) new)
    else resolveLoop ev existing oldLabels newLabels fuel rest counter (oti.set old new) itn

/-- `_resolve_label_conflict` (pyx 383-432) on register `r`; fuel is one more than the number of labels
that can be in the way. -/
def resolveLabelConflict (ev : EqEnv) (r : CyReg) (mapping : PyDict Lbl Lbl) (oldLabels newLabels : List Lbl) :
    Except Err (PyDict Lbl Lbl × PyDict Lbl Lbl) :=
  resolveLoop ev r.count oldLabels newLabels
    (newLabels.length + oldLabels.length + r.stop + 1) mapping (2 * mapping.length) [] []

/-- The test `new_labels[new] != old` (pyx 366) for the pair `(old, new)`. -/
def labelClash (ev : EqEnv) (newLabels : PyDict Lbl Lbl) (p : Lbl × Lbl) : Bool :=
  match newLabels.get? p.2 with
  | some o => !(pyEq ev o p.1)
  | none => false   -- impossible: every `new` is a key of `new_labels`

/-- `_iter_safe_relabels` (pyx 346-381): the list of sub-mappings it yields. All of them are computed before
the first one is applied (`_resolve_label_conflict` returns a tuple). -/
def iterSafeRelabels (ev : EqEnv) (r : CyReg) (mapping : PyDict Lbl Lbl) :
    Except Err (List (PyDict Lbl Lbl)) :=
  -- new_labels = {new: old for old, new in mapping.items()}
  let newLabels : PyDict Lbl Lbl := PyDict.ofPairs (mapping.map fun p => (p.2, p.1))
  if newLabels.length < mapping.length then
    -- loop raising ValueError for the first conflict, RuntimeError otherwise
    if mapping.any (labelClash ev newLabels) then .error .valueError
    else .error .runtimeError
  else
    let oldLabels := mapping.keys
    if newLabels.keys.any (fun v => r.count v && !(oldLabels.contains v)) then .error .valueError
    else if oldLabels.any (fun v => newLabels.contains v) then
      match resolveLabelConflict ev r mapping oldLabels newLabels.keys with
      | .error e => .error e
      | .ok (a, b) => .ok [a, b]
    else .ok [mapping]

/-- The body of the inner loop of `_relabel` (pyx 185-194). -/
def relabelOne (ev : EqEnv) (r : CyReg) (old new : Lbl) : CyReg :=
  if pyEq ev old new then r
  else
    let idx := (r.l2i.get? old).getD old       -- `dict.pop(old, old)`
    let l2i := r.l2i.erase old
    if !(pyEq ev new idx) then
      { r with l2i := l2i.set new idx, i2l := r.i2l.set idx new }
    else
      { r with l2i := l2i, i2l := r.i2l.erase idx }

/-- The inner loop of `_relabel` (pyx 184-194). -/
def applySubmap (ev : EqEnv) (r : CyReg) (m : PyDict Lbl Lbl) : CyReg :=
  m.foldl (fun r p => r.relabelOne ev p.1 p.2) r

/-- `_relabel` (pyx 176-194). -/
def relabel (ev : EqEnv) (r : CyReg) (mapping : PyDict Lbl Lbl) : Except Err Unit × CyReg :=
  match r.iterSafeRelabels ev mapping with
  | .error e => (.error e, r)
  | .ok subs => (.ok (), subs.foldl (fun r m => r.applySubmap ev m) r)

/-- `_relabel_as_integers` (pyx 196-217). -/
def relabelAsIntegers (r : CyReg) : PyDict Lbl Lbl × CyReg :=
  (r.i2l, { r with i2l := [], l2i := [] })

/-- `mapping` built in `_remove` (pyx 230-233): `x_i -> x_{i+1}` for `i` in `range(vi, size-1)`. -/
def removeMapping (r : CyReg) (vi : Int) : Except Err (PyDict Lbl Lbl) := do
  let ps ← (List.range ((r.stop : Int) - 1 - vi).toNat).mapM fun (j : Nat) => do
    let a ← r.at (vi + j)
    let b ← r.at (vi + j + 1)
    pure (a, b)
  pure (PyDict.ofPairs ps)

/-- `_remove` (pyx 219-235). -/
def remove (ev : EqEnv) (r : CyReg) (v : Lbl) : Except Err Unit × CyReg :=
  match r.index v with
  | .error e => (.error e, r)
  | .ok vi =>
    match r.removeMapping vi with
    | .error e => (.error e, r)
    | .ok mapping => (r.pop.2).relabel ev mapping

/-- `copy` (pyx 264-270). -/
def copy (r : CyReg) : CyReg := { i2l := r.i2l, l2i := r.l2i, stop := r.stop }

/-- Argument of `__init__` (pyx 30-49). -/
inductive Init
  | none
  | reg (r : CyReg)
  | range0 (stop : Int)
  | iter (vs : List Lbl)

/-- `__init__` (pyx 30-49). -/
def init (ev : EqEnv) : Init → CyReg
  | .none => {}
  | .reg r => { i2l := r.i2l, l2i := r.l2i, stop := r.stop }
  | .range0 stop => { stop := (max stop 0).toNat }
  | .iter vs => (extend ev {} vs true).2

/-- Python `range(start, stop, step)` as a list (empty for step 0, which raises `ValueError` in Python and is
treated by the caller). -/
def pyRange (start stop step : Int) : List Int :=
  if 0 < step then
    (List.range ((stop - start + step - 1) / step).toNat).map fun (k : Nat) => start + k * step
  else if step < 0 then
    (List.range ((start - stop - step - 1) / (-step)).toNat).map fun (k : Nat) => start + k * step
  else []

/-- The loop of `__getitem__` for slices (pyx 72-73). -/
def sliceLoop (ev : EqEnv) (r : CyReg) : List Int → CyReg → Except Err CyReg
  | [], new => .ok new
  | i :: is, new =>
    match r.at i with
    | .error e => .error e
    | .ok v =>
      match new.append ev (some v) false with
      | (.error e, _) => .error e
      | (.ok _, new') => sliceLoop ev r is new'

/-- `__getitem__` for a slice `start:stop:step` (pyx 63-74). Cython's `range` with step 0 raises. -/
def getSlice (ev : EqEnv) (r : CyReg) (start stop step : Option Int) : Except Err CyReg :=
  let a := start.getD 0
  let b := stop.getD r.stop
  let s := step.getD 1
  if s = 0 then .error .valueError
  else sliceLoop ev r (pyRange a b s) {}

end CyReg
end DG
