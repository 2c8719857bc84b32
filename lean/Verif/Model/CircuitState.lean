import Verif.Model.Py
import Mathlib.Analysis.SpecialFunctions.Sqrt
import Mathlib.Analysis.Complex.Norm

/-!
# The state of a circuit: `state`, `density_matrix`, `set_state`

Models circuit.py 89-90 and 243-292. Simplifications: complex numbers are exact; the stored array is a value, i.e. later changes of the caller's array are not
modelled; the number of qubits is an argument.
-/

namespace DG

/-- A numpy array: its shape and its entries in row-major order. -/
structure NDArr where
  shape : List Nat
  data : List ℂ
  size : data.length = shape.prod

namespace NDArr

/-- `np.linalg.norm(a)` without further arguments: the 2-norm of the flattened array. -/
noncomputable def norm (a : NDArr) : ℝ := Real.sqrt ((a.data.map fun x => ‖x‖ ^ 2).sum)

/-- `a / x`. -/
noncomputable def scale (a : NDArr) (x : ℝ) : NDArr := ⟨a.shape, a.data.map (· / (x : ℂ)), by simp [a.size]⟩

/-- `a.reshape(-1, 1) @ a.reshape(1, -1)` (circuit.py 254). -/
noncomputable def outer (a : NDArr) : NDArr :=
  ⟨[a.data.length, a.data.length], a.data.flatMap fun x => a.data.map fun y => x * y, by simp [List.length_flatMap]⟩

end NDArr

/-- `np.isclose(x, 1)` for a finite `x`: `|x - 1| <= 1e-8 + 1e-5 * |1|`. -/
def IsClose1 (x : ℝ) : Prop := |x - 1| ≤ 1 / 100000000 + 1 / 100000

/-- The attributes `_state` and `_density_matrix` of a circuit (circuit.py 89-90). -/
structure StateSlot where
  state : Option NDArr := none
  dm : Option NDArr := none

namespace StateSlot

/-- `circuit.state` (circuit.py 243-248). -/
def getState (s : StateSlot) : Except Err (Option NDArr) :=
  if s.state.isNone ∧ s.dm.isSome then .error .circuitError else .ok s.state

/-- `circuit.density_matrix` (circuit.py 250-255). -/
noncomputable def getDm (s : StateSlot) : Option NDArr × StateSlot :=
  match s.state, s.dm with
  | some a, none => (some a.outer, { s with dm := some a.outer })
  | _, dm => (dm, s)

/-- `2 << (num_qubits - 1)` (circuit.py 287): a negative shift raises `ValueError`. -/
def stateSize (n : Nat) : Except Err Nat :=
  match n with
  | 0 => .error .valueError
  | n + 1 => .ok (2 <<< n)

open Classical in
/-- `_assert_state(state)` (circuit.py 285-292) of a circuit with `n` qubits. -/
noncomputable def assertState (n : Nat) (a : NDArr) : Except Err Unit :=
  match stateSize n with
  | .error e => .error e
  | .ok size =>
    if a.shape ≠ [size] ∧ a.shape ≠ [size, size] then .error .valueError
    else if ¬ IsClose1 a.norm then .error .valueError
    else .ok ()

/-- `set_state(state, force, normalize)` (circuit.py 257-283). With `normalize`, an array of norm 0 becomes an array of NaNs, which is rejected like the
array of zeros here. -/
noncomputable def setState (n : Nat) (a : NDArr) (force normalize : Bool) (s : StateSlot) : Except Err Unit × StateSlot :=
  if !force && (s.state.isSome || s.dm.isSome) then (.error .circuitError, s)
  else
    let a := if normalize then a.scale a.norm else a
    match assertState n a with
    | .error e => (.error e, s)
    | .ok () => if a.shape.length = 1 then (.ok (), ⟨some a, none⟩) else (.ok (), ⟨none, some a⟩)

end StateSlot

end DG
