import Verif.Model.Simulator

/-!
# `Measurement.sample` with all its arguments and `Measurement.expval` (base.py 701-761)

`Sim.sample` in `Model/Simulator.lean` is `sample` with a sequence of qubits or without one, and `as_bitstring=False`. Simplification: averages are
exact real numbers.
-/

noncomputable section

namespace DG.Sim

/-- The argument `qubits`: missing, a sequence, or a single index, as in the signature of `expval` (base.py 749). -/
inductive QubitArg
  | none
  | seq (l : List Int)
  | index (q : Int)

/-- `sample(qubits, num_samples)` (base.py 701-744). `max(q)` of an integer raises `TypeError` (base.py 729). -/
def sampleArg (u : Nat → ℝ) (r : Record) (arg : QubitArg) (numSamples : Nat) : Except Err (List (List Int) × Record) :=
  match arg with
  | .none => sample u r none numSamples
  | .seq l => sample u r (some l) numSamples
  | .index _ => match r.state with
    | none => .error .circuitError
    | some _ => .error .typeError

/-- `["".join(map(str, s)) for s in samples]` (base.py 742-743). -/
def bitstrings (rows : List (List Int)) : List String := rows.map fun row => String.join (row.map toString)

/-- `sample(qubits, num_samples, as_bitstring=True)` (base.py 701-744). -/
def sampleStrings (u : Nat → ℝ) (r : Record) (arg : QubitArg) (numSamples : Nat) : Except Err (List String × Record) :=
  match sampleArg u r arg numSamples with
  | .error e => .error e
  | .ok (rows, r') => .ok (bitstrings rows, r')

/-- `np.transpose(samples).mean(axis=1).tolist()` (base.py 761). Without samples the array has one dimension and `AxisError` is raised, which is a
`ValueError`. All rows have the same length. -/
def means : List (List Int) → Except Err (List ℝ)
  | [] => .error .valueError
  | row :: rows => .ok ((List.range row.length).map fun j => (((row :: rows).map fun x => ((x.getD j 0 : Int) : ℝ)).sum) / ((row :: rows).length : ℝ))

/-- `expval(qubits, num_samples)` (base.py 748-761). -/
def expval (u : Nat → ℝ) (r : Record) (arg : QubitArg) (numSamples : Nat) : Except Err (List ℝ × Record) :=
  match sampleArg u r arg numSamples with
  | .error e => .error e
  | .ok (rows, r') => match means rows with
    | .error e => .error e
    | .ok l => .ok (l, r')

end DG.Sim
