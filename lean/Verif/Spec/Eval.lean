import Verif.Spec.Program

/-!
# Specification of the evaluation of circuits
-/

namespace DG.Spec
variable {K : Type}

/-- Everything that exists in `w` is the same in `w'`, where further objects may exist. -/
structure Untouched (w w' : World K) : Prop where
  qubits : w'.qubits = w.qubits
  bits : w.bits <+: w'.bits
  vars : w.vars <+: w'.vars
  classes : w'.classes = w.classes
  ops : w.ops <+: w'.ops
  circs : w.circs <+: w'.circs
  ctxs : w.ctxs <+: w'.ctxs
  active : w'.active = w.active
  onExit : w'.onExit = w.onExit

/-- The numbers that `circuit.eval(given)` has for the operation at position `i`; no numbers are as good as none given. -/
def givenFor (given : Option (List (List K))) (i : Nat) : Option (List K) :=
  match given with
  | none => none
  | some g => match g[i]? with
    | some (y :: ys) => some (y :: ys)
    | _ => none

/-- If there are lists of numbers, there is one for position `i`. -/
def Covered (given : Option (List (List K))) (i : Nat) : Prop := ∀ g, given = some g → g ≠ [] → i < g.length

/-- There is a number for every variable in `ps`: a given one, or, if no numbers are given for position `i`, the value of the variable, which is not zero. -/
def HasNumbers [Zero K] (w : World K) (given : Option (List (List K))) (i : Nat) (ps : List (OpParam K)) : Prop :=
  match givenFor given i with
  | some l => ∀ (j v : Nat), ps[j]? = some (.var v) → j < l.length
  | none => ∀ v, OpParam.var v ∈ ps → HasValue w v

/-- The exception if `HasNumbers` does not hold. -/
def noNumber (given : Option (List (List K))) (i : Nat) : Err :=
  match givenFor given i with
  | some _ => .indexError
  | none => .valueError

/-- What operation `o` at position `i` needs, unless it is one of `done`. -/
def Ready [Zero K] (w : World K) (given : Option (List (List K))) (done : List Nat) (i o : Nat) : Prop :=
  Covered given i ∧ (o ∉ done → ∀ op k, w.ops[o]? = some op → w.classes[op.cls]? = some k → k.kind.isParametric = true → HasNumbers w given i op.params)

/-- The exception if operation `o` at position `i` does not have what it needs. -/
def FailsWith [Zero K] (w : World K) (given : Option (List (List K))) (done : List Nat) (i o : Nat) (e : Err) : Prop :=
  (¬ Covered given i ∧ e = .indexError) ∨
  (Covered given i ∧ e = noNumber given i ∧ o ∉ done ∧
    ∃ op k, w.ops[o]? = some op ∧ w.classes[op.cls]? = some k ∧ k.kind.isParametric = true ∧ ¬ HasNumbers w given i op.params)

/-- The bits `f 0`, `f 1`, … are copies of the bits of `w`: new objects with the same labels and values. -/
def CopyBits (w w' : World K) (f : Nat → Nat) : Prop :=
  Function.Injective f ∧ ∀ b, w.bits.length ≤ f b ∧ (b < w.bits.length → w'.bits[f b]? = w.bits[b]?)

/-- `op` with the bits of its condition and its measurement replaced. -/
def onBits (op : OpObj K) (f : Nat → Nat) : OpObj K := { op with cond := op.cond.map fun l => l.map f, bits := op.bits.map fun l => l.map f }

/-- The new operation `o'` is `o` at position `i`, evaluated, where `f` are the bits of the new circuit. -/
def EvaluatedAs [Zero K] (w w' : World K) (f : Nat → Nat) (given : Option (List (List K))) (i o o' : Nat) : Prop :=
  ∃ op op' k, w.ops[o]? = some op ∧ w'.ops[o']? = some op' ∧ w.classes[op.cls]? = some k ∧ w.ops.length ≤ o' ∧
    if k.kind.isParametric then HasNumbers w given i op.params ∧ Replaced w.varVal (givenFor given i) op.params op'.params ∧
      ∃ g, CopyBits w w' g ∧ (∀ b b', b' < w.bits.length → g b ≠ f b') ∧ { op' with params := op.params } = onBits op g
    else op'.params.length = op.params.length ∧ { op' with params := op.params } = onBits op f

/-- The operations at the first `n` positions of `ops` were evaluated, each when it occurred first, and nothing else was changed except operation `x`. -/
structure EvaluatedUpTo [Zero K] (w w' : World K) (ops : List Nat) (given : Option (List (List K))) (n : Nat) (x : Option Nat) : Prop where
  same : w' = { w with ops := w'.ops }
  length : w'.ops.length = w.ops.length
  others : ∀ o, o ∉ ops.take n → some o ≠ x → w'.ops[o]? = w.ops[o]?
  done : ∀ i o op k, i < n → ops[i]? = some o → o ∉ ops.take i → w.ops[o]? = some op → w.classes[op.cls]? = some k →
    if k.kind.isParametric then ∃ qs, Replaced w.varVal (givenFor given i) op.params qs ∧ w'.ops[o]? = some { op with params := qs }
    else w'.ops[o]? = some op

end DG.Spec
