import Verif.Model.Simulator

/-!
# `dwave/gate/tools/unitary.py`, the `matrix` properties that use it, and `create_operation`

Exact arithmetic. A numpy array is modelled by its dimension and a function giving its entries (entries outside the
dimension are irrelevant); all arrays here are square.
-/

noncomputable section

namespace DG.Unitary
open Complex Sim

/-- A square numpy array. -/
structure NMat where
  dim : Nat
  e : Nat → Nat → ℂ

/-- `np.eye(d)`. -/
def eye (d : Nat) : NMat := ⟨d, fun i j => if i = j then 1 else 0⟩

/-- `np.kron(A, B)`. -/
def kron (A B : NMat) : NMat :=
  ⟨A.dim * B.dim, fun i j => A.e (i / B.dim) (j / B.dim) * B.e (i % B.dim) (j % B.dim)⟩

/-- `A @ B`: `ValueError` unless the dimensions agree. -/
def matmul (A B : NMat) : Except Err NMat :=
  if A.dim = B.dim then .ok ⟨A.dim, fun i j => ∑ k ∈ Finset.range A.dim, A.e i k * B.e k j⟩ else .error .valueError

/-- A 2x2 array. -/
def ofArr (a : Arr2) : NMat :=
  ⟨2, fun i j => if i = 0 then (if j = 0 then a.e00 else a.e01) else (if j = 0 then a.e10 else a.e11)⟩

/-- An array given by a table. -/
def ofTable (t : List (List Nat)) : NMat := ⟨t.length, tableEntry t⟩

/-! ## build_controlled_unitary -/

/-- `list.insert(idx, a)`: negative positions count from the end, positions outside are clamped. -/
def pyInsert {α : Type} (l : List α) (idx : Int) (a : α) : List α :=
  let i := if idx < 0 then idx + l.length else idx
  let i := if i < 0 then 0 else i.toNat
  let i := if i > l.length then l.length else i
  l.take i ++ a :: l.drop i

/-- `itertools.product(["0", "1"], repeat=k)`, in order. -/
def product : Nat → List (List Bool)
  | 0 => [[]]
  | k + 1 => (product k).map (false :: ·) ++ (product k).map (true :: ·)

/-- `int("".join(bits), 2)`. -/
def toInt (bits : List Bool) : Nat := bits.foldl (fun v b => 2 * v + b.toNat) 0

/-- Order of the pairs `(index, "0" or "1")` used by `sorted` (unitary.py 160). -/
def pairLe (p q : Int × Bool) : Bool := p.1 < q.1 || (p.1 == q.1 && (!p.2 || q.2))

/-- The sorted list of pairs (unitary.py 160). -/
def sortedPairs (control target : List Int) : List (Int × Bool) :=
  List.insertionSort (fun p q => pairLe p q) (control.map (·, true) ++ target.map (·, false))

/-- The indices `idx_0`, `idx_1` of one iteration (unitary.py 160-170). -/
def rowPair (control target : List Int) (bitstring : List Bool) : Nat × Nat :=
  let qubits := sortedPairs control target
  let controlBits := qubits.foldl (fun l p => pyInsert l p.1 p.2) bitstring
  let targetBits := qubits.foldl (fun l p => pyInsert l p.1 true) bitstring
  (toInt controlBits, toInt targetBits)

/-- `state[idx_0], state[idx_1] = unitary @ [state[idx_0], state[idx_1]]` (unitary.py 171-174); `unitary` may be `None`
(`TypeError`) or have the wrong dimension (`ValueError`). The indices have as many bits as there are qubits, so
they are in range. -/
def setRows (unitary : Option NMat) (state : NMat) (rows : Nat × Nat) : Except Err NMat :=
  match unitary with
  | none => .error .typeError
  | some u =>
    if u.dim = 2 then
      let new0 := fun j => u.e 0 0 * state.e rows.1 j + u.e 0 1 * state.e rows.2 j
      let new1 := fun j => u.e 1 0 * state.e rows.1 j + u.e 1 1 * state.e rows.2 j
      .ok ⟨state.dim, fun i j => if i = rows.2 then new1 j else if i = rows.1 then new0 j else state.e i j⟩
    else .error .valueError

/-- `build_controlled_unitary` (unitary.py 116-176), for sequences `control` and `target` (an integer stands for a sequence
of one). -/
def buildControlled (control target : List Int) (unitary : Option NMat) (numQubits : Option Int) : Except Err NMat :=
  if control.any (· ∈ target) then .error .valueError
  else match (control ++ target).max? with
    | none => .error .valueError
    | some max_ =>
      if (match numQubits with | some n => decide (n ≤ max_) | none => false) then .error .valueError
      else if target.length ≠ 1 then .error .notImplementedError
      else
        let n : Int := match numQubits with
          | some n => if n = 0 then max_ + 1 else n
          | none => max_ + 1
        /- `2**n` is a float for negative n, which `np.eye` refuses -/
        if n < 0 then .error .typeError
        else
          let repeats : Int := n - (control.length + target.length)
          /- `itertools.product` refuses a negative `repeat` -/
          if repeats < 0 then .error .valueError
          else (product repeats.toNat).foldlM (fun state bits => setRows unitary state (rowPair control target bits))
            (eye (2 ^ n.toNat))

/-! ## build_unitary -/

/-- An operation with its controls and targets (empty for operations that are not controlled). -/
structure UOp extends SOp where
  control : List Nat := []
  target : List Nat := []

/-- `op.matrix` of an operation that is not a `ControlledOperation`: `none` is Python's `None`, which is what operations
without a matrix have (base.py 335-341). -/
def plainMatrix : Kind → Except Err (Option NMat)
  | .single b => do
    let a ← b.matrix
    pure (some (ofArr a))
  | .swap => .ok (some (ofTable swapTable))
  | .cswap => .ok (some (ofTable cswapTable))
  | .ccx => .ok (some (ofTable ccxTable))
  | _ => .ok none

/-- A factor of the Kronecker product; `np.kron` with `None`, or `None @ state`, is a `TypeError`. -/
def factor (op : UOp) : Except Err NMat := do
  match (← plainMatrix op.kind) with
  | some m => pure m
  | none => .error .typeError

/-- The factor for qubit `qb`: the operation's matrix if it is the operation's (first) qubit, otherwise the identity
(unitary.py 77-86). -/
def factorFor (op : UOp) (qb : Nat) : Except Err NMat :=
  if op.qubits.head? = some qb then factor op else .ok (eye (2 ^ numQubitsOf op.toSOp))

/-- `_apply_single_qubit_gate` (unitary.py 66-88). -/
def applySingle (op : UOp) (qubits : List Nat) (state : NMat) : Except Err NMat :=
  match qubits with
  | [] => if op.qubits = [] then matmul (eye (2 ^ numQubitsOf op.toSOp)) state else .error .indexError
  | q0 :: rest => do
    let mat0 ← factorFor op q0
    let mat ← rest.foldlM (fun mat qb => do
      let m ← factorFor op qb
      pure (kron mat m)) mat0
    matmul mat state

/-- `target_operation.matrix` on the *class*: a parametric operation requires an instance, so the mixed property returns
`None` (mixedproperty.py 117-119). -/
def classMatrix : Base → Except Err (Option Arr2)
  | .rx _ => .ok none
  | .ry _ => .ok none
  | .rz _ => .ok none
  | .rotation _ _ _ => .ok none
  | b => do
    let a ← b.matrix
    pure (some a)

/-- `qubits.index(q)`. -/
def position (qubits : List Nat) (q : Nat) : Except Err Int :=
  if q ∈ qubits then .ok (qubits.idxOf q : Int) else .error .valueError

/-- `_apply_controlled_gate` (unitary.py 91-108). -/
def applyControlledGate (op : UOp) (b : Base) (qubits : List Nat) (state : NMat) : Except Err NMat := do
  let controlIdx ← op.control.mapM (position qubits)
  let targetIdx ← op.target.mapM (position qubits)
  let m ← classMatrix b
  let u ← buildControlled controlIdx targetIdx (m.map ofArr) (some (qubits.length : Int))
  matmul u state

/-- The body of the loop of `build_unitary` (unitary.py 56-62). -/
def applyOp (qubits : List Nat) (state : NMat) (op : UOp) : Except Err NMat :=
  match op.kind with
  | .controlled _ b => applyControlledGate op b qubits state
  | _ => applySingle op qubits state

/-- A circuit as seen by `build_unitary`. -/
structure UCircuit where
  qubits : List Nat
  ops : List UOp

/-- `build_unitary` without the cache (unitary.py 44-63). -/
def buildUnitary (c : UCircuit) : Except Err NMat :=
  c.ops.foldlM (applyOp c.qubits) (eye (2 ^ c.qubits.length))

/-- The circuit as seen by the simulator. -/
def UCircuit.sim (c : UCircuit) : SCircuit := ⟨c.qubits, c.ops.map (·.toSOp)⟩

/-! ## The cache -/

/-- State of a program that modifies circuits and builds unitaries: the circuit objects (by identity) and the entries of the
`lru_cache` (most recently used first). Circuits have neither `__eq__` nor `__hash__`, so the key is the object identity. -/
structure CacheState where
  circuits : Nat → UCircuit
  cache : List (Nat × NMat)

/-- `build_unitary(circuit)` with `@lru_cache(maxsize=128)` (unitary.py 43): a hit moves the entry to the front, a miss
computes (an exception is not stored) and drops the least recently used entry if there are more than 128. -/
def cachedBuild (s : CacheState) (id : Nat) : Except Err NMat × CacheState :=
  match s.cache.find? (·.1 = id) with
  | some (_, m) => (.ok m, { s with cache := (id, m) :: s.cache.filter (·.1 ≠ id) })
  | none => match buildUnitary (s.circuits id) with
    | .error e => (.error e, s)
    | .ok m => (.ok m, { s with cache := ((id, m) :: s.cache).take 128 })

/-- Any modification of circuit `id` (append, remove, add_qubit, ...). -/
def modify (s : CacheState) (id : Nat) (c : UCircuit) : CacheState :=
  { s with circuits := Function.update s.circuits id c }

/-! ## The matrix property of controlled operations -/

/-- `ControlledOperation.matrix` / `ParametricControlledOperation.matrix` of an instance (base.py 543-568, 640-650). `nc`, `nt`
are the class attributes `_num_control`, `_num_target` (both nonzero: `num_qubits` is their sum, base.py 526-541);
`active` are the qubits of the circuit of the active context, if there is one. In an active context a parametric target
operation cannot be instantiated without qubits (`TypeError`, base.py 193-194). -/
def controlledMatrix (nc nt : Nat) (b : Base) (active : Option (List Nat)) (control target : List Nat) : Except Err NMat := do
  let targetUnitary ← match b, active with
    | .rx _, some _ => .error .typeError
    | .ry _, some _ => .error .typeError
    | .rz _, some _ => .error .typeError
    | .rotation _ _ _, some _ => .error .typeError
    | b, _ => b.matrix
  let (controlIdx, targetIdx) ← match active with
    | some qubits =>
      if control ≠ [] ∧ target ≠ [] then do
        let ci ← control.mapM (position qubits)
        let ti ← target.mapM (position qubits)
        pure (ci, ti)
      else pure ((List.range nc).map Int.ofNat, (List.range' nc nt).map Int.ofNat)
    | none => pure ((List.range nc).map Int.ofNat, (List.range' nc nt).map Int.ofNat)
  buildControlled controlIdx targetIdx (some (ofArr targetUnitary)) (some ((nc + nt : Nat) : Int))

/-- `op.matrix` outside of a context, for every kind of operation with a matrix. -/
def opMatrix : Kind → Except Err (Option NMat)
  | .controlled nc b => do
    let m ← controlledMatrix nc 1 b none [] []
    pure (some m)
  | k => plainMatrix k

/-! ## create_operation -/

/-- The parameters of an operation. -/
def params : Base → List Param
  | .rx p => [p]
  | .ry p => [p]
  | .rz p => [p]
  | .rotation b g d => [b, g, d]
  | _ => []

/-- `parameters[j] = value` for all j, as in the inner loop of `CustomOperation.matrix` (base.py 134-139): every parameter that
is a `Variable` is replaced by `parameters.pop(0)` (`IndexError` when the list is empty). -/
def popParams : List Param → List ℝ → Except Err (List Param × List ℝ)
  | [], vals => .ok ([], vals)
  | .num x :: ps, vals => do
    let (ps', vals') ← popParams ps vals
    pure (.num x :: ps', vals')
  | .var _ :: _, [] => .error .indexError
  | .var _ :: ps, v :: vals => do
    let (ps', vals') ← popParams ps vals
    pure (.num v :: ps', vals')

/-- The operation with new parameters. -/
def setParams : Base → List Param → Base
  | .rx _, [p] => .rx p
  | .ry _, [p] => .ry p
  | .rz _, [p] => .rz p
  | .rotation _ _ _, [b, g, d] => .rotation b g d
  | b, _ => b

/-- The outer loop (base.py 134-140) on a copy of the circuit. -/
def popOps : List UOp → List ℝ → Except Err (List UOp × List ℝ)
  | [], vals => .ok ([], vals)
  | op :: ops, vals => do
    let (op', vals') ← match op.kind with
      | .single b => do
        let (ps, vals') ← popParams (params b) vals
        pure ({ op with kind := .single (setParams b ps) }, vals')
      | .controlled nc b => do
        let (ps, vals') ← popParams (params b) vals
        pure ({ op with kind := .controlled nc (setParams b ps) }, vals')
      | _ => pure (op, vals)
    let (ops', vals'') ← popOps ops vals'
    pure (op' :: ops', vals'')

/-- `matrix` of an instance of the class created by `create_operation(circuit)` (base.py 120-142). The copy of the circuit is a
new object, so the cache never applies. `parametric`: whether the circuit is a `ParametricCircuit`. -/
def customMatrix (c : UCircuit) (parametric : Bool) (parameters : List ℝ) : Except Err NMat := do
  if parametric then
    let (ops, _) ← popOps c.ops parameters
    buildUnitary { c with ops := ops }
  else buildUnitary c

end DG.Unitary
