import Verif.Model.World

/-!
# `ParametricCircuit.eval`: `dwave/gate/circuit.py` 726-750

`eval` works on a deep copy of the circuit, or on the circuit itself (`inplace=True`). Unless it works in place, every operation with parameters is copied
once more by its own `eval` (base.py 398).

Simplifications:
* `copy.deepcopy` copies what can be reached from the circuit; here all bits, variables and operations are copied, nothing refers to the superfluous ones;
* qubits are equal if their ids are, and a copy has the same id (primitives.py 57-61): a copy of a qubit is the qubit. Labels that are changed later are the
  same for both;
* a bit and its copy have the same id but their own values; here they are different objects, which are not equal;
* the attributes `_state` and `_density_matrix` are not in `World`;
* the copies of the variables of an operation that `op.eval` makes are dropped: they are replaced by numbers, or the copy is lost by an exception.
-/

namespace DG

/-- The copy of an item of a register: integers are themselves, object `k` becomes object `k + n`. -/
def Lbl.shift (n : Nat) : Lbl → Lbl
  | .int i => .int i
  | .obj k => .obj (k + n)

/-- Deep copy of a register (cyregister.pxd 23-25), where object `k` is copied to object `k + n`. -/
def CyReg.shift (n : Nat) (r : CyReg) : CyReg where
  i2l := r.i2l.map fun p => (p.1.shift n, p.2.shift n)
  l2i := r.l2i.map fun p => (p.1.shift n, p.2.shift n)
  stop := r.stop

/-- Deep copy of a register (registers.py 48-50). -/
def Reg.shift (n : Nat) (r : Reg) : Reg := { cy := r.cy.shift n, frozen := r.frozen }

/-- Deep copy of the registers of a circuit (circuit.py 80-81) and of the cached property (circuit.py 225-241). -/
def Bank.shift (n : Nat) (b : Bank) : Bank where
  regs := b.regs.map fun p => (p.1, p.2.shift n)
  cache := b.cache.map (Reg.shift n)

/-- Deep copy of a parameter. -/
def OpParam.shift {K : Type} (n : Nat) : OpParam K → OpParam K
  | .num x => .num x
  | .var v => .var (v + n)

/-- Deep copy of an operation (base.py 183-200, 363-365, 473-503, 665-673), where bit `b` is copied to bit `b + nb` and variable `v` to `v + nv`. -/
def OpObj.shift {K : Type} (nb nv : Nat) (op : OpObj K) : OpObj K :=
  { op with
    params := op.params.map (OpParam.shift nv)
    cond := op.cond.map fun l => l.map (· + nb)
    bits := op.bits.map fun l => l.map (· + nb) }

section
variable {K : Type}

/-- `copy.deepcopy(circuit)` (circuit.py 743). The context of the circuit refers to the circuit, and its copy to the copy (circuit.py 800-802). -/
def deepCopy (c : Nat) : M K Nat := fun w =>
  match w.circs[c]? with
  | none => (.error .typeError, w)
  | some C =>
    let X := C.ctx.bind fun x => w.ctxs[x]?
    let C' : Circ :=
      { C with
        ops := C.ops.map (· + w.ops.length)
        ctx := X.map fun _ => w.ctxs.length
        c := C.c.shift w.bits.length
        vars := C.vars.map (· + w.vars.length) }
    (.ok w.circs.length,
      { w with
        bits := w.bits ++ w.bits
        vars := w.vars ++ w.vars
        ops := w.ops ++ w.ops.map (OpObj.shift w.bits.length w.vars.length)
        circs := w.circs ++ [C']
        ctxs := w.ctxs ++ (X.map fun X => { X with circuit := w.circs.length }).toList })

/-- `self if inplace else copy.deepcopy(self)` (circuit.py 743). -/
def evalTarget (c : Nat) (inplace : Bool) : M K Nat :=
  match inplace with
  | true => pure c
  | false => deepCopy c

variable [DecidableEq K] [Zero K]

/-- `op.eval(given)` (base.py 382-407) with `inplace=False`, for an operation with parameters: the copy of the operation (base.py 398) refers to copies of
the bits of its condition. -/
def evalOpCopy (o : Nat) (given : Option (List K)) : M K Nat := fun w =>
  match w.ops[o]? with
  | none => (.error .typeError, w)
  | some op =>
    match evalLoop w.varVal given 0 op.params with
    | (.error e, _) => (.error e, w)
    | (.ok _, ps) =>
      (.ok w.ops.length, { w with bits := w.bits ++ w.bits, ops := w.ops ++ [{ op.shift w.bits.length 0 with params := ps }] })

/-- `params = parameters[i] if parameters else None` (circuit.py 747). -/
def nthParams (given : Option (List (List K))) (i : Nat) : Except Err (Option (List K)) :=
  match given with
  | some (y :: ys) => match (y :: ys)[i]? with
    | some l => .ok (some l)
    | none => .error .indexError
  | _ => .ok none

/-- The body of the loop of `ParametricCircuit.eval` (circuit.py 746-748) for operation `o` at position `i` of circuit `d`. -/
def evalAt (d : Nat) (given : Option (List (List K))) (inplace : Bool) (i o : Nat) : M K Unit := do
  let op ← opObj o
  let k ← clsObj op.cls
  match nthParams given i with
  | .error e => M.raise e
  | .ok ps =>
    if k.kind.isParametric then
      if inplace then evalInPlace o ps
      else do
        let o' ← evalOpCopy o ps
        modCirc d fun D => { D with ops := D.ops.set i o' }
    else pure ()

/-- The loop of `ParametricCircuit.eval` (circuit.py 745-748) from position `i` on. -/
def evalOps (d : Nat) (given : Option (List (List K))) (inplace : Bool) : Nat → List Nat → M K Unit
  | _, [] => pure ()
  | i, o :: rest => do
    evalAt d given inplace i o
    evalOps d given inplace (i + 1) rest

/-- `circuit.eval(given, inplace)` (circuit.py 726-750); circuits that are not parametric have no such method. The result is the returned circuit. -/
def evalCirc (c : Nat) (given : Option (List (List K))) (inplace : Bool) : M K Nat := do
  let C ← circ c
  M.raiseIf (!C.param) .attributeError
  let d ← evalTarget c inplace
  let D ← circ d
  evalOps d given inplace 0 D.ops
  pure d

end
end DG
