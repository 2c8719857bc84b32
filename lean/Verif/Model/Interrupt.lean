import Verif.Model.Program

/-!
# Interrupts

Python raises `KeyboardInterrupt` (Ctrl-C, or an exception of a signal handler) between two instructions, wherever the program is at that moment. Here
the methods of circuits are split into the steps between which that can happen; a method is a function of the state as in `Model/World.lean`,
together with the states in which it can be interrupted. That the split methods do the same as those of `Model/World.lean` is proved
(`execSteps_run`).

Simplifications:
* a step is one assignment to, or one change of, an object that the user can see; the creation of an object is one step; methods of Cython classes and of
  builtin types are not interrupted;
* `Circuit(...)` is one step: if it is interrupted, nobody has a reference to the new circuit;
* a cached property (`circuit.qubits`, `circuit.bits`) is one step: the new register is local until it is stored;
* between the end of `__enter__` and the block of a `with` statement, and between the block and `__exit__`, there is no interrupt.
-/

namespace DG

/-- A computation with state `σ` that can be interrupted: its result and final state, and the states that it can be interrupted in. -/
structure Steps (σ α : Type) where
  run : σ → Except Err α × σ
  cut : σ → List σ

namespace Steps
variable {σ α β : Type}

/-- A single step: it can be interrupted before. -/
def atom (m : σ → Except Err α × σ) : Steps σ α := ⟨m, fun s => [s]⟩

/-- Return a value. -/
protected def pure (a : α) : Steps σ α := ⟨fun s => (.ok a, s), fun _ => []⟩

/-- One computation after the other. -/
protected def bind (m : Steps σ α) (f : α → Steps σ β) : Steps σ β where
  run s := match m.run s with
    | (.ok a, s') => (f a).run s'
    | (.error e, s') => (.error e, s')
  cut s := m.cut s ++ match m.run s with
    | (.ok a, s') => (f a).cut s'
    | (.error _, _) => []

instance : Monad (Steps σ) where
  pure := Steps.pure
  bind := Steps.bind

/-- `for a in l: body(a)`. -/
def each (l : List α) (body : α → Steps σ Unit) : Steps σ Unit :=
  match l with
  | [] => pure ()
  | a :: l => do body a; each l body

/-- `if c: body`. -/
def whenever (c : Bool) (body : Steps σ Unit) : Steps σ Unit := if c then body else pure ()

/-- Forget the result. -/
def void (m : Steps σ α) : Steps σ Unit where
  run s := match m.run s with
    | (.ok _, s') => (.ok (), s')
    | (.error e, s') => (.error e, s')
  cut := m.cut

end Steps

/-! ## Registers -/

/-- The registers of one kind of a circuit, and the labels of the objects created by the call so far. -/
abbrev Adding := Bank × List RLabel

/-- A step that changes the registers only. -/
def onBank {α : Type} (f : Bank → Except Err α × Bank) : Steps Adding α := .atom fun s => ((f s.1).1, (f s.1).2, s.2)

/-- `add_qregister(n, label)` (circuit.py 424-444) / `add_cregister` (circuit.py 446-466) in steps: read the number of items, store the new register, delete
the cached property. -/
def addRegisterSteps (ev : EqEnv) (pre : String) (n : Int) (label : Option RLabel) (fresh : Nat) : Steps Adding Unit := do
  let label ← onBank fun b => (.ok (match label with
    | none => RLabel.str (pre ++ toString b.regs.length)
    | some l => l), b)
  onBank fun b => if b.regs.contains label then (.error .valueError, b) else (.ok (), b)
  let k ← onBank (Bank.size ev)
  Steps.atom fun s => (.ok (), { s.1 with regs := s.1.regs.set label (Reg.new ev ((List.range n.toNat).map fun (i : Nat) => Lbl.obj (fresh + i))) },
    s.2 ++ (List.range n.toNat).map fun (i : Nat) => RLabel.str (toString (k + i)))
  onBank fun b => (.ok (), { b with cache := none })

/-- The first part of `add_qubit` (circuit.py 375-381) / `add_bit` (circuit.py 406-412) in steps. -/
def chooseRegisterSteps (ev : EqEnv) (pre : String) (label : Option RLabel) (fresh : Nat) : Steps Adding RLabel :=
  match label with
  | some l => do
    let present ← onBank fun b => (.ok (b.regs.contains l), b)
    Steps.whenever (!present) (addRegisterSteps ev pre 0 (some l) fresh)
    pure l
  | none => do
    let keys ← onBank fun b => (.ok b.regs.keys, b)
    Steps.whenever keys.isEmpty (addRegisterSteps ev pre 0 none fresh)
    onBank fun b => match b.regs.keys with
      | l :: _ => (.ok l, b)
      | [] => (.error .indexError, b)

/-- `self.qregisters[label].add(item)` (circuit.py 387, 418): the register is changed, the cached property not yet. -/
def addTo (ev : EqEnv) (label : RLabel) (item : Nat) (b : Bank) : Except Err Unit × Bank :=
  match b.regs.get? label with
  | none => (.error .keyError, b)
  | some r => ((r.add ev [.obj item]).1, { b with regs := b.regs.set label (r.add ev [.obj item]).2 })

/-- `add_qubit(item, label)` (circuit.py 362-392) / `add_bit(item, label)` (circuit.py 394-422) in steps: find or create the register, check the item, add it,
delete the cached property. -/
def addItemSteps (ev : EqEnv) (pre : String) (given : Option (Nat × Bool)) (label : Option RLabel) (fresh : Nat) : Steps Adding Unit := do
  let l ← chooseRegisterSteps ev pre label fresh
  let all ← onBank (Bank.flat ev)
  onBank fun b => if Bank.holds all (given.map Prod.fst) then (.error .valueError, b) else (.ok (), b)
  match given with
  | some (k, true) => onBank (addTo ev l k)
  | _ => Steps.atom fun s =>
    match addTo ev l fresh s.1 with
    | (.ok _, b) => (.ok (), b, s.2 ++ [.str (toString all.cy.stop)])
    | (.error e, b) => (.error e, b, s.2)
  onBank fun b => (.ok (), { b with cache := none })

section methods
variable {K : Type}

/-- A method of circuit `c` that changes its quantum registers. -/
def onQ (c : Nat) (f : World K → Steps Adding Unit) : Steps (World K) Unit where
  run w := match w.circs[c]? with
    | none => (.error .typeError, w)
    | some C =>
      let r := (f w).run (C.q, [])
      (r.1, { w.setCirc c { C with q := r.2.1 } with qubits := w.qubits ++ r.2.2 })
  cut w := w :: match w.circs[c]? with
    | none => []
    | some C => ((f w).cut (C.q, [])).map fun r => { w.setCirc c { C with q := r.1 } with qubits := w.qubits ++ r.2 }

/-- A method of circuit `c` that changes its classical registers. -/
def onC (c : Nat) (f : World K → Steps Adding Unit) : Steps (World K) Unit where
  run w := match w.circs[c]? with
    | none => (.error .typeError, w)
    | some C =>
      let r := (f w).run (C.c, [])
      (r.1, { w.setCirc c { C with c := r.2.1 } with bits := w.bits ++ r.2.2.map fun l => ⟨l, none⟩ })
  cut w := w :: match w.circs[c]? with
    | none => []
    | some C => ((f w).cut (C.c, [])).map fun r => { w.setCirc c { C with c := r.1 } with bits := w.bits ++ r.2.map fun l => ⟨l, none⟩ }

/-- `c.add_qregister(n, label)` (circuit.py 424-444). -/
def addQRegSteps (c : Nat) (n : Int) (label : Option RLabel) : Steps (World K) Unit :=
  onQ c fun w => addRegisterSteps qubitEnv "qreg" n label w.qubits.length

/-- `c.add_cregister(n, label)` (circuit.py 446-466). -/
def addCRegSteps (c : Nat) (n : Int) (label : Option RLabel) : Steps (World K) Unit :=
  onC c fun w => addRegisterSteps w.bitEnv "creg" n label w.bits.length

/-- `c.add_qubit(qubit, qreg_label)` (circuit.py 362-392). -/
def addQubitSteps (c : Nat) (qubit : Given) (label : Option RLabel) : Steps (World K) Unit :=
  onQ c fun w => match qubit with
    | .other => .atom fun s => (.error .typeError, s)
    | .none => addItemSteps qubitEnv "qreg" none label w.qubits.length
    | .item k => match w.qubits[k]? with
      | none => .atom fun s => (.error .typeError, s)
      | some _ => addItemSteps qubitEnv "qreg" (some (k, true)) label w.qubits.length

/-- `c.add_bit(bit, creg_label)` (circuit.py 394-422). -/
def addBitSteps (c : Nat) (bit : Given) (label : Option RLabel) : Steps (World K) Unit :=
  onC c fun w => match bit with
    | .other => .atom fun s => (.error .typeError, s)
    | .none => addItemSteps w.bitEnv "creg" none label w.bits.length
    | .item k => match w.bits[k]? with
      | none => .atom fun s => (.error .typeError, s)
      | some b => addItemSteps w.bitEnv "creg" (some (k, BitState.bool ⟨b.value⟩)) label w.bits.length

/-! ## Operations -/

variable [DecidableEq K] [Zero K]

/-- `op.eval(given, inplace=True)` (base.py 382-407): the parameters are replaced one by one. -/
def evalSteps (o : Nat) (given : Option (List K)) : Steps (World K) Unit where
  run := evalInPlace o given
  cut w := w :: match w.ops[o]? with
    | none => []
    | some op => match w.classes[op.cls]? with
      | none => []
      | some k =>
        if k.kind.isParametric then
          let ps := (evalLoop w.varVal given 0 op.params).2
          (List.range op.params.length).map fun (i : Nat) => w.setOp o { op with params := ps.take i ++ op.params.drop i }
        else []

/-- The body of the loop of `ParametricCircuit.eval` (circuit.py 746-748) with `inplace=True`. -/
def evalAtSteps (given : Option (List (List K))) (i o : Nat) : Steps (World K) Unit := do
  let op ← Steps.atom (opObj o)
  let k ← Steps.atom (clsObj op.cls)
  match nthParams given i with
  | .error e => Steps.atom (M.raise e)
  | .ok ps => Steps.whenever k.kind.isParametric (evalSteps o ps)

/-- The loop of `ParametricCircuit.eval` (circuit.py 745-748) with `inplace=True`, from position `i` on. -/
def evalOpsSteps (given : Option (List (List K))) : Nat → List Nat → Steps (World K) Unit
  | _, [] => pure ()
  | i, o :: rest => do
    evalAtSteps given i o
    evalOpsSteps given (i + 1) rest

/-- `circuit.eval(given, inplace)` (circuit.py 726-750). On a copy it is one step: if it is interrupted, nobody has a reference to the copy. -/
def evalCircSteps (c : Nat) (given : Option (List (List K))) (inplace : Bool) : Steps (World K) Nat :=
  match inplace with
  | false => Steps.atom (evalCirc c given false)
  | true => do
    let C ← Steps.atom (circ c)
    Steps.atom (M.raiseIf (!C.param) .attributeError)
    let D ← Steps.atom (circ c)
    evalOpsSteps given 0 D.ops
    pure c

omit [DecidableEq K] [Zero K] in
/-- The test of the qubits in `append` (circuit.py 196-198). -/
def checkMemberSteps (c : Nat) (qs : List Nat) : Steps (World K) Unit :=
  Steps.each qs fun q => do
    let r ← Steps.atom (qubitsOf c)
    Steps.atom (M.raiseIf (!r.cy.count (.obj q)) .valueError)

/-- `circuit.append(operation)` (circuit.py 180-201). -/
def appendSteps (c o : Nat) : Steps (World K) Unit := do
  let C ← Steps.atom (circ c)
  Steps.atom (M.raiseIf C.locked .circuitError)
  Steps.whenever (!C.parametric) (evalSteps o none)
  let op ← Steps.atom (opObj o)
  checkMemberSteps c (op.qubits.getD [])
  Steps.atom (modCirc c fun C => { C with ops := C.ops ++ [o] })

/-- The end of `Operation.__init__` (base.py 198-200). -/
def registerSteps (active : Option Nat) (o : Nat) : Steps (World K) Unit :=
  match active with
  | none => pure ()
  | some x => do
    let C ← Steps.atom (ctxObj x)
    Steps.whenever (!C.frozen) (appendSteps C.circuit o)

/-- `Operation.__init__` (base.py 183-200). -/
def initSteps (op : OpObj K) (qubits : Option (List Nat)) : Steps (World K) Nat := do
  let active ← Steps.atom (M.read (·.active))
  Steps.atom (checkArg op.cls active qubits)
  let o ← Steps.atom (newOp { op with qubits := qubits, numQubits := qubits.map List.length, cond := none })
  registerSteps active o
  pure o

/-- The constructor of class `k` (base.py 183-200, 363-372, 473-503, 616-626, 665-673). -/
def constructSteps (k : Nat) (params : Option (List (OpParam K))) (args : QArgs) : Steps (World K) Nat := do
  let C ← Steps.atom (clsObj k)
  match C.kind, params, args with
  | .plain, none, .qubits l => initSteps { cls := k } l
  | .measurement, none, .qubits l => initSteps { cls := k } l
  | .parametric, some ps, .qubits l => do
    Steps.atom (checkParams C ps)
    initSteps { cls := k, params := ps } l
  | .controlled, none, args =>
    let s := splitQubits C.ar.numControl args
    initSteps { cls := k, control := s.1, target := s.2.1 } s.2.2
  | .pcontrolled, some ps, args => do
    let s := splitQubits C.ar.numControl args
    Steps.atom (checkParams C ps)
    let o ← initSteps { cls := k, control := s.1, target := s.2.1, params := ps } s.2.2
    Steps.atom (checkParams C ps)
    Steps.atom (modOp o fun op => { op with params := ps })
    pure o
  | _, _, _ => Steps.atom (M.raise .typeError)

/-- `op(qubits)` (base.py 240-251, 442-453) and `op(control, target)` (base.py 505-523, 628-645). -/
def reapplySteps (o : Nat) (args : QArgs) : Steps (World K) Nat := do
  let op ← Steps.atom (opObj o)
  let C ← Steps.atom (clsObj op.cls)
  match C.kind, args with
  | .plain, .qubits l => constructSteps op.cls none (.qubits (match nonempty l with | some l => some l | none => op.qubits))
  | .measurement, .qubits l => constructSteps op.cls none (.qubits (match nonempty l with | some l => some l | none => op.qubits))
  | .parametric, .qubits l =>
    constructSteps op.cls (some op.params) (.qubits (match nonempty l with | some l => some l | none => op.qubits))
  | .controlled, .split a b =>
    constructSteps op.cls none (.split (match nonempty a with | some l => some l | none => op.control)
      (match nonempty b with | some l => some l | none => op.target))
  | .pcontrolled, .split a b =>
    constructSteps op.cls (some op.params) (.split (match nonempty a with | some l => some l | none => op.control)
      (match nonempty b with | some l => some l | none => op.target))
  | _, _ => Steps.atom (M.raise .typeError)

/-- The body of the loop of `Circuit.__call__` (circuit.py 127-155). -/
def callOneSteps (qm : PyDict Lbl Nat) (bm : Option (PyDict Lbl Nat)) (o : Nat) : Steps (World K) Unit := do
  let op ← Steps.atom (opObj o)
  let C ← Steps.atom (clsObj op.cls)
  let mapped ← Steps.atom (lookupAll qm (op.qubits.getD []))
  match C.kind, bm with
  | .measurement, some bm => do
    let mb ← Steps.atom (lookupAll bm (op.bits.getD []))
    let o' ← constructSteps op.cls none (.qubits (some mapped))
    Steps.atom (measureInto o' mb)
  | .measurement, none => do
    let _ ← constructSteps op.cls none (.qubits (some mapped))
    pure ()
  | .parametric, _ => do
    let _ ← constructSteps op.cls (some op.params) (.qubits (some mapped))
    pure ()
  | .pcontrolled, _ => do
    let _ ← constructSteps op.cls (some op.params) (.qubits (some mapped))
    pure ()
  | .controlled, _ =>
    match starArgs mapped with
    | some a => do
      let _ ← constructSteps op.cls none a
      pure ()
    | none => Steps.atom (M.raise .typeError)
  | .plain, _ => do
    let _ ← constructSteps op.cls none (.qubits (some mapped))
    pure ()

omit [DecidableEq K] [Zero K] in
/-- The bit map of `Circuit.__call__` (circuit.py 115-122). -/
def bitMapSteps (a : Nat) (bits : Option (List Nat)) : Steps (World K) (Option (PyDict Lbl Nat)) :=
  match nonempty bits with
  | none => pure none
  | some bs => do
    let r ← Steps.atom (bitsOf a)
    Steps.atom (M.raiseIf (decide (bs.length ≠ r.cy.stop)) .valueError)
    let m ← Steps.atom (zipMap r bs)
    pure (some m)

/-- `Circuit.__call__(qubits, bits)` (circuit.py 94-155). -/
def callSteps (a : Nat) (qubits : List Nat) (bits : Option (List Nat)) : Steps (World K) Unit := do
  let active ← Steps.atom (M.read (·.active))
  match active with
  | none => Steps.atom (M.raise .circuitError)
  | some x => do
    let ctx ← Steps.atom (ctxObj x)
    Steps.atom (M.raiseIf (decide (ctx.circuit = a)) .typeError)
    let r ← Steps.atom (qubitsOf a)
    Steps.atom (M.raiseIf (decide (qubits.length ≠ r.cy.stop)) .valueError)
    let bm ← bitMapSteps a bits
    let r ← Steps.atom (qubitsOf a)
    let qm ← Steps.atom (zipMap r qubits)
    let A ← Steps.atom (circ a)
    Steps.each A.ops (callOneSteps qm bm)

omit [DecidableEq K] [Zero K] in
/-- The loop over the parameter register in `ParametricCircuit.__call__` (circuit.py 713-714). -/
def setVarsSteps : List Nat → List K → Steps (World K) Unit
  | [], _ => pure ()
  | _ :: _, [] => Steps.atom (M.raise .indexError)
  | v :: vs, x :: xs => do Steps.atom (setVar v x); setVarsSteps vs xs

/-- `ParametricCircuit.__call__(parameters, qubits, bits)` (circuit.py 696-719). -/
def callParamSteps (a : Nat) (params : List K) (qubits : List Nat) (bits : Option (List Nat)) : Steps (World K) Unit := do
  let A ← Steps.atom (circ a)
  Steps.atom (M.raiseIf (!A.param) .typeError)
  let active ← Steps.atom (M.read (·.active))
  Steps.whenever active.isSome (setVarsSteps A.vars params)
  Steps.atom (M.write fun w => { w with onExit := w.onExit ++ [a] })
  callSteps a qubits bits

section
omit [DecidableEq K] [Zero K]

/-- `reset_variables()` (circuit.py 752-755). -/
def resetVariablesSteps (c : Nat) : Steps (World K) Unit := do
  let C ← Steps.atom (circ c)
  Steps.each C.vars fun v => Steps.atom (resetVar v)

/-- `unlock()` (circuit.py 334-336, 721-724): a parametric circuit first makes its parameter register mutable. -/
def unlockSteps (c : Nat) : Steps (World K) Unit := do
  Steps.atom (modCirc c fun C => if C.param then { C with varsFrozen := false } else C)
  Steps.atom (modCirc c fun C => { C with locked := false })

/-- `for bit in self.bits: bit.reset()` (circuit.py 357-358). -/
def resetBitsSteps (c : Nat) : Steps (World K) Unit := do
  let r ← Steps.atom (bitsOf c)
  match r.cy.iter with
  | .error e => Steps.atom (M.raise e)
  | .ok items => Steps.each items fun x => Steps.atom (resetItem x)

/-- The register part of `reset` (circuit.py 353-358). -/
def resetRegistersSteps (c : Nat) (keep : Bool) : Steps (World K) Unit :=
  match keep with
  | false => do
    Steps.atom (modCirc c fun C => { C with q := C.q.clear })
    Steps.atom (modCirc c fun C => { C with c := C.c.clear })
  | true => resetBitsSteps c

/-- `reset(keep_registers)` (circuit.py 342-360). -/
def resetSteps (c : Nat) (keep : Bool) : Steps (World K) Unit := do
  let _ ← Steps.atom (circ c)
  Steps.atom (modCirc c fun C => { C with ops := [] })
  Steps.atom (modCirc c fun C => { C with ctx := none })
  resetRegistersSteps c keep
  unlockSteps c

/-- `op.qubits = qubits` (base.py 302-309). -/
def setQubitsSteps (o : Nat) (qs : List Nat) : Steps (World K) Unit := do
  let op ← Steps.atom (opObj o)
  Steps.atom (checkArity op.cls qs.length)
  Steps.atom (modOp o fun op => { op with qubits := some qs })

/-- `c.context` and its `__enter__` (circuit.py 314-328, 858-873). -/
def openSteps (c : Nat) : Steps (World K) Nat := do
  let x ← Steps.atom (contextOf c)
  let X ← Steps.atom (ctxObj x)
  let C ← Steps.atom (circ X.circuit)
  Steps.atom (M.raiseIf C.locked .circuitError)
  let active ← Steps.atom (M.read (·.active))
  Steps.atom (M.raiseIf active.isSome .runtimeError)
  Steps.atom (M.write fun w => { w with active := some x })
  let _ ← Steps.atom (qubitsOf X.circuit)
  let _ ← Steps.atom (bitsOf X.circuit)
  pure x

/-- `__exit__` of a context (circuit.py 875-890, 928-940). -/
def exitSteps (x : Nat) : Steps (World K) Unit := do
  let X ← Steps.atom (ctxObj x)
  Steps.atom (modCirc X.circuit fun C => if C.param then { C with varsFrozen := true } else C)
  Steps.atom (M.write fun w => { w with active := none })
  let fs ← Steps.atom (M.read (·.onExit))
  Steps.each fs resetVariablesSteps
  Steps.atom (M.write fun w => { w with onExit := [] })
  Steps.atom (modCirc X.circuit fun C => { C with locked := true })

end

/-- Every API call in steps. -/
def execSteps : Call K → Steps (World K) Unit
  | .addQubit c q l => addQubitSteps c q l
  | .addBit c b l => addBitSteps c b l
  | .addQReg c n l => addQRegSteps c n l
  | .addCReg c n l => addCRegSteps c n l
  | .construct k p a => (constructSteps k p a).void
  | .reapply o a => (reapplySteps o a).void
  | .setQubits o qs => setQubitsSteps o qs
  | .evalInPlace o g => evalSteps o g
  | .append c o => appendSteps c o
  | .extend c os => Steps.each os (appendSteps c)
  | .unlock c => unlockSteps c
  | .reset c k => resetSteps c k
  | .call a q b => callSteps a q b
  | .callParam a p q b => callParamSteps a p q b
  | .resetVariables a => resetVariablesSteps a
  | .evalCirc c g i => (evalCircSteps c g i).void
  -- one change of the state at most; `Circuit(...)` (circuit.py 70-92, 691-694) only changes the new object, which nobody has if it is interrupted
  | e => .atom (execCall e)

/-! ## Programs -/

/-- How the execution of a program ends. -/
inductive Outcome
  | done
  | raised (e : Err)
  | interrupted
  deriving DecidableEq

/-- The outcome of a computation. -/
def Outcome.of : Except Err Unit → Outcome
  | .ok _ => .done
  | .error e => .raised e

/-- `p.Exec I J w r w'`: executing `p` in state `w`, where any number of interrupts can happen, can end with `r` in state `w'`. Only calls in `I` are interrupted in the
middle (all others before or after); `J` says whether `__enter__` and `__exit__` of contexts and of `freeze` are. An interrupt is an exception: blocks are left as for
any other exception, and a `try` statement may catch it. -/
inductive Prog.Exec (I : Call K → Prop) (J : Bool) : Prog K → World K → Outcome → World K → Prop
  /-- An interrupt before the program starts. -/
  | now (p : Prog K) (w : World K) : Exec I J p w .interrupted w
  /-- An interrupt after the last step of the program. -/
  | late (p : Prog K) (w w' : World K) : Exec I J p w .done w' → Exec I J p w .interrupted w'
  | skip (w : World K) : Exec I J .skip w .done w
  | call (e : Call K) (w : World K) : Exec I J (.call e) w (.of (execCall e w).1) (execCall e w).2
  | callCut (e : Call K) (w w' : World K) : I e → w' ∈ (execSteps e).cut w → Exec I J (.call e) w .interrupted w'
  | seq (p q : Prog K) (w w1 w' : World K) (r : Outcome) : Exec I J p w .done w1 → Exec I J q w1 r w' → Exec I J (.seq p q) w r w'
  | seqStop (p q : Prog K) (w w' : World K) (r : Outcome) : r ≠ .done → Exec I J p w r w' → Exec I J (.seq p q) w r w'
  | enterFails (c : Nat) (p : Prog K) (w w' : World K) (e : Err) : openCtx c w = (.error e, w') → Exec I J (.withCtx c p) w (.raised e) w'
  | block (c x : Nat) (p : Prog K) (w w1 w2 w' : World K) (r : Outcome) : openCtx c w = (.ok x, w1) → Exec I J p w1 r w2 →
      exitCtx x w2 = (.ok (), w') → Exec I J (.withCtx c p) w r w'
  | exitFails (c x : Nat) (p : Prog K) (w w1 w2 w' : World K) (r : Outcome) (e : Err) : openCtx c w = (.ok x, w1) → Exec I J p w1 r w2 →
      exitCtx x w2 = (.error e, w') → Exec I J (.withCtx c p) w (.raised e) w'
  | enterCut (c : Nat) (p : Prog K) (w w' : World K) : J = true → w' ∈ (openSteps c).cut w → Exec I J (.withCtx c p) w .interrupted w'
  | exitCut (c x : Nat) (p : Prog K) (w w1 w2 w' : World K) (r : Outcome) : J = true → openCtx c w = (.ok x, w1) → Exec I J p w1 r w2 →
      w' ∈ (exitSteps x).cut w2 → Exec I J (.withCtx c p) w .interrupted w'
  | freezeFails (p : Prog K) (w w' : World K) (e : Err) : freezeEnter w = (.error e, w') → Exec I J (.withFreeze p) w (.raised e) w'
  | freeze (p : Prog K) (w w1 w2 w' : World K) (r : Outcome) : freezeEnter w = (.ok (), w1) → Exec I J p w1 r w2 →
      freezeExit w2 = (.ok (), w') → Exec I J (.withFreeze p) w r w'
  | unfreezeFails (p : Prog K) (w w1 w2 w' : World K) (r : Outcome) (e : Err) : freezeEnter w = (.ok (), w1) → Exec I J p w1 r w2 →
      freezeExit w2 = (.error e, w') → Exec I J (.withFreeze p) w (.raised e) w'
  | freezeCut (p : Prog K) (w w1 : World K) : J = true → freezeEnter w = (.ok (), w1) → Exec I J (.withFreeze p) w .interrupted w1
  | unfreezeCut (p : Prog K) (w w1 w2 : World K) (r : Outcome) : J = true → freezeEnter w = (.ok (), w1) → Exec I J p w1 r w2 →
      Exec I J (.withFreeze p) w .interrupted w2
  | attempt (p : Prog K) (w w' : World K) (r : Outcome) : Exec I J p w r w' → Exec I J (.attempt p) w .done w'
  /-- `except Exception` does not catch an interrupt. -/
  | attemptStop (p : Prog K) (w w' : World K) : Exec I J p w .interrupted w' → Exec I J (.attempt p) w .interrupted w'

end methods

end DG
