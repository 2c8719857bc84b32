import Verif.Model.Eval

/-!
# Programs that use the library

A program is built from calls of the API, sequencing, `with circuit.context`, `with context.freeze` and `try ... except: pass`.
References are explicit; loops and branches of a Python program disappear because a program describes one execution.
-/

namespace DG

/-- Calls of the API. -/
inductive Call (K : Type)
  | newQubit (label : RLabel)
  | newBit (label : RLabel)
  | newVar (name : String)
  | newClass (k : OpCls)
  | newCirc (param : Bool) (numQubits numBits : Option Int)
  | setQubitLabel (q : Nat) (label : RLabel)
  | setBit (b : Nat) (v : Bool) (force : Bool)
  | resetBit (b : Nat)
  | setVar (v : Nat) (x : K)
  | resetVar (v : Nat)
  | addQubit (c : Nat) (q : Given) (label : Option RLabel)
  | addBit (c : Nat) (b : Given) (label : Option RLabel)
  | addQReg (c : Nat) (n : Int) (label : Option RLabel)
  | addCReg (c : Nat) (n : Int) (label : Option RLabel)
  | readQubits (c : Nat)
  | readBits (c : Nat)
  | getParam (c : Nat) (i : Int)
  | construct (k : Nat) (params : Option (List (OpParam K))) (args : QArgs)
  | reapply (o : Nat) (args : QArgs)
  | setQubits (o : Nat) (qs : List Nat)
  | conditional (o : Nat) (bits : List Nat)
  | measureInto (o : Nat) (bits : List Nat)
  | evalInPlace (o : Nat) (given : Option (List K))
  | append (c o : Nat)
  | extend (c : Nat) (os : List Nat)
  | remove (c o : Nat)
  | lock (c : Nat)
  | unlock (c : Nat)
  | reset (c : Nat) (keep : Bool)
  | call (a : Nat) (qubits : List Nat) (bits : Option (List Nat))
  | callParam (a : Nat) (params : List K) (qubits : List Nat) (bits : Option (List Nat))
  | resetVariables (a : Nat)
  | evalCirc (c : Nat) (given : Option (List (List K))) (inplace : Bool)

/-- Forget the result of a call. -/
def M.void {K α : Type} (m : M K α) : M K Unit := fun w =>
  match m w with
  | (.ok _, w') => (.ok (), w')
  | (.error e, w') => (.error e, w')

/-- The effect of a call. Constructors of `Qubit`, `Bit`, `Variable` (primitives.py 38-40, 79-82, 159-162) and `class` statements add an object;
labels are plain attributes (primitives.py 47-50). -/
def execCall {K : Type} [DecidableEq K] [Zero K] : Call K → M K Unit
  | .newQubit l => M.write fun w => { w with qubits := w.qubits ++ [l] }
  | .newBit l => M.write fun w => { w with bits := w.bits ++ [⟨l, none⟩] }
  | .newVar n => M.write fun w => { w with vars := w.vars ++ [⟨n, none⟩] }
  | .newClass k => M.write fun w => { w with classes := w.classes ++ [k] }
  | .newCirc p n m => (newCirc p n m).void
  | .setQubitLabel q l => M.write fun w => { w with qubits := w.qubits.set q l }
  | .setBit b v f => setBit b v f
  | .resetBit b => resetItem (.obj b)
  | .setVar v x => setVar v x
  | .resetVar v => resetVar v
  | .addQubit c q l => addQubit c q l
  | .addBit c b l => addBit c b l
  | .addQReg c n l => addQReg c n l
  | .addCReg c n l => addCReg c n l
  | .readQubits c => (qubitsOf c).void
  | .readBits c => (bitsOf c).void
  | .getParam c i => (getParam c i).void
  | .construct k p a => (construct k p a).void
  | .reapply o a => (reapply o a).void
  | .setQubits o qs => setQubits o qs
  | .conditional o bs => conditional o bs
  | .measureInto o bs => measureInto o bs
  | .evalInPlace o g => evalInPlace o g
  | .append c o => appendOp c o
  | .extend c os => extendOps c os
  | .remove c o => removeOp c o
  | .lock c => lockCirc c
  | .unlock c => unlockCirc c
  | .reset c k => resetCirc c k
  | .call a q b => callCirc a q b
  | .callParam a p q b => callParam a p q b
  | .resetVariables a => resetVariables a
  | .evalCirc c g i => (evalCirc c g i).void

/-- Programs. -/
inductive Prog (K : Type)
  | skip
  | call (e : Call K)
  | seq (p q : Prog K)
  /-- `with circuit.context: p` -/
  | withCtx (c : Nat) (p : Prog K)
  /-- `with CircuitContext.freeze: p` -/
  | withFreeze (p : Prog K)
  /-- `try: p` `except Exception: pass` -/
  | attempt (p : Prog K)

/-- Set `_frozen` of context `x`. -/
def setFrozen {K : Type} (x : Nat) (b : Bool) : M K Unit := M.write fun w =>
  match w.ctxs[x]? with
  | some X => { w with ctxs := w.ctxs.set x { X with frozen := b } }
  | none => w

/-- `FrozenContext.__enter__` (circuit.py 848-851). -/
def freezeEnter {K : Type} : M K Unit := fun w =>
  match w.active with
  | none => (.error .circuitError, w)
  | some x => setFrozen x true w

/-- `FrozenContext.__exit__` (circuit.py 853-854). -/
def freezeExit {K : Type} : M K Unit := fun w =>
  match w.active with
  | none => (.error .attributeError, w)
  | some x => setFrozen x false w

/-- A `with` statement whose manager's `__exit__` does not suppress exceptions: an exception of `__enter__` propagates at once, an exception
of `__exit__` replaces one of the body. -/
def withStmt {K α : Type} (enter : M K α) (body : M K Unit) (exit : α → M K Unit) : M K Unit := fun w =>
  match enter w with
  | (.error e, w1) => (.error e, w1)
  | (.ok a, w1) =>
    let r := body w1
    match exit a r.2 with
    | (.error e, w3) => (.error e, w3)
    | (.ok _, w3) => (r.1, w3)

/-- `try: m except Exception: pass`. -/
def tryPass {K : Type} (m : M K Unit) : M K Unit := fun w => (.ok (), (m w).2)

/-- `c.context` and its `__enter__`. -/
def openCtx {K : Type} (c : Nat) : M K Nat := do
  let x ← contextOf c
  enterCtx x
  pure x

/-- Execution of a program. -/
def Prog.run {K : Type} [DecidableEq K] [Zero K] : Prog K → M K Unit
  | .skip => pure ()
  | .call e => execCall e
  | .seq p q => do p.run; q.run
  | .withCtx c p => withStmt (openCtx c) p.run exitCtx
  | .withFreeze p => withStmt freezeEnter p.run fun _ => freezeExit
  | .attempt p => tryPass p.run

/-- The state after executing the program from a state without objects. -/
def Prog.final {K : Type} [DecidableEq K] [Zero K] (p : Prog K) : World K := (p.run {}).2

end DG
