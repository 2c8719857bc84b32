import Verif.Spec.Program

/-! # Specification for C123: which circuits a call may change -/

namespace DG.Spec
variable {K : Type}

/-- What a user sees of a circuit (`parametric` class, operations, registers, lock, variables of the parameter register and whether it is frozen); everything but the caches. -/
def sees (C : Circ) : Bool × List Nat × PyDict RLabel Reg × PyDict RLabel Reg × Bool × List Nat × Bool :=
  (C.param, C.ops, C.q.regs, C.c.regs, C.locked, C.vars, C.varsFrozen)

/-- The circuits that a call may change: the one whose method is called; for operations that are created, by the user or by calling a template, the circuit of the active context, unless
it is frozen. -/
def mayChange (w : World K) : Call K → Option Nat
  | .addQubit c _ _ => some c
  | .addBit c _ _ => some c
  | .addQReg c _ _ => some c
  | .addCReg c _ _ => some c
  | .getParam c _ => some c
  | .append c _ => some c
  | .extend c _ => some c
  | .remove c _ => some c
  | .lock c => some c
  | .unlock c => some c
  | .reset c _ => some c
  | .construct .. => w.target
  | .reapply .. => w.target
  | .call .. => w.target
  | .callParam .. => w.target
  | _ => none

/-- `w'` is `w` except for the attributes of operation object `o`. -/
def OnlyOp (w w' : World K) (o : Nat) : Prop :=
  w'.qubits = w.qubits ∧ w'.bits = w.bits ∧ w'.vars = w.vars ∧ w'.circs = w.circs ∧ w'.ctxs = w.ctxs ∧ w'.active = w.active ∧ w'.onExit = w.onExit ∧
    w'.ops.length = w.ops.length ∧ ∀ i, i ≠ o → w'.ops[i]? = w.ops[i]?

/-- `w'` is `w` except for the attributes of circuit `c`. -/
def OnlyCirc (w w' : World K) (c : Nat) : Prop :=
  w'.qubits = w.qubits ∧ w'.bits = w.bits ∧ w'.vars = w.vars ∧ w'.classes = w.classes ∧ w'.ops = w.ops ∧ w'.ctxs = w.ctxs ∧ w'.active = w.active ∧
    w'.onExit = w.onExit ∧ w'.circs.length = w.circs.length ∧ ∀ i, i ≠ c → w'.circs[i]? = w.circs[i]?

/-- `w'` is `w` except for the value of variable `v`. -/
def OnlyVar (w w' : World K) (v : Nat) : Prop :=
  w'.qubits = w.qubits ∧ w'.bits = w.bits ∧ w'.classes = w.classes ∧ w'.ops = w.ops ∧ w'.circs = w.circs ∧ w'.ctxs = w.ctxs ∧ w'.active = w.active ∧
    w'.onExit = w.onExit ∧ w'.vars.length = w.vars.length ∧ ∀ i, i ≠ v → w'.vars[i]? = w.vars[i]?

/-- `w'` is `w` except for the value of bit `b`. -/
def OnlyBit (w w' : World K) (b : Nat) : Prop :=
  w'.qubits = w.qubits ∧ w'.vars = w.vars ∧ w'.classes = w.classes ∧ w'.ops = w.ops ∧ w'.circs = w.circs ∧ w'.ctxs = w.ctxs ∧ w'.active = w.active ∧
    w'.onExit = w.onExit ∧ w'.bits.length = w.bits.length ∧ ∀ i, i ≠ b → w'.bits[i]? = w.bits[i]?

/-- The circuit whose method is called, for methods that change a circuit. -/
def callee (e : Call K) : Option Nat := mayChange ({} : World K) e

/-- A program that calls no such method of circuit `d` and does not open its context. -/
def LeavesAlone (d : Nat) : Prog K → Prop
  | .skip => True
  | .call e => callee e ≠ some d
  | .seq p q => LeavesAlone d p ∧ LeavesAlone d q
  | .withCtx c p => c ≠ d ∧ LeavesAlone d p
  | .withFreeze p => LeavesAlone d p
  | .attempt p => LeavesAlone d p

/-- The operation objects that a call may change, apart from those that it creates: the operation that is assigned to or evaluated, operations that are appended (a circuit that is not
parametric evaluates them), and the operations of a circuit that is evaluated in place. -/
def touchesOp (w : World K) (e : Call K) (o : Nat) : Prop :=
  match e with
  | .setQubits o' _ => o = o'
  | .conditional o' _ => o = o'
  | .measureInto o' _ => o = o'
  | .evalInPlace o' _ => o = o'
  | .append _ o' => o = o'
  | .extend _ os => o ∈ os
  | .evalCirc c _ true => ∃ C, w.circs[c]? = some C ∧ o ∈ C.ops
  | _ => False

/-- The bits that a call may change; `reset` of a circuit changes those that `circuit.bits` lists. -/
def touchesBit (w : World K) (e : Call K) (b : Nat) : Prop :=
  match e with
  | .setBit b' _ _ => b = b'
  | .resetBit b' => b = b'
  | .reset c true => ∃ r items, (bitsOf c w).1 = .ok r ∧ r.cy.iter = .ok items ∧ .obj b ∈ items
  | _ => False

/-- The variables that a call may change: those of the template if a parametric template is called with values. -/
def touchesVar (w : World K) (e : Call K) (v : Nat) : Prop :=
  match e with
  | .setVar v' _ => v = v'
  | .resetVar v' => v = v'
  | .callParam a _ _ _ => v ∈ varsOf w a
  | .resetVariables a => v ∈ varsOf w a
  | _ => False

/-- The qubits that a call may change. -/
def touchesQubit (e : Call K) (q : Nat) : Prop :=
  match e with
  | .setQubitLabel q' _ => q = q'
  | _ => False

end DG.Spec
