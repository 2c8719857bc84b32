import Verif.Model.Program
import Verif.Spec.Circuit

/-!
# Vocabulary for statements about programs
-/

namespace DG
variable {K : Type}

/-- All calls of the program satisfy `A`. -/
def Prog.All (A : Call K → Prop) : Prog K → Prop
  | .skip => True
  | .call e => A e
  | .seq p q => p.All A ∧ q.All A
  | .withCtx _ p => p.All A
  | .withFreeze p => p.All A
  | .attempt p => p.All A

theorem Prog.All.imp {A B : Call K → Prop} (hab : ∀ e, A e → B e) : ∀ {p : Prog K}, p.All A → p.All B
  | .skip, _ => trivial
  | .call e, h => hab e h
  | .seq _ _, h => ⟨h.1.imp hab, h.2.imp hab⟩
  | .withCtx _ p, h => Prog.All.imp (p := p) hab h
  | .withFreeze p, h => Prog.All.imp (p := p) hab h
  | .attempt p, h => Prog.All.imp (p := p) hab h

theorem Prog.All.of : ∀ p : Prog K, p.All fun _ => True
  | .skip => trivial
  | .call _ => trivial
  | .seq p q => ⟨.of p, .of q⟩
  | .withCtx _ p => Prog.All.of p
  | .withFreeze p => Prog.All.of p
  | .attempt p => Prog.All.of p

theorem Prog.All.and {A B : Call K → Prop} : ∀ {p : Prog K}, p.All A → p.All B → p.All fun e => A e ∧ B e
  | .skip, _, _ => trivial
  | .call _, h, h' => ⟨h, h'⟩
  | .seq _ _, h, h' => ⟨h.1.and h'.1, h.2.and h'.2⟩
  | .withCtx _ p, h, h' => Prog.All.and (p := p) h h'
  | .withFreeze p, h, h' => Prog.All.and (p := p) h h'
  | .attempt p, h, h' => Prog.All.and (p := p) h h'

/-- The states between the calls of a program that is started in state `w`. -/
def Prog.Visits [DecidableEq K] [Zero K] : Prog K → World K → World K → Prop
  | .skip, w, w' => w' = w
  | .call e, w, w' => w' = w ∨ w' = (execCall e w).2
  | .seq p q, w, w' => p.Visits w w' ∨ ∃ w1, p.run w = (.ok (), w1) ∧ q.Visits w1 w'
  | .withCtx c p, w, w' => w' = w ∨ w' = (openCtx c w).2 ∨
      ∃ x w1, openCtx c w = (.ok x, w1) ∧ (p.Visits w1 w' ∨ w' = (exitCtx x (p.run w1).2).2)
  | .withFreeze p, w, w' => w' = w ∨ w' = (freezeEnter w).2 ∨
      ∃ w1, freezeEnter w = (.ok (), w1) ∧ (p.Visits w1 w' ∨ w' = (freezeExit (p.run w1).2).2)
  | .attempt p, w, w' => p.Visits w w'

/-- The circuit that new operations are appended to: that of the active context, unless it is frozen. -/
def World.target (w : World K) : Option Nat :=
  match w.active with
  | none => none
  | some x => match w.ctxs[x]? with
    | none => none
    | some X => if X.frozen then none else some X.circuit

namespace Spec

/-- The states that occur in executions of programs all of whose calls satisfy `A`, started without any objects. -/
def Reach [DecidableEq K] [Zero K] (A : Call K → Prop) (w : World K) : Prop := ∃ p : Prog K, p.All A ∧ p.Visits {} w

/-- The calls other than `reset(keep_registers=False)`. -/
def KeepsRegisters : Call K → Prop
  | .reset _ keep => keep = true
  | _ => True

/-- The calls other than assignments of an operation's `qubits`. -/
def KeepsOperands : Call K → Prop
  | .setQubits .. => False
  | _ => True

/-- The calls other than setting a bit. -/
def SetsNoBit : Call K → Prop
  | .setBit .. => False
  | _ => True

/-- Any call. -/
def Anything : Call K → Prop := fun _ => True

/-- `circuit.circuit`: the operations of circuit `c`. -/
def opsOf (w : World K) (c : Nat) : List Nat :=
  match w.circs[c]? with
  | some C => C.ops
  | none => []

/-- Is circuit `c` locked? -/
def lockedIn (w : World K) (c : Nat) : Bool :=
  match w.circs[c]? with
  | some C => C.locked
  | none => false

/-- `circuit.parameter_register`: the variables of circuit `c`. -/
def varsOf (w : World K) (c : Nat) : List Nat :=
  match w.circs[c]? with
  | some C => C.vars
  | none => []

/-- A variable has a value that is not zero. -/
def HasValue [Zero K] (w : World K) (v : Nat) : Prop := ∃ x, w.varVal v = some x ∧ x ≠ 0

/-- `qs` is `ps` with the variables, and nothing else, replaced: by the number at the same position of `given` if there are given numbers,
else by the value of the variable. -/
def Replaced (val : Nat → Option K) (given : Option (List K)) (ps qs : List (OpParam K)) : Prop :=
  qs.length = ps.length ∧ ∀ (i : Nat) (p : OpParam K), ps[i]? = some p → match p with
    | .num x => qs[i]? = some (.num x)
    | .var v => match given with
      | some l => ∃ y, l[i]? = some y ∧ qs[i]? = some (.num y)
      | none => ∃ y, val v = some y ∧ qs[i]? = some (.num y)

/-- The values of variables after the variables `vars` got the values `xs`, one by one; `old` are the values before. -/
def assigned (vars : List Nat) (xs : List K) (old : Nat → Option K) (v : Nat) : Option K :=
  match vars.idxOf? v with
  | some i => xs[i]?
  | none => old v

/-- Nothing has changed, except that a circuit may have got its (inactive) context object. -/
structure SameButContexts (w w' : World K) : Prop where
  qubits : w'.qubits = w.qubits
  bits : w'.bits = w.bits
  vars : w'.vars = w.vars
  classes : w'.classes = w.classes
  ops : w'.ops = w.ops
  active : w'.active = w.active
  onExit : w'.onExit = w.onExit
  circs : (w'.circs.map fun C => { C with ctx := none }) = w.circs.map fun C => { C with ctx := none }
  ctxs : w.ctxs <+: w'.ctxs

/-- A circuit without the registers that reading `circuit.qubits` and `circuit.bits` stores. -/
def bare (C : Circ) : Circ := { C with q := { regs := C.q.regs }, c := { regs := C.c.regs } }

/-- What happened is that the new operations `new` were appended to circuit `B`, in this order; all other circuits, operations, bits and so on
are unchanged. -/
structure Appended (w w' : World K) (B : Nat) (new : List (OpObj K)) : Prop where
  ops : w'.ops = w.ops ++ new
  circs : ∃ D, w.circs[B]? = some D ∧ w'.circs.map bare =
    (w.circs.set B { D with ops := D.ops ++ List.range' w.ops.length new.length }).map bare
  qubits : w'.qubits = w.qubits
  bits : w'.bits = w.bits
  vars : w'.vars = w.vars
  active : w'.active = w.active
  ctxs : w'.ctxs = w.ctxs
  onExit : w'.onExit = w.onExit
  /-- classes may have recorded their number of qubits -/
  classes : (w'.classes.map fun k => (k.name, k.kind, k.numParams, k.ar.numControl)) =
    w.classes.map fun k => (k.name, k.kind, k.numParams, k.ar.numControl)

/-- `y` stands at a position of `m` where `x` stands in `l`. -/
def SamePlace (l : List Lbl) (m : List Nat) (x y : Nat) : Prop := ∃ j : Nat, l[j]? = some (.obj x) ∧ m[j]? = some y

/-- Operation `op'` is the operation `op` of class `C` with qubits exchanged by `Q` and measurement bits by `R` (`none`: not at all), appended to
a circuit whose parameters must be numbers if `concrete` holds. -/
structure CopyOf (w : World K) (C : OpCls) (concrete : Prop) (Q : Nat → Nat → Prop) (R : Option (Nat → Nat → Prop)) (op op' : OpObj K) : Prop where
  cls : op'.cls = op.cls
  qubits : ∃ qs, op'.qubits = some qs ∧ List.Forall₂ Q (op.qubits.getD []) qs
  number : op'.numQubits = op'.qubits.map List.length
  /-- controls and targets are exchanged too, provided that they are the qubits of the operation -/
  split : C.kind = .controlled ∨ C.kind = .pcontrolled → ∀ cs ts, op.control = some cs → op.target = some ts → cs ≠ [] → ts ≠ [] →
    op.qubits = some (cs ++ ts) → C.ar.numControl = some cs.length →
    ∃ cs' ts', op'.control = some cs' ∧ op'.target = some ts' ∧ List.Forall₂ Q cs cs' ∧ List.Forall₂ Q ts ts'
  values : C.kind = .parametric → concrete → Replaced w.varVal none op.params op'.params
  params : C.kind.isParametric = true → ¬ (C.kind = .parametric ∧ concrete) → op'.params = op.params
  plain : C.kind.isParametric = false → op'.params = []
  cond : op.cond = none → op'.cond = none
  bits : C.kind = .measurement → match R with
    | none => op'.bits = none
    | some R => ∃ bs n, op'.bits = some bs ∧ op'.numQubits = some n ∧ List.Forall₂ R ((op.bits.getD []).take n) bs

/-- How the `bits` passed to a call of circuit `a` exchange measurement bits: by position in `a.bits`; without bits not at all. -/
def BitsGiven (w : World K) (a : Nat) (bits : Option (List Nat)) (R : Option (Nat → Nat → Prop)) : Prop :=
  match bits with
  | none | some [] => R = none
  | some (b :: bs) => ∃ items, seen (bitsOf a w).1 = .ok items ∧ count (bitsOf a w).1 = .ok (b :: bs).length ∧ R = some (SamePlace items (b :: bs))

/-- The calls that work on the list of operations of a circuit directly. -/
def ChangesLists : Call K → Prop
  | .append .. | .extend .. | .remove .. | .reset .. => True
  | _ => False

/-- Evaluations of circuits that are not in place: they create a circuit that already has operations. -/
def CopiesCircuit : Call K → Prop
  | .evalCirc _ _ inplace => inplace = false
  | _ => False

/-- There is no `with context.freeze` in the program. -/
def NoFreeze : Prog K → Prop
  | .skip | .call _ => True
  | .seq p q => NoFreeze p ∧ NoFreeze q
  | .withCtx _ p => NoFreeze p
  | .withFreeze _ => False
  | .attempt p => NoFreeze p

/-- Equality of two parameters: numbers by value, variables by name, a variable and a number by the value of the variable, which must not be
zero (see C16 for the latter). -/
def SameParam [Zero K] (w : World K) : OpParam K → OpParam K → Prop
  | .num x, .num y => x = y
  | .num x, .var v => w.varVal v = some x ∧ x ≠ 0
  | .var v, .num x => w.varVal v = some x ∧ x ≠ 0
  | .var v, .var u => ∃ a b, w.vars[v]? = some a ∧ w.vars[u]? = some b ∧ a.name = b.name

/-- Equality of two operations: the same name of the class, the same qubits (or none), and, for operations with parameters, equal parameters. -/
def SameOp [Zero K] (w : World K) (x y : OpObj K) : Prop := ∃ k k', w.classes[x.cls]? = some k ∧ w.classes[y.cls]? = some k' ∧
  k.name = k'.name ∧ x.qubits = y.qubits ∧ (k.kind.isParametric = true → List.Forall₂ (SameParam w) y.params x.params)

/-- The operation at position `i` of the list is the object `o` itself or equal to it. -/
def EqualAt [Zero K] (w : World K) (l : List Nat) (o i : Nat) : Prop :=
  ∃ a, l[i]? = some a ∧ (a = o ∨ ∃ x y, w.ops[a]? = some x ∧ w.ops[o]? = some y ∧ SameOp w x y)

/-- The operation at position `i` of the list is not the object `o` and is parametric, while `o` is not. -/
def Incomparable (w : World K) (l : List Nat) (o i : Nat) : Prop :=
  ∃ a x y k k', l[i]? = some a ∧ a ≠ o ∧ w.ops[a]? = some x ∧ w.ops[o]? = some y ∧ w.classes[x.cls]? = some k ∧ w.classes[y.cls]? = some k' ∧
    k.kind.isParametric = true ∧ k'.kind.isParametric = false

end Spec

end DG
