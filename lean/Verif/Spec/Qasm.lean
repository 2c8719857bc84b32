import Verif.Model.Qasm
import Verif.Spec.Program

/-!
# Specification of OpenQASM programs

A program consists of gate definitions, register declarations and statements; its text has one line for each of them. A statement applies a
gate to references, which are pairs of the name of a register and an index.
-/

namespace DG.Spec
variable {K : Type}

/-- Strings with `sep` between them. -/
def joinWith (sep : String) : List String → String
  | [] => ""
  | [s] => s
  | s :: t :: l => s ++ sep ++ joinWith sep (t :: l)

/-- A statement. -/
structure QStmt where
  name : String
  params : List String
  refs : List (String × Nat)
  deriving DecidableEq

/-- `r[i]`. -/
def refText (r : String × Nat) : String := r.1 ++ "[" ++ toString r.2 ++ "]"

/-- For instance `cx q[0], q[1];` or `rx(0.1) q[0];`. -/
def QStmt.text (s : QStmt) : String :=
  s.name ++ (if s.params = [] then "" else "(" ++ joinWith ", " s.params ++ ")") ++
    (if s.refs = [] then "" else " " ++ joinWith ", " (s.refs.map refText)) ++ ";"

/-- The text of a program with these gate definitions, register declarations and statements. -/
def qasmText (defs regs stmts : List String) : String :=
  joinWith "\n" (["OPENQASM 2.0;", "include \"qelib1.inc\";"] ++ defs.flatMap fun d => ["", d]) ++ "\n\n" ++
    joinWith "\n" (regs ++ if stmts = [] then [] else "" :: stmts)

/-- The default name of register number `j` of `n` registers. -/
def plainName (pre : String) (n j : Nat) : String := if n = 1 then pre else pre ++ toString j

/-- The names under which the registers are declared: the default names, or the labels (but the default name for a falsy label). -/
def declNames (regLabels : Bool) (pre : String) (L : Layout) : List String :=
  L.mapIdx fun j p => if regLabels && p.1.truthy then p.1.text else plainName pre L.length j

/-- The names under which the registers are referred to: the default names, or the labels. -/
def refNames (regLabels : Bool) (pre : String) (L : Layout) : List String :=
  L.mapIdx fun j p => if regLabels then p.1.text else plainName pre L.length j

/-- The declarations of registers with these names: `qreg q[2];`. -/
def regLines (kw : String) (names : List String) (L : Layout) : List String :=
  List.zipWith (fun s p => kw ++ " " ++ refText (s, p.2.length) ++ ";") names L

/-- Item `q` is number `i` of register number `j`. -/
def At (L : Layout) (q j i : Nat) : Prop := ∃ l ks, L[j]? = some (l, ks) ∧ ks[i]? = some q

/-- The reference `r` denotes qubit `q`, if the registers have these names. -/
def Denotes (names : List String) (L : Layout) (q : Nat) (r : String × Nat) : Prop := ∃ j, At L q j r.2 ∧ names[j]? = some r.1

/-- The gates of the library: class, OpenQASM name, number of parameters, number of qubits. -/
def library : List (String × String × Nat × Nat) :=
  [("Identity", "id", 0, 1), ("X", "x", 0, 1), ("Y", "y", 0, 1), ("Z", "z", 0, 1), ("Hadamard", "h", 0, 1), ("S", "s", 0, 1), ("T", "t", 0, 1),
    ("RX", "rx", 1, 1), ("RY", "ry", 1, 1), ("RZ", "rz", 1, 1), ("Rotation", "rot", 3, 1),
    ("CX", "cx", 0, 2), ("CY", "cy", 0, 2), ("CZ", "cz", 0, 2), ("CHadamard", "ch", 0, 2),
    ("CRX", "crx", 1, 2), ("CRY", "cry", 1, 2), ("CRZ", "crz", 1, 2), ("CRotation", "crot", 3, 2),
    ("SWAP", "swap", 0, 2), ("CSWAP", "cswap", 0, 3), ("CCX", "ccx", 0, 3)]

/-- The text of a parameter: the number, the value of the variable unless it is zero, or else the name of the variable in braces. -/
def ParamText [Zero K] (num : K → String) (w : World K) (p : OpParam K) (s : String) : Prop :=
  match p with
  | .num x => s = num x
  | .var v => ∃ X, w.vars[v]? = some X ∧ ((∃ y, X.value = some y ∧ y ≠ 0 ∧ s = num y) ∨ ((∀ y, X.value = some y → y = 0) ∧ s = "{" ++ X.name ++ "}"))

/-- Statement `s` is the export of operation `o`: the OpenQASM name of the gate, its parameters, and references that denote its (first `nq`) qubits. An
operation of `create_operation` is exported with its lower-case name (`custom`) and without parameters. -/
def Exports [Zero K] (custom : Nat → Option String) (num : K → String) (w : World K) (names : List String) (L : Layout) (o : Nat) (s : QStmt) : Prop :=
  ∃ (op : OpObj K) (k : OpCls) (np nq : Nat), w.ops[o]? = some op ∧ w.classes[op.cls]? = some k ∧
    ((custom op.cls = none ∧ (k.name, s.name, np, nq) ∈ library) ∨
      (custom op.cls = some s.name ∧ np = 0 ∧ nq = (op.qubits.getD []).length)) ∧
    (np = 3 → op.params.length = 3) ∧ s.params.length = np ∧ List.Forall₂ (ParamText num w) (op.params.take np) s.params ∧
    ((op.qubits.getD [] = [] ∧ s.refs = []) ∨
      (op.qubits.getD [] ≠ [] ∧ ∃ rs, List.Forall₂ (Denotes names L) (op.qubits.getD []) rs ∧ s.refs = rs.take nq ∧ s.refs.length = nq))

/-- The number of qubits of an operation, `op.num_qubits`: the one it was built with, or else the one of its class, which for controlled operations may
be the sum of the numbers of controls and targets. -/
def NumQubits (k : OpCls) (op : OpObj K) (n : Nat) : Prop :=
  op.numQubits = some n ∨
  (op.numQubits = none ∧
    ((k.ar.numQubits = some n ∧ (k.ar.controlled = true → n ≠ 0 ∨ k.ar.numControl.getD 0 = 0 ∨ k.ar.numTarget.getD 0 = 0)) ∨
      (k.ar.controlled = true ∧ k.ar.numQubits.getD 0 = 0 ∧ ∃ a b, k.ar.numControl = some a ∧ k.ar.numTarget = some b ∧ a ≠ 0 ∧ b ≠ 0 ∧ n = a + b)))

/-- Text `t` is the export of operation `o` alone: the OpenQASM name of the gate, its parameters, and, if it has qubits, references to the first
qubits of a register `q`, as many as the gate prints, which must not be more than `op.num_qubits`. -/
def AloneText [Zero K] (custom : Nat → Option String) (num : K → String) (w : World K) (o : Nat) (t : String) : Prop :=
  ∃ (op : OpObj K) (k : OpCls) (name : String) (np nq : Nat) (ps : List String), w.ops[o]? = some op ∧ w.classes[op.cls]? = some k ∧
    ((custom op.cls = none ∧ (k.name, name, np, nq) ∈ library) ∨
      (custom op.cls = some name ∧ np = 0 ∧ (op.qubits.getD [] ≠ [] → NumQubits k op nq))) ∧
    (np = 3 → op.params.length = 3) ∧ ps.length = np ∧ List.Forall₂ (ParamText num w) (op.params.take np) ps ∧
    (op.qubits.getD [] ≠ [] → ∃ n, NumQubits k op n ∧ nq ≤ n) ∧
    t = name ++ (if ps = [] then "" else "(" ++ joinWith ", " ps ++ ")") ++
      (if op.qubits.getD [] = [] then "" else " " ++ joinWith ", " ((List.range nq).map fun i => "q[" ++ toString i ++ "]"))

/-- The gates that come with a definition. -/
def definitions : List (String × String) :=
  [("Rotation", "gate rot(beta, gamma, delta) { rz(beta) q[0]; ry(gamma) q[0]; rz(delta) q[0]; }"),
    ("CRotation", "// gate definition not implemented"),
    ("SWAP", "gate swap a, b { cx b, a; cx a, b; cx b, a; }"),
    ("CSWAP", "gate cswap c, a, b { cx b, a; ccx c, a, b; cx b, a; }")]

/-- The definition that comes with operation `o`. -/
def definitionOf (custom : Nat → Option String) (w : World K) (o : Nat) : Option String :=
  match w.ops[o]? with
  | none => none
  | some op => match w.classes[op.cls]?, custom op.cls with
    | some k, none => definitions.lookup k.name
    | _, _ => none

/-- Operation `o` is a gate of the library with as many numbers as parameters and as many qubits as the gate needs, and without condition. -/
def PlainGate (custom : Nat → Option String) (w : World K) (o : Nat) : Prop :=
  ∃ (op : OpObj K) (k : OpCls) (name : String) (np nq : Nat) (xs : List K) (qs : List Nat), w.ops[o]? = some op ∧ w.classes[op.cls]? = some k ∧
    custom op.cls = none ∧ (k.name, name, np, nq) ∈ library ∧ op.params = xs.map OpParam.num ∧ xs.length = np ∧
    op.qubits = some qs ∧ qs.length = nq ∧ op.cond = none

/-- Operations of the same class, with the same parameters, on qubits at the same places. -/
def SameGate (w : World K) (L : Layout) (w' : World K) (L' : Layout) (o o' : Nat) : Prop :=
  ∃ (op op' : OpObj K) (k k' : OpCls), w.ops[o]? = some op ∧ w'.ops[o']? = some op' ∧ w.classes[op.cls]? = some k ∧ w'.classes[op'.cls]? = some k' ∧
    k.name = k'.name ∧ op.params = op'.params ∧
    List.Forall₂ (fun q q' => ∃ j i, At L q j i ∧ At L' q' j i) (op.qubits.getD []) (op'.qubits.getD [])

/-- Numbers are written in different ways, and without the characters that separate parameters or lines. -/
def Readable (num : K → String) : Prop :=
  Function.Injective num ∧ ∀ x, ',' ∉ (num x).toList ∧ ')' ∉ (num x).toList ∧ '\n' ∉ (num x).toList

end DG.Spec
