import Verif.Model.World

/-!
# OpenQASM: `Circuit.to_qasm`, `Register.to_qasm`, `Operation.to_qasm`

Models circuit.py 585-641 and 776-781, registers.py 122-137 and 153-168, base.py 223-238 and 323-333, and the methods `to_qasm` of
operations.py.

Simplifications: numbers are printed by a given function `num`; `str.strip` removes the characters that Lean regards as whitespace; which classes
were made by `create_operation` (base.py 79-155), and under which lower-case name, is given by a function `custom`; other subclasses of the
operations of operations.py, base.py are not modelled.
-/

namespace DG
variable {K : Type}

/-- `str(label)`. -/
def RLabel.text : RLabel → String
  | .str s => s
  | .int n => toString n

/-- `str.strip()`. -/
def strip (s : String) : String :=
  String.ofList (((s.toList.dropWhile Char.isWhitespace).reverse.dropWhile Char.isWhitespace).reverse)

namespace Qasm

/-- `register.to_qasm(label, idx)` (registers.py 122-137 with `qreg`, `q`; 153-168 with `creg`, `c`). -/
def register (kw pre : String) (n : Nat) (label : Option RLabel) (idx : Option Nat) : String :=
  match label with
  | some l =>
    if l.truthy then kw ++ " " ++ l.text ++ "[" ++ toString n ++ "]"
    else kw ++ " " ++ pre ++ (match idx with | some i => toString i | none => "") ++ "[" ++ toString n ++ "]"
  | none => kw ++ " " ++ pre ++ (match idx with | some i => toString i | none => "") ++ "[" ++ toString n ++ "]"

/-- `label if reg_labels else None`. -/
def optLabel (regLabels : Bool) (l : RLabel) : Option RLabel := if regLabels then some l else none

/-- The loop over several registers (circuit.py 615-616, 623-624), from index `i` on. -/
def registersFrom (kw pre : String) (regLabels : Bool) : Nat → List (RLabel × Reg) → String
  | _, [] => ""
  | i, (l, r) :: rest => register kw pre r.cy.stop (optLabel regLabels l) (some i) ++ ";\n" ++ registersFrom kw pre regLabels (i + 1) rest

/-- The declarations of the registers of one kind (circuit.py 610-616, 618-624). -/
def registers (kw pre : String) (regLabels : Bool) (b : Bank) : String :=
  match b.regs with
  | [(l, r)] => register kw pre r.cy.stop (optLabel regLabels l) none ++ ";\n"
  | regs => registersFrom kw pre regLabels 0 regs

/-- `label, idx = self.find_qubit(qb, qreg_label=reg_labels)` and the following lines (circuit.py 631-634). -/
def qubitRef (b : Bank) (regLabels : Bool) (q : Nat) : Except Err (String × Int) :=
  match b.findItem q regLabels with
  | .error e => .error e
  | .ok (.inl l, i) => .ok (l.text, i)
  | .ok (.inr j, i) => .ok (if b.regs.length ≠ 1 then "q" ++ toString j else "q", i)

/-- The loop that builds the mapping (circuit.py 629-634); a number is not in any register. -/
def mapping (b : Bank) (regLabels : Bool) : List Lbl → PyDict Lbl (String × Int) → Except Err (PyDict Lbl (String × Int))
  | [], d => .ok d
  | .int _ :: _, _ => .error .valueError
  | .obj q :: rest, d =>
    match qubitRef b regLabels q with
    | .error e => .error e
    | .ok r => mapping b regLabels rest (d.set (.obj q) r)

/-- `[f"{mapping[qb][0]}[{mapping[qb][1]}]" for qb in self.qubits]` (base.py 237). -/
def lookupRefs (d : PyDict Lbl (String × Int)) : List Nat → Except Err (List String)
  | [] => .ok []
  | q :: qs =>
    match d.get? (.obj q) with
    | none => .error .keyError
    | some (l, i) => match lookupRefs d qs with
      | .error e => .error e
      | .ok rs => .ok ((l ++ "[" ++ toString i ++ "]") :: rs)

/-- `_map_qubits(mapping)` (base.py 223-238) for an operation with qubits; an empty mapping is falsy. -/
def mapQubits (d : PyDict Lbl (String × Int)) (qs : List Nat) (numQubits : Option Nat) : Except Err (List String) :=
  if d.isEmpty then
    match numQubits with
    | none => .error .typeError
    | some n => .ok ((List.range n).map fun i => "q[" ++ toString i ++ "]")
  else lookupRefs d qs

/-- `f"{param}"` (primitives.py 182-186 for variables; a value of 0 is falsy). -/
def paramText [DecidableEq K] [Zero K] (num : K → String) (w : World K) : OpParam K → Except Err String
  | .num x => .ok (num x)
  | .var v => match w.vars[v]? with
    | some x => match x.value with
      | some y => if y ≠ 0 then .ok (num y) else .ok ("{" ++ x.name ++ "}")
      | none => .ok ("{" ++ x.name ++ "}")
    | none => .error .typeError

/-- Several parameters. -/
def paramTexts [DecidableEq K] [Zero K] (num : K → String) (w : World K) : List (OpParam K) → Except Err (List String)
  | [] => .ok []
  | p :: ps => match paramText num w p with
    | .error e => .error e
    | .ok s => match paramTexts num w ps with
      | .error e => .error e
      | .ok l => .ok (s :: l)

/-- For every operation with a method `to_qasm`: its OpenQASM name, the number of parameters and the number of qubits that are printed
(operations.py 88-101, 119-132, 150-163, 182-195, 213-226, 244-257, 279-292, 318-331, 357-370, 396-409, 439-459, 495-507, 526-538,
553-565, 580-592, 609-623, 640-654, 671-685, 704-718, 732-751, 780-799, 835-847). -/
def gate : String → Option (String × Nat × Nat)
  | "Identity" => some ("id", 0, 1)
  | "X" => some ("x", 0, 1)
  | "Y" => some ("y", 0, 1)
  | "Z" => some ("z", 0, 1)
  | "Hadamard" => some ("h", 0, 1)
  | "S" => some ("s", 0, 1)
  | "T" => some ("t", 0, 1)
  | "RX" => some ("rx", 1, 1)
  | "RY" => some ("ry", 1, 1)
  | "RZ" => some ("rz", 1, 1)
  | "Rotation" => some ("rot", 3, 1)
  | "CX" => some ("cx", 0, 2)
  | "CY" => some ("cy", 0, 2)
  | "CZ" => some ("cz", 0, 2)
  | "CHadamard" => some ("ch", 0, 2)
  | "CRX" => some ("crx", 1, 2)
  | "CRY" => some ("cry", 1, 2)
  | "CRZ" => some ("crz", 1, 2)
  | "CRotation" => some ("crot", 3, 2)
  | "SWAP" => some ("swap", 0, 2)
  | "CSWAP" => some ("cswap", 0, 3)
  | "CCX" => some ("ccx", 0, 3)
  | _ => none

/-- Strings with `, ` between them. -/
def commas : List String → String
  | [] => ""
  | [s] => s
  | s :: t :: l => s ++ ", " ++ commas (t :: l)

/-- The parameters that are printed: `theta = self.parameters[0]` raises `IndexError` for no parameters (operations.py 327),
`beta, gamma, delta = self.parameters` raises `ValueError` unless there are three (operations.py 455). -/
def printed [DecidableEq K] [Zero K] (num : K → String) (w : World K) : Nat → List (OpParam K) → Except Err (List String)
  | 0, _ => .ok []
  | 1, p :: _ => paramTexts num w [p]
  | 1, [] => .error .indexError
  | _, [p, q, r] => paramTexts num w [p, q, r]
  | _, _ => .error .valueError

/-- `f"rx({theta})"`, `f"rot({beta}, {gamma}, {delta})"`, or only the name. -/
def head (name : String) : List String → String
  | [] => name
  | p :: ps => name ++ "(" ++ commas (p :: ps) ++ ")"

/-- `op.num_qubits` (base.py 286-295, 526-541): the attribute of the instance or else of the class; `None` if neither exists. (That the class
attribute of a controlled operation is filled in here is left out.) -/
def numQubits (k : OpCls) (op : OpObj K) : Option Nat :=
  match op.numQubits with
  | some n => some n
  | none => match (Arity.clsNumQubits k.ar).1 with
    | .ok n => some n
    | .error _ => none

/-- `op.to_qasm(mapping)` of a class made by `create_operation` (base.py 107-124). -/
def customText (name : String) (k : OpCls) (op : OpObj K) (d : PyDict Lbl (String × Int)) : Except Err String :=
  match nonempty op.qubits with
  | none => .ok name
  | some qs => match mapQubits d qs (numQubits k op) with
    | .error e => .error e
    | .ok refs => .ok (name ++ " " ++ commas refs)

/-- `op.to_qasm(mapping)` for an operation of class `k`; `NotImplementedError` if the class has no such method (base.py 323-333). -/
def opText [DecidableEq K] [Zero K] (num : K → String) (w : World K) (k : OpCls) (op : OpObj K) (d : PyDict Lbl (String × Int)) :
    Except Err String :=
  match gate k.name with
  | none => .error .notImplementedError
  | some (kw, np, nq) =>
    match printed num w np op.params with
    | .error e => .error e
    | .ok ps =>
      match nonempty op.qubits with
      | none => .ok (head kw ps)
      | some qs => match mapQubits d qs (numQubits k op) with
        | .error e => .error e
        | .ok refs => if refs.length < nq then .error .indexError else .ok (head kw ps ++ " " ++ commas (refs.take nq))

/-- The attribute `_qasm_decl` (operations.py 435-437, 702, 730, 778); operations of `create_operation` do not have it. -/
def declaration : String → Option String
  | "Rotation" => some "gate rot(beta, gamma, delta) { rz(beta) q[0]; ry(gamma) q[0]; rz(delta) q[0]; }"
  | "CRotation" => some "// gate definition not implemented"
  | "SWAP" => some "gate swap a, b { cx b, a; cx a, b; cx b, a; }"
  | "CSWAP" => some "gate cswap c, a, b { cx b, a; ccx c, a, b; cx b, a; }"
  | _ => none

/-- `op.to_qasm(mapping)` for any operation. -/
def anyText [DecidableEq K] [Zero K] (custom : Nat → Option String) (num : K → String) (w : World K) (k : OpCls) (op : OpObj K)
    (d : PyDict Lbl (String × Int)) : Except Err String :=
  match custom op.cls with
  | some s => customText s k op d
  | none => opText num w k op d

/-- What is added to the header for an operation (circuit.py 637-638). -/
def declText (custom : Nat → Option String) (gateDefs : Bool) (name : String) (cls : Nat) : String :=
  match gateDefs, custom cls, declaration name with
  | true, none, some x => "\n" ++ x ++ "\n"
  | _, _, _ => ""

/-- The loop over the operations (circuit.py 636-639): what is added to the header, and the body. -/
def opsText [DecidableEq K] [Zero K] (custom : Nat → Option String) (num : K → String) (w : World K) (gateDefs : Bool) (d : PyDict Lbl (String × Int)) :
    List Nat → Except Err (String × String)
  | [] => .ok ("", "")
  | o :: rest =>
    match w.ops[o]? with
    | none => .error .typeError
    | some op => match w.classes[op.cls]? with
      | none => .error .typeError
      | some k => match anyText custom num w k op d with
        | .error e => .error e
        | .ok s => match opsText custom num w gateDefs d rest with
          | .error e => .error e
          | .ok (h, t) => .ok (declText custom gateDefs k.name op.cls ++ h, s ++ ";\n" ++ t)

/-- The first lines (circuit.py 607). -/
def header : String := "OPENQASM 2.0;\ninclude \"qelib1.inc\";\n"

/-- The text, given the items of `self.qubits` (circuit.py 609-641). -/
def text [DecidableEq K] [Zero K] (custom : Nat → Option String) (num : K → String) (w : World K) (C : Circ) (regLabels gateDefs : Bool) (items : List Lbl) : Except Err String :=
  match mapping C.q regLabels items [] with
  | .error e => .error e
  | .ok d => match opsText custom num w gateDefs d C.ops with
    | .error e => .error e
    | .ok (h, t) =>
      .ok (strip (header ++ h) ++ "\n\n" ++
        strip (registers "qreg" "q" regLabels C.q ++ registers "creg" "c" regLabels C.c ++ "\n" ++ t))

end Qasm

/-- `circuit.to_qasm("2.0", reg_labels=..., gate_definitions=...)` (circuit.py 585-641) of a circuit that is not parametric, and
`circuit.to_qasm()` (circuit.py 776-781) of one that is. -/
def toQasm [DecidableEq K] [Zero K] (custom : Nat → Option String) (num : K → String) (c : Nat) (regLabels gateDefs : Bool) : M K String := do
  let C ← circ c
  M.raiseIf C.param .circuitError
  let r ← qubitsOf c
  let w ← M.read id
  match r.cy.iter with
  | .error e => M.raise e
  | .ok items => fun w' => (Qasm.text custom num w C regLabels gateDefs items, w')

/-- `op.to_qasm()` without a mapping (base.py 107-124, 223-238, 323-333 and the methods `to_qasm` of operations.py cited at `Qasm.gate`). -/
def opToQasm [DecidableEq K] [Zero K] (custom : Nat → Option String) (num : K → String) (o : Nat) : M K String := do
  let op ← opObj o
  let k ← clsObj op.cls
  fun w => (Qasm.anyText custom num w k op [], w)

end DG
