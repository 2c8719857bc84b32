import Verif.Spec.Qasm
import Verif.Spec.Simulation

/-!
# Specification of what OpenQASM 2.0 programs mean

Nothing here refers to the code, apart from the texts of `Spec/Qasm.lean`. The primitive gates are `U` and `CX`; all other gates are defined by their
bodies, either in the file `qelib1.inc` or in the program.
-/

noncomputable section

namespace DG.Spec
open Complex

/-- The primitive gate `U(θ, φ, λ)`, which is `Rz(φ) Ry(θ) Rz(λ)`. -/
def uGate (θ φ l : ℝ) : Bool → Bool → ℂ
  | false, false => exp (-(I * ((φ + l) / 2))) * (Real.cos (θ / 2) : ℂ)
  | false, true => -(exp (-(I * ((φ - l) / 2))) * (Real.sin (θ / 2) : ℂ))
  | true, false => exp (I * ((φ - l) / 2)) * (Real.sin (θ / 2) : ℂ)
  | true, true => exp (I * ((φ + l) / 2)) * (Real.cos (θ / 2) : ℂ)

/-- The matrix of NOT. -/
def notGate : Bool → Bool → ℂ := fun i j => if i = j then 0 else 1

/-- A gate, its parameters and what it is applied to. -/
abbrev Appl (α : Type) := String × List ℝ × List α

/-- A library gives, for the name of a gate and parameters, the number of arguments and the body; arguments are referred to by their numbers. -/
abbrev GateLib := String → List ℝ → Option (Nat × List (Appl Nat))

open Real in
/-- The file `qelib1.inc` (with `swap`, `cswap`, `crx` and `cry`, which old versions do not have); gates that the code does not use are left out. -/
def qelib1 : GateLib
  | "u3", [θ, φ, l] => some (1, [("U", [θ, φ, l], [0])])
  | "u2", [φ, l] => some (1, [("U", [π / 2, φ, l], [0])])
  | "u1", [l] => some (1, [("U", [0, 0, l], [0])])
  | "cx", [] => some (2, [("CX", [], [0, 1])])
  | "id", [] => some (1, [("U", [0, 0, 0], [0])])
  | "x", [] => some (1, [("u3", [π, 0, π], [0])])
  | "y", [] => some (1, [("u3", [π, π / 2, π / 2], [0])])
  | "z", [] => some (1, [("u1", [π], [0])])
  | "h", [] => some (1, [("u2", [0, π], [0])])
  | "s", [] => some (1, [("u1", [π / 2], [0])])
  | "sdg", [] => some (1, [("u1", [-π / 2], [0])])
  | "t", [] => some (1, [("u1", [π / 4], [0])])
  | "tdg", [] => some (1, [("u1", [-π / 4], [0])])
  | "rx", [θ] => some (1, [("u3", [θ, -π / 2, π / 2], [0])])
  | "ry", [θ] => some (1, [("u3", [θ, 0, 0], [0])])
  | "rz", [φ] => some (1, [("u1", [φ], [0])])
  | "cz", [] => some (2, [("h", [], [1]), ("cx", [], [0, 1]), ("h", [], [1])])
  | "cy", [] => some (2, [("sdg", [], [1]), ("cx", [], [0, 1]), ("s", [], [1])])
  | "swap", [] => some (2, [("cx", [], [0, 1]), ("cx", [], [1, 0]), ("cx", [], [0, 1])])
  | "ch", [] => some (2, [("h", [], [1]), ("sdg", [], [1]), ("cx", [], [0, 1]), ("h", [], [1]), ("t", [], [1]), ("cx", [], [0, 1]), ("t", [], [1]),
      ("h", [], [1]), ("s", [], [1]), ("x", [], [1]), ("s", [], [0])])
  | "ccx", [] => some (3, [("h", [], [2]), ("cx", [], [1, 2]), ("tdg", [], [2]), ("cx", [], [0, 2]), ("t", [], [2]), ("cx", [], [1, 2]),
      ("tdg", [], [2]), ("cx", [], [0, 2]), ("t", [], [1]), ("t", [], [2]), ("h", [], [2]), ("cx", [], [0, 1]), ("t", [], [0]), ("tdg", [], [1]),
      ("cx", [], [0, 1])])
  | "cswap", [] => some (3, [("cx", [], [2, 1]), ("ccx", [], [0, 1, 2]), ("cx", [], [2, 1])])
  | "crx", [l] => some (2, [("u1", [π / 2], [1]), ("cx", [], [0, 1]), ("u3", [-l / 2, 0, 0], [1]), ("cx", [], [0, 1]), ("u3", [l / 2, -π / 2, 0], [1])])
  | "cry", [l] => some (2, [("ry", [l / 2], [1]), ("cx", [], [0, 1]), ("ry", [-l / 2], [1]), ("cx", [], [0, 1])])
  | "crz", [l] => some (2, [("rz", [l / 2], [1]), ("cx", [], [0, 1]), ("rz", [-l / 2], [1]), ("cx", [], [0, 1])])
  | _, _ => none

/-- The arguments `ts` are put in the place of their numbers. -/
def Filled {n : Nat} (ts : List (Fin n)) (b : Appl Nat) (a : Appl (Fin n)) : Prop :=
  a.1 = b.1 ∧ a.2.1 = b.2.1 ∧ List.Forall₂ (fun i t => ts[i]? = some t) b.2.2 a.2.2

/-- The map that a list of gates means: the gates one after the other, defined gates by their bodies. -/
inductive QMeans (lib : GateLib) {n : Nat} : List (Appl (Fin n)) → (State n ℂ → State n ℂ) → Prop
  | nil : QMeans lib [] id
  | u {θ φ l : ℝ} {t : Fin n} {rest : List (Appl (Fin n))} {g : State n ℂ → State n ℂ} :
      QMeans lib rest g → QMeans lib (("U", [θ, φ, l], [t]) :: rest) (g ∘ applyGate t (uGate θ φ l))
  | cx {c t : Fin n} {rest : List (Appl (Fin n))} {g : State n ℂ → State n ℂ} :
      c ≠ t → QMeans lib rest g → QMeans lib (("CX", [], [c, t]) :: rest) (g ∘ applyControlled [c] t notGate)
  | gate {name : String} {ps : List ℝ} {ts : List (Fin n)} {body : List (Appl Nat)} {as rest : List (Appl (Fin n))} {f g : State n ℂ → State n ℂ} :
      name ≠ "U" → name ≠ "CX" → lib name ps = some (ts.length, body) → ts.Nodup → List.Forall₂ (Filled ts) body as → QMeans lib as f →
      QMeans lib rest g → QMeans lib ((name, ps, ts) :: rest) (g ∘ f)

/-- The reserved words of OpenQASM 2.0 (in lower case). -/
def reserved : List String :=
  ["include", "qreg", "creg", "gate", "opaque", "measure", "reset", "barrier", "if", "pi", "sin", "cos", "tan", "exp", "ln", "sqrt"]

/-- An identifier: a lower-case letter, and then letters, digits and underscores. -/
def Ident (s : String) : Prop :=
  s ∉ reserved ∧ ∃ c cs, s.toList = c :: cs ∧ c.isLower = true ∧ ∀ d ∈ cs, d.isAlphanum = true ∨ d = '_'

/-- A gate definition: its name, the names of its parameters and arguments, and its body. -/
structure GateDef where
  name : String
  params : List String
  args : List String
  body : List (String × List String × List String)

/-- For instance `cx b, a;` or `rz(beta) a;`. -/
def bodyText (b : String × List String × List String) : String :=
  b.1 ++ (if b.2.1 = [] then "" else "(" ++ joinWith ", " b.2.1 ++ ")") ++ " " ++ joinWith ", " b.2.2 ++ ";"

/-- The names are identifiers, and there is an argument. -/
def GateDef.Proper (d : GateDef) : Prop := Ident d.name ∧ (∀ s ∈ d.params, Ident s) ∧ d.args ≠ [] ∧ (∀ s ∈ d.args, Ident s)

/-- For instance `gate swap a, b { cx b, a; cx a, b; cx b, a; }`. -/
def GateDef.text (d : GateDef) : String :=
  "gate " ++ d.name ++ (if d.params = [] then "" else "(" ++ joinWith ", " d.params ++ ")") ++ " " ++ joinWith ", " d.args ++ " { " ++
    joinWith " " (d.body.map bodyText) ++ " }"

/-- A gate of the body, with these parameters, and with numbers for the arguments. -/
def GateDef.item (d : GateDef) (ps : List ℝ) (b : String × List String × List String) : Option (Appl Nat) :=
  match b.2.1.mapM (fun s => (d.params.zip ps).lookup s), b.2.2.mapM (fun s => d.args.idxOf? s) with
  | some xs, some is => some (b.1, xs, is)
  | _, _ => none

/-- The number of arguments and the body of a definition, for these parameters. -/
def GateDef.at (d : GateDef) (ps : List ℝ) : Option (Nat × List (Appl Nat)) :=
  if ps.length = d.params.length then (d.body.mapM (d.item ps)).map fun l => (d.args.length, l) else none

/-- The gates that a program with these definitions may use: definitions of the program take precedence over those of `qelib1.inc`. -/
def libOf (defs : List GateDef) : GateLib := fun name ps =>
  match defs.find? fun d => d.name == name with
  | some d => d.at ps
  | none => qelib1 name ps

/-- A program: gate definitions, quantum and classical registers (names and sizes), statements. -/
structure QProgram where
  defs : List GateDef
  qregs : List (String × Nat)
  cregs : List (String × Nat)
  stmts : List QStmt

def QProgram.text (P : QProgram) : String :=
  qasmText (P.defs.map GateDef.text) (P.qregs.map (fun r => "qreg " ++ refText r ++ ";") ++ P.cregs.map fun r => "creg " ++ refText r ++ ";")
    (P.stmts.map QStmt.text)

/-- The number of the qubit that a reference denotes: the qubits are numbered register by register. -/
def position : List (String × Nat) → String × Nat → Option Nat
  | [], _ => none
  | (s, k) :: rest, (r, i) => if s = r then (if i < k then some i else none) else (position rest (r, i)).map (k + ·)

/-- The program means the map `f` on the states of its `n` qubits, where numbers are read by `read`. The names of definitions and registers are identifiers,
and no two registers have the same name. -/
def QProgram.Means (read : String → Option ℝ) (P : QProgram) {n : Nat} (f : State n ℂ → State n ℂ) : Prop :=
  (∀ d ∈ P.defs, d.Proper) ∧ (∀ r ∈ P.qregs ++ P.cregs, Ident r.1) ∧ (P.qregs.map Prod.fst ++ P.cregs.map Prod.fst).Nodup ∧
  n = (P.qregs.map Prod.snd).sum ∧
  ∃ as : List (Appl (Fin n)), QMeans (libOf P.defs) as f ∧
    List.Forall₂ (fun (s : QStmt) (a : Appl (Fin n)) => s.name = a.1 ∧ s.params.map read = a.2.1.map some ∧
      List.Forall₂ (fun r t => position P.qregs r = some t.val) s.refs a.2.2) P.stmts as

end DG.Spec
