import Verif.Model.Qir
import Verif.Spec.Program

/-!
# Programs that also load QIR

The programs of `Model/Program.lean`, with two more statements: loading a QIR program into a circuit, and into a new circuit.
-/

namespace DG
variable {K : Type}

/-- Programs with loading. `lib` says which classes the names of operations stand for. -/
inductive LProg (K : Type)
  | skip
  | call (e : Call K)
  /-- `load_qir_bitcode(P, circuit=c)` -/
  | load (c : Nat) (P : QirProgram K)
  /-- `Circuit.from_qir(P)` -/
  | loadNew (P : QirProgram K)
  | seq (p q : LProg K)
  | withCtx (c : Nat) (p : LProg K)
  | withFreeze (p : LProg K)
  | attempt (p : LProg K)

/-- Execution. -/
def LProg.run [DecidableEq K] [Zero K] (lib : String → Nat) : LProg K → M K Unit
  | .skip => pure ()
  | .call e => execCall e
  | .load c P => Qir.loadInto lib c P
  | .loadNew P => (fromQir lib P).void
  | .seq p q => do p.run lib; q.run lib
  | .withCtx c p => withStmt (openCtx c) (p.run lib) exitCtx
  | .withFreeze p => withStmt freezeEnter (p.run lib) fun _ => freezeExit
  | .attempt p => tryPass (p.run lib)

/-- All calls of the program, other than the loads, satisfy `A`. -/
def LProg.All (A : Call K → Prop) : LProg K → Prop
  | .skip => True
  | .call e => A e
  | .load _ _ => True
  | .loadNew _ => True
  | .seq p q => p.All A ∧ q.All A
  | .withCtx _ p => p.All A
  | .withFreeze p => p.All A
  | .attempt p => p.All A

/-- The states between the statements of a program that is started in state `w`. -/
def LProg.Visits [DecidableEq K] [Zero K] (lib : String → Nat) : LProg K → World K → World K → Prop
  | .skip, w, w' => w' = w
  | .call e, w, w' => w' = w ∨ w' = (execCall e w).2
  | .load c P, w, w' => w' = w ∨ w' = (Qir.loadInto lib c P w).2
  | .loadNew P, w, w' => w' = w ∨ w' = (fromQir lib P w).2
  | .seq p q, w, w' => p.Visits lib w w' ∨ ∃ w1, p.run lib w = (.ok (), w1) ∧ q.Visits lib w1 w'
  | .withCtx c p, w, w' => w' = w ∨ w' = (openCtx c w).2 ∨
      ∃ x w1, openCtx c w = (.ok x, w1) ∧ (p.Visits lib w1 w' ∨ w' = (exitCtx x (p.run lib w1).2).2)
  | .withFreeze p, w, w' => w' = w ∨ w' = (freezeEnter w).2 ∨
      ∃ w1, freezeEnter w = (.ok (), w1) ∧ (p.Visits lib w1 w' ∨ w' = (freezeExit (p.run lib w1).2).2)
  | .attempt p, w, w' => p.Visits lib w w'

/-- The calls of the API that build circuits: creating circuits, adding qubits and bits, reading `qubits` and `bits`, unlocking, constructing operations and
measuring into bits. -/
def BuildCall : Call K → Prop
  | .newCirc .. | .addQubit .. | .addBit .. | .readQubits .. | .readBits .. | .unlock .. | .construct .. | .measureInto .. => True
  | _ => False

namespace Spec

/-- The states that occur in executions of programs with loading, started without any objects. -/
def LReach [DecidableEq K] [Zero K] (A : Call K → Prop) (lib : String → Nat) (w : World K) : Prop := ∃ p : LProg K, p.All A ∧ p.Visits lib {} w

end Spec
end DG
