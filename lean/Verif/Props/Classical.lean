import Verif.Proofs.Classical
import Verif.Props.Simulator

/-! Circuits of classical gates: C115. -/

noncomputable section

namespace DG.Props
open Complex DG.Sim DG.Spec DG.Classic

/-- **C115.** A circuit of classical gates and measurements computes what the gates compute on values 0 and 1: whatever the random numbers are, the bits have
these values, and only the amplitude of the values of the qubits is not 0. If no gate makes a phase, it is 1. -/
theorem C115_classical (c : SCircuit) (hq : GoodQubits c) (hops : ∀ op ∈ c.ops, (GateOp c op ∧ ClassicalOp op) ∨ MeasureOp c op) (u : Nat → ℝ)
    (hu : Uniform u) (bits : Nat → Option Bool) (records : Nat → Record) :
    ∃ w z, simulate u c false bits records = .ok (some w) ∧ w.bits = (classicalRun c.ops bits).bits ∧
      (∀ x : Basis c.qubits.length,
        w.mem[index false x]? = some (if x = fun i => (classicalRun c.ops bits).qubits (qubitAt c i) then z else 0)) ∧
      Complex.normSq z = 1 ∧ ((∀ op ∈ c.ops, NoPhase op) → z = 1) := by
  obtain ⟨w, s, h1, h2, h3, h4, -⟩ := C76_refines c hq u bits records (fun op ho => (hops op ho).imp And.left id) hu
  obtain ⟨z, m1, m2, m3, m4⟩ := exec_ket hq.1 hu h2 (fun op ho => (hops op ho).imp (fun h => ⟨h.1.1, h.2⟩) And.left) ⟨fun _ => false, bits⟩ 1 (by simp)
    rfl rfl
  refine ⟨w, z, h1, h4.trans m2, fun x => ?_, m3, m4⟩
  rw [h3.2 x, m1]
  rfl

/-- **C115.** The results do not depend on the random numbers. -/
theorem C115_random (c : SCircuit) (hq : GoodQubits c) (hops : ∀ op ∈ c.ops, (GateOp c op ∧ ClassicalOp op) ∨ MeasureOp c op) (u u' : Nat → ℝ)
    (hu : Uniform u) (hu' : Uniform u') (bits : Nat → Option Bool) (records records' : Nat → Record) :
    ∃ w w', simulate u c false bits records = .ok (some w) ∧ simulate u' c false bits records' = .ok (some w') ∧ w'.bits = w.bits := by
  obtain ⟨w, _, h1, h2, -⟩ := C115_classical c hq hops u hu bits records
  obtain ⟨w', _, h1', h2', -⟩ := C115_classical c hq hops u' hu' bits records'
  exact ⟨w, w', h1, h1', h2'.trans h2.symm⟩

/-! ## Example: addition of two bits -/

/-- Half adder: the sum of the qubits 1 and 2 is in qubit 2, the carry in qubit 3; both are measured. If the carry is 1, qubit 1 is flipped. Some phases. -/
def adderOps (a b : Bool) : List SOp :=
  [{ oid := 1, kind := .single (if a then .x else .identity), qubits := [1] }, { oid := 2, kind := .single (if b then .y else .z), qubits := [2] },
   { oid := 3, kind := .ccx, qubits := [1, 2, 3] }, { oid := 4, kind := .controlled 1 .x, qubits := [1, 2] },
   { oid := 5, kind := .controlled 1 (.rz (.num 3)), qubits := [3, 2] },
   { oid := 6, kind := .measurement, qubits := [3, 2], bits := some [8, 9] }, { oid := 7, kind := .single .x, qubits := [1], cond := some [8] }]

theorem adder_bits (a b : Bool) : (classicalRun (adderOps a b) fun _ => none).bits 8 = some (a && b) ∧
    (classicalRun (adderOps a b) fun _ => none).bits 9 = some (a ^^ b) := by
  cases a <;> cases b <;> simp [classicalRun, adderOps, classicalStep, Blocked, classicalAct, flips, writeBits, Function.update_apply]

example (a b : Bool) (u : Nat → ℝ) (hu : Uniform u) (records : Nat → Record) :
    ∃ w, simulate u ⟨[1, 2, 3], adderOps a b⟩ false (fun _ => none) records = .ok (some w) ∧ w.bits 8 = some (a && b) ∧ w.bits 9 = some (a ^^ b) := by
  obtain ⟨w, z, h1, h2, -⟩ := C115_classical ⟨[1, 2, 3], adderOps a b⟩ ⟨by simp, by simp, by simp⟩ (by
    intro op ho
    simp only [adderOps, List.mem_cons, List.not_mem_nil, or_false] at ho
    rcases ho with rfl | rfl | rfl | rfl | rfl | rfl | rfl <;> cases a <;> cases b <;>
      simp [GateOp, MeasureOp, Supported, Library, arity, ClassicalOp, ClassicalGate, Param.isNum]) u hu (fun _ => none) records
  exact ⟨w, h1, by rw [h2]; exact (adder_bits a b).1, by rw [h2]; exact (adder_bits a b).2⟩

end DG.Props
