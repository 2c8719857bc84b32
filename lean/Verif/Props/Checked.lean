import Verif.Proofs.SimDensity
import Verif.Proofs.SimFinal
import Verif.Proofs.SimLength

/-! What `simulate` returns is normalised, whatever the circuit is (C43). -/

noncomputable section

namespace DG.Props
open Complex DG.Sim DG.Spec

/-- `np.isclose(x, 1)`. -/
def WithinTolerance (x : ℝ) : Prop := |x - 1| ≤ 1 / 10 ^ 8 + 1 / 10 ^ 5

/-- **C43.** Whatever the operations of the circuit are, also ones with matrices that are not unitary: a simulation that does not raise an exception gives an
array with a norm of 1, up to the tolerance. -/
theorem C43_checked (u : Nat → ℝ) (c : SCircuit) (littleEndian : Bool) (bits : Nat → Option Bool) (records : Nat → Record) (w : World) :
    (simulate u c littleEndian bits records = .ok (some w) →
      w.mem.length = 2 ^ c.qubits.length ∧ WithinTolerance (Real.sqrt (w.mem.map Complex.normSq).sum)) ∧
    (simulateMixed u c littleEndian bits records = .ok (some w) → WithinTolerance (Real.sqrt (w.mem.map Complex.normSq).sum)) := by
  constructor
  · intro h
    unfold simulate at h
    split at h
    · cases h
    · obtain ⟨w1, -, h⟩ := bind_ok h
      obtain ⟨_, h2, h⟩ := bind_ok h
      cases h
      unfold assertState at h2
      split at h2
      · cases h2
      · rename_i hne hlen
        split at h2
        · rename_i hc
          refine ⟨?_, hc⟩
          have : c.qubits.length = (c.qubits.length - 1) + 1 := by omega
          rw [not_not.1 hlen, Nat.shiftLeft_eq, this, pow_succ, Nat.add_sub_cancel]
          ring
        · cases h2
  · intro h
    unfold simulateMixed at h
    split at h
    · cases h
    · obtain ⟨w1, -, h⟩ := bind_ok h
      obtain ⟨_, h2, h⟩ := bind_ok h
      cases h
      unfold assertDensity at h2
      split at h2
      · assumption
      · cases h2

/-- **C43.** A gate with a matrix that is not unitary is refused if it does not preserve the norm of the state: here the only gate, on the only qubit of the
circuit; N is the norm, squared, of the first column of the matrix. -/
theorem C43_refused (u : Nat → ℝ) (q oid : Nat) (a : Arr2) (hco : a.cOrder = true) (hct : a.complexType = true) (littleEndian : Bool)
    (bits : Nat → Option Bool) (records : Nat → Record) (N : ℝ) (hN : N = Complex.normSq a.e00 + Complex.normSq a.e10) :
    (¬ WithinTolerance (Real.sqrt N) →
      simulate u ⟨[q], [{ oid := oid, kind := .single (.user a), qubits := [q] }]⟩ littleEndian bits records = .error .valueError) ∧
    (¬ WithinTolerance N →
      simulateMixed u ⟨[q], [{ oid := oid, kind := .single (.user a), qubits := [q] }]⟩ littleEndian bits records = .error .valueError) := by
  have hus : usable (.single (.user a)) := by intro a' ha'; cases ha'; exact ⟨hco, hct⟩
  have htar : ∀ os, targetsOf ⟨[q], os⟩ { oid := oid, kind := .single (.user a), qubits := [q] } = .ok [0] := by
    intro os; simp [targetsOf, pure, Except.pure, bind, Except.bind]
  have hnorm : Spec.normSq (applyGate (0 : Fin 1) (gateOf a) (zeroState 1)) = N := by
    have hz : ∀ b : Bool, zeroState 1 (fun _ => b) = if b = false then 1 else 0 := by
      intro b
      unfold zeroState
      cases b
      · simp
      · rw [if_neg (fun h => absurd (congrFun h 0) (by simp)), if_neg (by simp)]
    have hu : ∀ b b' : Bool, Function.update (fun _ : Fin 1 => b) 0 b' = fun _ => b' := by decide
    have hsum : ∀ g : Basis 1 → ℝ, ∑ x, g x = g (fun _ => false) + g (fun _ => true) := by
      intro g
      rw [← (Equiv.funUnique (Fin 1) Bool).symm.sum_comp]
      rw [Fintype.sum_bool, add_comm]
      rfl
    unfold Spec.normSq
    rw [hsum, hN]
    simp only [applyGate, Fintype.sum_bool, hu, hz, gateOf]
    simp
  constructor
  · intro h
    obtain ⟨m, e1, e2⟩ := apply_gate_ok (n := 1) (by decide) u { oid := oid, kind := .single (.user a), qubits := [q] } (ts := [0]) (.single 0 rfl) hus
      littleEndian false { mem := initialState 1, bits := bits, drawn := 0, records := records } (stores_initial littleEndian) rfl
    have hl : loop u ⟨[q], [{ oid := oid, kind := .single (.user a), qubits := [q] }]⟩ littleEndian
        { mem := initialState 1, bits := bits, drawn := 0, records := records } = .ok { mem := m, bits := bits, drawn := 0, records := records } := by
      unfold loop
      rw [List.foldlM_cons, htar, ok_bind]
      have e1' : applyInstruction u [q].length { oid := oid, kind := .single (.user a), qubits := [q] } [0] littleEndian false
        { mem := initialState 1, bits := bits, drawn := 0, records := records } = _ := e1
      rw [e1']
      rfl
    unfold simulate
    rw [if_neg (by simp)]
    show (loop u ⟨[q], [{ oid := oid, kind := .single (.user a), qubits := [q] }]⟩ littleEndian
        { mem := initialState 1, bits := bits, drawn := 0, records := records } >>= _) = _
    rw [hl, ok_bind]
    have : assertState 1 m = .error .valueError := by
      unfold assertState
      rw [if_neg (by rw [e2.1]; decide), if_neg]
      unfold isCloseOne norm2
      rw [sum_stores e2 Complex.normSq]
      have e : ∑ x, Complex.normSq (conjAct false (applyGate (0 : Fin 1) (gateOf a)) (zeroState 1) x) = N := hnorm
      rw [e]
      exact h
    show (assertState 1 m >>= _) = _
    rw [this]
    rfl
  · intro h
    have hst : Stores false (initialState 2) (tensor (zeroState 1) (conjState (zeroState 1))) := by
      have h0 := stores_initial (n := 1 + 1) false
      have e : zeroState (1 + 1) = tensor (zeroState 1) (conjState (zeroState 1)) := by
        funext x
        unfold tensor conjState zeroState
        by_cases hx : x = fun _ => false
        · subst hx
          rw [if_pos rfl, if_pos (show (leftHalf fun _ => false) = fun _ => false from rfl),
            if_pos (show (rightHalf fun _ => false) = fun _ => false from rfl)]
          simp
        · rw [if_neg hx]
          by_cases h1 : leftHalf x = fun _ => false
          · rw [if_neg (c := rightHalf x = _)]
            · simp
            · intro h2
              exact hx (halves.injective (Prod.ext h1 h2))
          · rw [if_neg h1, zero_mul]
      rw [e] at h0
      exact h0
    obtain ⟨w1, m, e1, e2, e3⟩ := density_gate (n := 1) (by decide) u { oid := oid, kind := .single (.user a), qubits := [q] } (ts := [0]) (.single 0 rfl) hus
      { mem := initialState 2, bits := bits, drawn := 0, records := records } hst rfl
    have hl : densityLoop u ⟨[q], [{ oid := oid, kind := .single (.user a), qubits := [q] }]⟩
        { mem := initialState 2, bits := bits, drawn := 0, records := records } = .ok { mem := m, bits := bits, drawn := 0, records := records } := by
      unfold densityLoop
      rw [List.foldlM_cons]
      dsimp only
      rw [htar, ok_bind]
      have e1' : applyInstruction u (2 * [q].length) { oid := oid, kind := .single (.user a), qubits := [q] } [0] false false
        { mem := initialState 2, bits := bits, drawn := 0, records := records } = .ok w1 := e1
      have e2' : applyInstruction u (2 * [q].length) { oid := oid, kind := .single (.user a), qubits := [q] } ([0].map (· + [q].length)) false true w1 =
        .ok { mem := m, bits := bits, drawn := 0, records := records } := e2
      rw [e1', ok_bind, e2']
      rfl
    unfold simulateMixed
    rw [if_neg (by simp)]
    show (densityLoop u ⟨[q], [{ oid := oid, kind := .single (.user a), qubits := [q] }]⟩
        { mem := initialState 2, bits := bits, drawn := 0, records := records } >>= _) = _
    rw [hl, ok_bind]
    have : assertDensity m = .error .valueError := by
      unfold assertDensity
      rw [if_neg]
      unfold isCloseOne norm2
      rw [sum_stores e3 Complex.normSq]
      have e : ∑ x, Complex.normSq (tensor (applyGate (0 : Fin 1) (gateOf a) (zeroState 1)) (conjState (applyGate (0 : Fin 1) (gateOf a) (zeroState 1))) x) = N * N := by
        have := normSq_tensor (applyGate (0 : Fin 1) (gateOf a) (zeroState 1)) (conjState (applyGate (0 : Fin 1) (gateOf a) (zeroState 1)))
        rw [Sim.normSq_conj, hnorm] at this
        exact this
      rw [e, Real.sqrt_mul_self]
      · exact h
      · rw [hN]
        exact add_nonneg (Complex.normSq_nonneg _) (Complex.normSq_nonneg _)
    show (assertDensity m >>= _) = _
    rw [this]
    rfl

/-- The matrix 2·1. -/
example : ¬ WithinTolerance (Real.sqrt (Complex.normSq 2 + Complex.normSq 0)) ∧ ¬ WithinTolerance (Complex.normSq 2 + Complex.normSq 0) := by
  have h : Complex.normSq 2 + Complex.normSq 0 = 2 ^ 2 := by simp [Complex.normSq_apply]; norm_num
  rw [h, Real.sqrt_sq (by norm_num)]
  unfold WithinTolerance
  constructor <;> norm_num

end DG.Props
