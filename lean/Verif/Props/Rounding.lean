import Verif.Proofs.RoundingDouble
import Verif.Props.Simulator

/-!
# C90: simulation with rounded arithmetic

`simulateBy A c le bits` models `simulate(circuit, little_endian=le)` when complex numbers are added and multiplied as `A` says, when the matrices of
operations are those that `A` gives, and when norms are computed as `A` says. `Spec/Rounding.lean` says what it means that all of these are accurate and what
arithmetic with doubles is. The exact result is the textbook semantics `Exec` (`Spec/Simulation.lean`).
-/

noncomputable section

namespace DG.Props
open Complex Spec Kernel DG.Sim

variable {A : Arith} {ε η δ ν : ℝ} {c : SCircuit}

/-- With exact arithmetic this is the simulation of `Model/Simulator.lean`, also when it fails. -/
theorem C90_exact (u : Nat → ℝ) (c : SCircuit) (hk : ∀ op ∈ c.ops, op.kind ≠ .measurement) (le : Bool) (bits : Nat → Option Bool)
    (records : Nat → Record) : simulate u c le bits records =
      (simulateBy exactArith c le bits).map fun r => r.map fun mem => { mem := mem, bits := bits, drawn := 0, records := records } :=
  simulateBy_exact u c hk le bits records

/-- **C90.** The simulation of a circuit of gates does not fail, and the state that it computes is near the exact one: `1 + distance` grows at most by
the factor `1 + gateError` per operation. Probabilities of measurement results are off by at most three times the distance. -/
theorem C90_error (hA : Accurate A ε η) (hε : 0 ≤ ε ∧ ε ≤ 1 / 8) (hη : 0 ≤ η ∧ η ≤ 1) (hδ : 0 ≤ δ ∧ δ ≤ 1 / 8) (hq : GoodQubits c)
    (hg : ∀ op ∈ c.ops, GateOp c op) (hM : MatricesWithin A c.ops δ) (hν : 0 ≤ ν) (hN : NormWithin A c.qubits.length ν)
    (hd : (1 + gateError ε η δ c.qubits.length) ^ c.ops.length - 1 + ν ≤ 1 / 10 ^ 5) (u : Nat → ℝ) (le : Bool) (bits : Nat → Option Bool) :
    ∃ mem φ ψ, simulateBy A c le bits = .ok (some mem) ∧ Stores le mem φ ∧ Exec c u c.ops ⟨zeroState _, bits, 0⟩ ⟨ψ, bits, 0⟩ ∧
      stateDist φ ψ ≤ (1 + gateError ε η δ c.qubits.length) ^ c.ops.length - 1 ∧
      ∀ S, |probIn S φ - probIn S ψ| ≤ 3 * ((1 + gateError ε η δ c.qubits.length) ^ c.ops.length - 1) := by
  obtain ⟨mem, φ, ψ, e1, e2, e3, e4, e5⟩ := simulateBy_ok hA ⟨hε.1, hε.2, hη.1, hη.2, hδ.1, hδ.2⟩ hq hg hM hN hν hd u le bits
  refine ⟨mem, φ, ψ, e1, e2, e3, e5, fun S => (probIn_dist e4 (e5.trans ?_) S).trans (by linarith)⟩
  norm_num at hd ⊢
  linarith

/-- `(1 + x)^m` is at most `1 + m x (1 + m x)`. -/
theorem pow_bound {x : ℝ} (hx : 0 ≤ x) (m : Nat) (h : m * x ≤ 1) : (1 + x) ^ m - 1 ≤ m * x * (1 + m * x) := by
  have h0 : 0 ≤ m * x := by positivity
  have h1 : (1 + x) ^ m ≤ Real.exp (m * x) := by
    rw [Real.exp_nat_mul]
    refine pow_le_pow_left₀ (by linarith) ?_ m
    rw [add_comm]
    exact Real.add_one_le_exp x
  have h2 := (abs_le.1 (Real.abs_exp_sub_one_sub_id_le (x := m * x) (by rw [abs_of_nonneg h0]; exact h))).2
  nlinarith

theorem gateError_double {n : Nat} (hn : n ≤ 30) : gateError (2⁻¹ ^ 50) (2⁻¹ ^ 1071) (2⁻¹ ^ 48) n ≤ 1244 / 10 ^ 17 := by
  unfold gateError
  have h1 : Real.sqrt (2 ^ n) ≤ 2 ^ 30 := by
    have h3 : (2 : ℝ) ^ n ≤ 2 ^ 30 := pow_le_pow_right₀ (by norm_num) hn
    have h2 : (2 : ℝ) ^ n ≤ (2 ^ 30) ^ 2 := h3.trans (by norm_num)
    calc Real.sqrt (2 ^ n) ≤ Real.sqrt ((2 ^ 30) ^ 2) := Real.sqrt_le_sqrt h2
      _ = 2 ^ 30 := Real.sqrt_sq (by norm_num)
  have h2 : (2⁻¹ : ℝ) ^ 1071 ≤ 2⁻¹ ^ 100 := pow_le_pow_of_le_one (by norm_num) (by norm_num) (by norm_num)
  have h3 : 4 * (2⁻¹ : ℝ) ^ 1071 * Real.sqrt (2 ^ n) ≤ 4 * 2⁻¹ ^ 100 * 2 ^ 30 :=
    mul_le_mul (mul_le_mul_of_nonneg_left h2 (by norm_num)) h1 (Real.sqrt_nonneg _) (by positivity)
  have h4 : 6 * (2⁻¹ : ℝ) ^ 50 + 2 * 2⁻¹ ^ 48 + 4 * 2⁻¹ ^ 100 * 2 ^ 30 ≤ 1244 / 10 ^ 17 := by norm_num
  exact (add_le_add le_rfl h3).trans h4

/-- **C90, doubles.** If amplitudes are doubles, the entries of matrices are accurate to `2^-48` and norms to `10^-6`, then a circuit of up to `10^8` gates
can be simulated, and the computed state is off by at most `1.3 · 10^-14` per gate, probabilities by at most `4 · 10^-14` per gate. -/
theorem C90_double {matrix : Base → Except Err Arr2} {norm : List ℂ → ℝ} (hq : GoodQubits c) (hg : ∀ op ∈ c.ops, GateOp c op)
    (hM : MatricesWithin (doubleArith matrix norm) c.ops (2⁻¹ ^ 48)) (hN : NormWithin (doubleArith matrix norm) c.qubits.length (1 / 10 ^ 6))
    (hm : c.ops.length ≤ 10 ^ 8) (u : Nat → ℝ) (le : Bool) (bits : Nat → Option Bool) :
    ∃ mem φ ψ, simulateBy (doubleArith matrix norm) c le bits = .ok (some mem) ∧ Stores le mem φ ∧
      Exec c u c.ops ⟨zeroState _, bits, 0⟩ ⟨ψ, bits, 0⟩ ∧ stateDist φ ψ ≤ c.ops.length * (13 / 10 ^ 15) ∧
      ∀ S, |probIn S φ - probIn S ψ| ≤ c.ops.length * (4 / 10 ^ 14) := by
  set γ := gateError (2⁻¹ ^ 50) (2⁻¹ ^ 1071) (2⁻¹ ^ 48) c.qubits.length with hγ
  have hp : Small (2⁻¹ ^ 50) (2⁻¹ ^ 1071) (2⁻¹ ^ 48) :=
    ⟨by positivity, by norm_num, by positivity, pow_le_one₀ (by norm_num) (by norm_num), by positivity, by norm_num⟩
  have hγ0 : 0 ≤ γ := gateError_nonneg hp _
  have hγ1 : γ ≤ 1244 / 10 ^ 17 := gateError_double hq.2.2
  have hm' : (c.ops.length : ℝ) ≤ 10 ^ 8 := by exact_mod_cast hm
  have hm0 : (0 : ℝ) ≤ c.ops.length := by positivity
  have hmγ : c.ops.length * γ ≤ c.ops.length * (1244 / 10 ^ 17) := mul_le_mul_of_nonneg_left hγ1 hm0
  have hmγ1 : c.ops.length * γ ≤ 1244 / 10 ^ 9 := by
    refine hmγ.trans ?_
    calc (c.ops.length : ℝ) * (1244 / 10 ^ 17) ≤ 10 ^ 8 * (1244 / 10 ^ 17) := mul_le_mul_of_nonneg_right hm' (by norm_num)
      _ = _ := by norm_num
  have hb := pow_bound hγ0 c.ops.length (hmγ1.trans (by norm_num))
  have hb2 : (1 + γ) ^ c.ops.length - 1 ≤ c.ops.length * (13 / 10 ^ 15) := by
    refine hb.trans ?_
    calc c.ops.length * γ * (1 + c.ops.length * γ) ≤ c.ops.length * (1244 / 10 ^ 17) * (1 + 1244 / 10 ^ 9) :=
          mul_le_mul hmγ (by linarith) (by positivity) (by positivity)
      _ = c.ops.length * (1244 / 10 ^ 17 * (1 + 1244 / 10 ^ 9)) := by ring
      _ ≤ _ := mul_le_mul_of_nonneg_left (by norm_num) hm0
  have hb3 : (c.ops.length : ℝ) * (13 / 10 ^ 15) ≤ 10 ^ 8 * (13 / 10 ^ 15) := mul_le_mul_of_nonneg_right hm' (by norm_num)
  obtain ⟨mem, φ, ψ, e1, e2, e3, e4, e5⟩ := C90_error (accurate_double matrix norm) ⟨hp.ε0, hp.ε1⟩ ⟨hp.η0, hp.η1⟩ ⟨hp.δ0, hp.δ1⟩ hq hg hM (by norm_num) hN
    (by rw [← hγ]; norm_num at hb2 hb3 ⊢; linarith) u le bits
  refine ⟨mem, φ, ψ, e1, e2, e3, e4.trans hb2, fun S => (e5 S).trans ?_⟩
  rw [← hγ]
  linarith

/-- Rounded numbers are doubles (if they are not too large): an integer of at most 53 bits times a power of two. -/
theorem toDouble_representable (x : ℝ) : ∃ (m : ℤ) (e : ℤ), |m| ≤ 2 ^ 53 ∧ -1074 ≤ e ∧ toDouble x = m * (2 : ℝ) ^ e := by
  refine ⟨_, max (Int.log 2 |x| - 52) (-1074), ?_, le_max_right _ _, rfl⟩
  set e := max (Int.log 2 |x| - 52) (-1074) with he
  have hu : (0 : ℝ) < (2 : ℝ) ^ e := by positivity
  have h1 : |x| < (2 : ℝ) ^ (Int.log 2 |x| + 1) := by
    have := Int.lt_zpow_succ_log_self (b := 2) (by norm_num) |x|
    exact_mod_cast this
  have h2 : |x / (2 : ℝ) ^ e| ≤ 2 ^ 53 := by
    rw [abs_div, abs_of_pos hu, div_le_iff₀ hu]
    refine h1.le.trans ?_
    have : (2 : ℝ) ^ 53 * (2 : ℝ) ^ e = (2 : ℝ) ^ (53 + e) := by
      rw [zpow_add₀ (by norm_num)]
      rfl
    rw [this]
    exact zpow_le_zpow_right₀ (by norm_num) (by have := le_max_left (Int.log 2 |x| - 52) (-1074); omega)
  rw [abs_le] at h2 ⊢
  rw [round_eq]
  constructor
  · refine Int.le_floor.2 ?_
    push_cast
    linarith
  · have h3 : ⌊x / (2 : ℝ) ^ e + 1 / 2⌋ < 2 ^ 53 + 1 := by
      refine Int.floor_lt.2 ?_
      push_cast
      linarith
    omega

theorem roundArr_error {a : Arr2} (h : Cols a) (i j : Bool) : ‖gateOf (roundArr a) i j - gateOf a i j‖ ≤ 2⁻¹ ^ 48 := by
  have key : ∀ z : ℂ, ‖z‖ ≤ 1 → ‖(⟨toDouble z.re, toDouble z.im⟩ : ℂ) - z‖ ≤ 2⁻¹ ^ 48 := by
    intro z hz
    have h1 := Complex.norm_le_abs_re_add_abs_im ((⟨toDouble z.re, toDouble z.im⟩ : ℂ) - z)
    simp only [Complex.sub_re, Complex.sub_im] at h1
    have h2 := toDouble_error z.re
    have h3 := toDouble_error z.im
    have h4 := (Complex.abs_re_le_norm z).trans hz
    have h5 := (Complex.abs_im_le_norm z).trans hz
    have h6 : (2⁻¹ : ℝ) ^ 1075 ≤ 2⁻¹ ^ 53 := pow_le_pow_of_le_one (by norm_num) (by norm_num) (by norm_num)
    generalize (2⁻¹ : ℝ) ^ 1075 = q at *
    norm_num at h2 h3 h6 ⊢
    linarith
  have := entry_le h i j
  cases i <;> cases j <;> exact key _ this

/-- The hypotheses of `C90_double` hold if matrices and norms are the nearest doubles: then **every** circuit of up to `10^8` library gates on up to 30 qubits
can be simulated with doubles with an error of at most `1.3 · 10^-14` per gate. -/
theorem C90_best (hq : GoodQubits c) (hg : ∀ op ∈ c.ops, GateOp c op) (hm : c.ops.length ≤ 10 ^ 8) (u : Nat → ℝ) (le : Bool) (bits : Nat → Option Bool) :
    ∃ mem φ ψ, simulateBy bestDouble c le bits = .ok (some mem) ∧ Stores le mem φ ∧
      Exec c u c.ops ⟨zeroState _, bits, 0⟩ ⟨ψ, bits, 0⟩ ∧ stateDist φ ψ ≤ c.ops.length * (13 / 10 ^ 15) ∧
      ∀ S, |probIn S φ - probIn S ψ| ≤ c.ops.length * (4 / 10 ^ 14) := by
  refine C90_double hq hg ?_ ?_ hm u le bits
  · intro op hop b a hb ha
    have hl : Library b := by
      have := (hg op hop).1
      rcases hb with hb | ⟨nc, hb⟩ <;> rw [hb] at this
      · exact this
      · exact this.2
    obtain ⟨a', h1, h2, h3, h4⟩ := library_cols hl
    rw [ha] at h1; cases h1
    exact ⟨roundArr a, by simp [doubleArith, ha, Except.map], h2, h3, roundArr_error h4⟩
  · intro v _ hv
    have h1 := toDouble_error (norm2 v)
    have h0 : 0 ≤ norm2 v := Real.sqrt_nonneg _
    rw [abs_of_nonneg h0] at h1
    have h6 : (2⁻¹ : ℝ) ^ 1075 ≤ 2⁻¹ ^ 53 := pow_le_pow_of_le_one (by norm_num) (by norm_num) (by norm_num)
    show |toDouble (norm2 v) - norm2 v| ≤ _
    generalize (2⁻¹ : ℝ) ^ 1075 = q at *
    norm_num at h1 h6 ⊢
    linarith

/-- `C90_best` for a circuit on three qubits with conditions. -/
example (u : Nat → ℝ) (le : Bool) (bits : Nat → Option Bool) : ∃ mem φ ψ, simulateBy bestDouble demoGates le bits = .ok (some mem) ∧ Stores le mem φ ∧
    Exec demoGates u demoGates.ops ⟨zeroState _, bits, 0⟩ ⟨ψ, bits, 0⟩ ∧ stateDist φ ψ ≤ demoGates.ops.length * (13 / 10 ^ 15) := by
  obtain ⟨mem, φ, ψ, e1, e2, e3, e4, -⟩ := C90_best (c := demoGates) demo_qubits demoGates_ops
    ((List.length_filter_le _ _).trans (by decide)) u le bits
  exact ⟨mem, φ, ψ, e1, e2, e3, e4⟩

end DG.Props
