import Verif.Proofs.RoundingLoop

/-! # Rounding to doubles -/

noncomputable section

namespace DG.Sim
open Complex Spec Kernel Props

variable {n : Nat}

theorem toDouble_error (x : ℝ) : |toDouble x - x| ≤ 2⁻¹ ^ 53 * |x| + 2⁻¹ ^ 1075 := by
  unfold toDouble
  by_cases hx : x = 0
  · subst hx; simp
  have hpos : 0 < |x| := abs_pos.2 hx
  set e := max (Int.log 2 |x| - 52) (-1074) with he
  have hu : (0 : ℝ) < (2 : ℝ) ^ e := by positivity
  have h1 : |(round (x / (2 : ℝ) ^ e) : ℝ) * (2 : ℝ) ^ e - x| ≤ (2 : ℝ) ^ e / 2 := by
    have : (round (x / (2 : ℝ) ^ e) : ℝ) * (2 : ℝ) ^ e - x = -((x / (2 : ℝ) ^ e - round (x / (2 : ℝ) ^ e)) * (2 : ℝ) ^ e) := by
      field_simp
      ring
    rw [this, abs_neg, abs_mul, abs_of_pos hu]
    have := abs_sub_round (x / (2 : ℝ) ^ e)
    calc |x / (2 : ℝ) ^ e - round (x / (2 : ℝ) ^ e)| * (2 : ℝ) ^ e ≤ 1 / 2 * (2 : ℝ) ^ e := mul_le_mul_of_nonneg_right this hu.le
      _ = _ := by ring
  refine h1.trans ?_
  have hle : (2 : ℝ) ^ e ≤ (2 : ℝ) ^ (Int.log 2 |x| - 52) + (2 : ℝ) ^ (-1074 : ℤ) := by
    have a1 : (0 : ℝ) < (2 : ℝ) ^ (Int.log 2 |x| - 52) := by positivity
    have a2 : (0 : ℝ) < (2 : ℝ) ^ (-1074 : ℤ) := by positivity
    rcases max_choice (Int.log 2 |x| - 52) (-1074) with h | h <;> rw [he, h] <;> linarith
  have hlog : (2 : ℝ) ^ Int.log 2 |x| ≤ |x| := by
    have := Int.zpow_log_le_self (b := 2) (by norm_num) hpos
    exact_mod_cast this
  have b1 : (2 : ℝ) ^ (Int.log 2 |x| - 52) = (2 : ℝ) ^ Int.log 2 |x| * 2⁻¹ ^ 52 := by
    rw [zpow_sub₀ (by norm_num), div_eq_mul_inv, inv_pow]
    rfl
  have b2 : (2 : ℝ) ^ (-1074 : ℤ) = 2⁻¹ ^ 1074 := by
    rw [zpow_neg, inv_pow]
    rfl
  rw [b1, b2] at hle
  have b3 : (2 : ℝ) ^ Int.log 2 |x| * 2⁻¹ ^ 52 ≤ |x| * 2⁻¹ ^ 52 := mul_le_mul_of_nonneg_right hlog (by positivity)
  have c1 : (2⁻¹ : ℝ) ^ 1075 = 2⁻¹ ^ 1074 * 2⁻¹ := pow_succ _ 1074
  have c2 : (2⁻¹ : ℝ) ^ 53 = 2⁻¹ ^ 52 * 2⁻¹ := pow_succ _ 52
  rw [c1, c2]
  generalize (2⁻¹ : ℝ) ^ 1074 = q at *
  generalize (2⁻¹ : ℝ) ^ 52 = q' at *
  linarith

/-- Arithmetic with a rounding function that has relative error `u` and absolute error `e`. -/
theorem accurate_by {r : ℝ → ℝ} {u e : ℝ} (hr : ∀ x, |r x - x| ≤ u * |x| + e) (hu : 0 ≤ u) (hu1 : u ≤ 1) (he : 0 ≤ e) (matrix : Base → Except Err Arr2)
    (norm : List ℂ → ℝ) : Accurate ⟨addBy r, mulBy r, matrix, norm⟩ (8 * u) (16 * e) := by
  refine ⟨fun z w _ _ => ?_, fun z w _ _ => ?_⟩
  · show ‖addBy r z w - (z + w)‖ ≤ _
    have h1 := hr (z.re + w.re)
    have h2 := hr (z.im + w.im)
    have h3 := Complex.norm_le_abs_re_add_abs_im (addBy r z w - (z + w))
    have h4 := Complex.abs_re_le_norm (z + w)
    have h5 := Complex.abs_im_le_norm (z + w)
    simp only [addBy, Complex.sub_re, Complex.sub_im, Complex.add_re, Complex.add_im] at h3 h4 h5
    have h6 := mul_le_mul_of_nonneg_left h4 hu
    have h7 := mul_le_mul_of_nonneg_left h5 hu
    have h8 : 0 ≤ u * ‖z + w‖ := mul_nonneg hu (norm_nonneg _)
    unfold addBy
    linarith
  · show ‖mulBy r z w - z * w‖ ≤ _
    have key : ∀ a b c d : ℝ, |a| * |b| + |c| * |d| ≤ ‖z‖ * ‖w‖ → ∀ s : ℝ, (s = 1 ∨ s = -1) →
        |r (r (a * b) + s * r (c * d)) - (a * b + s * (c * d))| ≤ 4 * u * (‖z‖ * ‖w‖) + 4 * e + u * e * 2 := by
      intro a b c d h s hs
      have hs1 : |s| = 1 := by rcases hs with rfl | rfl <;> simp
      have h1 := hr (a * b)
      have h2 := hr (c * d)
      have h3 := hr (r (a * b) + s * r (c * d))
      rw [abs_mul] at h1 h2
      set p := |a| * |b| with hp
      set q := |c| * |d| with hq
      have hp0 : 0 ≤ p := by positivity
      have hq0 : 0 ≤ q := by positivity
      have h4 : |r (a * b) + s * r (c * d) - (a * b + s * (c * d))| ≤ u * (p + q) + 2 * e := by
        have : r (a * b) + s * r (c * d) - (a * b + s * (c * d)) = (r (a * b) - a * b) + s * (r (c * d) - c * d) := by ring
        rw [this]
        refine (abs_add_le _ _).trans ?_
        rw [abs_mul s, hs1]
        linarith
      have h5 : |a * b + s * (c * d)| ≤ p + q := by
        refine (abs_add_le _ _).trans (le_of_eq ?_)
        rw [abs_mul s, hs1, one_mul, abs_mul, abs_mul]
      have h6 : |r (a * b) + s * r (c * d)| ≤ (1 + u) * (p + q) + 2 * e := by
        have := abs_add_le (r (a * b) + s * r (c * d) - (a * b + s * (c * d))) (a * b + s * (c * d))
        rw [sub_add_cancel] at this
        linarith
      have h7 := mul_le_mul_of_nonneg_left h6 hu
      have h8 := abs_add_le (r (r (a * b) + s * r (c * d)) - (r (a * b) + s * r (c * d))) (r (a * b) + s * r (c * d) - (a * b + s * (c * d)))
      rw [sub_add_sub_cancel] at h8
      have h9 : u * (p + q) ≤ u * (‖z‖ * ‖w‖) := mul_le_mul_of_nonneg_left h hu
      have h10 : u * u * (p + q) ≤ u * (p + q) := by
        have : u * u ≤ u * 1 := mul_le_mul_of_nonneg_left hu1 hu
        have := mul_le_mul_of_nonneg_right this (add_nonneg hp0 hq0)
        linarith
      have : 0 ≤ u * (‖z‖ * ‖w‖) := by positivity
      nlinarith
    have cs : ∀ a b c d : ℝ, a ^ 2 + c ^ 2 = ‖z‖ ^ 2 → b ^ 2 + d ^ 2 = ‖w‖ ^ 2 → |a| * |b| + |c| * |d| ≤ ‖z‖ * ‖w‖ := by
      intro a b c d h1 h2
      refine abs_le_of_sq_le_sq' ?_ (by positivity) |>.2
      rw [mul_pow, ← h1, ← h2]
      have : (|a| * |b| + |c| * |d|) ^ 2 = |a| ^ 2 * |b| ^ 2 + |c| ^ 2 * |d| ^ 2 + 2 * (|a| * |b| * (|c| * |d|)) := by ring
      rw [this, sq_abs, sq_abs, sq_abs, sq_abs]
      have h3 := sq_nonneg (|a| * |d| - |c| * |b|)
      have h4 : (|a| * |d| - |c| * |b|) ^ 2 = |a| ^ 2 * |d| ^ 2 + |c| ^ 2 * |b| ^ 2 - 2 * (|a| * |b| * (|c| * |d|)) := by ring
      rw [h4, sq_abs, sq_abs, sq_abs, sq_abs] at h3
      nlinarith
    have nz : z.re ^ 2 + z.im ^ 2 = ‖z‖ ^ 2 := by rw [← Complex.normSq_eq_norm_sq, Complex.normSq_apply]; ring
    have nw : w.re ^ 2 + w.im ^ 2 = ‖w‖ ^ 2 := by rw [← Complex.normSq_eq_norm_sq, Complex.normSq_apply]; ring
    have k1 := key z.re w.re z.im w.im (cs _ _ _ _ nz nw) (-1) (.inr rfl)
    have k2 := key z.re w.im z.im w.re (cs _ _ _ _ nz (by rw [add_comm]; exact nw)) 1 (.inl rfl)
    have h3 := Complex.norm_le_abs_re_add_abs_im (mulBy r z w - z * w)
    simp only [mulBy, Complex.sub_re, Complex.sub_im, Complex.mul_re, Complex.mul_im] at h3
    simp only [neg_one_mul, one_mul, ← sub_eq_add_neg] at k1 k2
    have hue : u * e ≤ 1 * e := mul_le_mul_of_nonneg_right hu1 he
    unfold mulBy
    linarith

theorem accurate_double (matrix : Base → Except Err Arr2) (norm : List ℂ → ℝ) : Accurate (doubleArith matrix norm) (2⁻¹ ^ 50) (2⁻¹ ^ 1071) := by
  have h := accurate_by toDouble_error (by positivity) (pow_le_one₀ (by norm_num) (by norm_num)) (by positivity) matrix norm
  have e1 : (8 : ℝ) * 2⁻¹ ^ 53 = 2⁻¹ ^ 50 := by norm_num
  have e2 : (16 : ℝ) * 2⁻¹ ^ 1075 = 2⁻¹ ^ 1071 := by
    rw [show 1075 = 1071 + 4 from rfl, pow_add]
    generalize (2⁻¹ : ℝ) ^ 1071 = q
    norm_num
    ring
  rwa [e1, e2] at h

/-! ## Conclusions for whole simulations -/

variable {A : Arith} {ε η δ ν : ℝ}

theorem nrm_zeroState : stateDist (zeroState n) (zeroState n) = 0 := by
  unfold stateDist
  simp [Spec.normSq]

theorem nrm_dist (φ ψ : State n ℂ) : |nrm φ - nrm ψ| ≤ stateDist φ ψ := by
  rw [abs_le]
  have h1 := nrm_add ψ fun x => φ x - ψ x
  have h2 := nrm_add φ fun x => ψ x - φ x
  simp only [add_sub_cancel] at h1 h2
  have h3 : (nrm fun x => ψ x - φ x) = nrm fun x => φ x - ψ x :=
    le_antisymm (nrm_mono fun x => by rw [norm_sub_rev]) (nrm_mono fun x => by rw [norm_sub_rev])
  rw [stateDist_eq]
  constructor <;> linarith

theorem probIn_eq (S : Finset (Basis n)) (ψ : State n ℂ) : probIn S ψ = nrm (fun x => if x ∈ S then ψ x else 0) ^ 2 := by
  unfold nrm Spec.normSq probIn
  rw [Real.sq_sqrt (Finset.sum_nonneg fun x _ => Complex.normSq_nonneg _)]
  simp only [apply_ite Complex.normSq, map_zero]
  rw [Finset.sum_ite_mem, Finset.univ_inter]

theorem probIn_dist {φ ψ : State n ℂ} (h1 : Spec.normSq ψ = 1) (hd : stateDist φ ψ ≤ 1) (S : Finset (Basis n)) :
    |probIn S φ - probIn S ψ| ≤ 3 * stateDist φ ψ := by
  rw [probIn_eq, probIn_eq]
  set a := nrm (fun x => if x ∈ S then φ x else 0)
  set b := nrm (fun x => if x ∈ S then ψ x else 0)
  have hb : b ≤ 1 := by
    have : b ≤ nrm ψ := nrm_mono fun x => by split <;> simp
    unfold nrm at this
    rwa [h1, Real.sqrt_one] at this
  have hab : |a - b| ≤ stateDist φ ψ := by
    refine (nrm_dist _ _).trans ?_
    rw [stateDist_eq, stateDist_eq]
    refine nrm_mono fun x => ?_
    split <;> simp
  have ha0 : 0 ≤ a := nrm_nonneg _
  have hb0 : 0 ≤ b := nrm_nonneg _
  have : a ^ 2 - b ^ 2 = (a - b) * (a + b) := by ring
  rw [this, abs_mul, abs_of_nonneg (add_nonneg ha0 hb0)]
  have h2 : a + b ≤ 3 := by have := (abs_le.1 hab).2; linarith
  calc |a - b| * (a + b) ≤ stateDist φ ψ * 3 := mul_le_mul hab h2 (by positivity) (nrm_nonneg _)
    _ = _ := mul_comm _ _

theorem simulateBy_ok (hA : Accurate A ε η) (hp : Small ε η δ) {c : SCircuit} (hq : GoodQubits c) (hg : ∀ op ∈ c.ops, GateOp c op)
    (hM : MatricesWithin A c.ops δ) (hN : NormWithin A c.qubits.length ν) (hν : 0 ≤ ν)
    (hd : (1 + gateError ε η δ c.qubits.length) ^ c.ops.length - 1 + ν ≤ 1 / 10 ^ 5) (u : Nat → ℝ) (le : Bool) (bits : Nat → Option Bool) :
    ∃ mem φ ψ, simulateBy A c le bits = .ok (some mem) ∧ Stores le mem φ ∧ Exec c u c.ops ⟨zeroState _, bits, 0⟩ ⟨ψ, bits, 0⟩ ∧ Spec.normSq ψ = 1 ∧
      stateDist φ ψ ≤ (1 + gateError ε η δ c.qubits.length) ^ c.ops.length - 1 := by
  obtain ⟨mem, φ, ψ, e1, e2, e3, e4, e5⟩ := loopBy_gates hA hp hq u le bits 0 c.ops hg hM (initialState c.qubits.length) (zeroState _) (zeroState _)
    (stores_initial le) normSq_zeroState (by rw [nrm_zeroState, add_zero, one_mul]; norm_num at hd ⊢; linarith)
  rw [nrm_zeroState, add_zero, one_mul] at e5
  refine ⟨mem, φ, ψ, ?_, e2, e3, e4, by linarith⟩
  unfold simulateBy
  rw [if_neg (by have := hq.2.1; omega)]
  have e1' : loopBy A c le bits (initialState c.qubits.length) = .ok mem := e1
  rw [e1', ok_bind]
  have hd' : stateDist φ ψ ≤ (1 + gateError ε η δ c.qubits.length) ^ c.ops.length - 1 := by linarith
  have hn1 := nrm_dist φ ψ
  have hψ : nrm ψ = 1 := by unfold nrm; rw [e4, Real.sqrt_one]
  have hn2 : norm2 mem = nrm φ := norm2_stores e2
  rw [hψ] at hn1
  have hn3 := hN mem e2.1 (by rw [hn2]; have := (abs_le.1 hn1).2; norm_num at hd; linarith)
  have : assertStateBy A c.qubits.length mem = .ok () := by
    unfold assertStateBy
    rw [two_shift hq.2.1, if_neg (by rw [e2.1]; simp), if_pos]
    unfold isCloseOne
    have := abs_add_le (A.norm mem - norm2 mem) (nrm φ - 1)
    rw [hn2] at this hn3
    rw [sub_add_sub_cancel] at this
    norm_num at hd ⊢
    linarith
  rw [this, ok_bind]
  rfl

/-! ## The exact arithmetic -/

theorem callKernelBy_exact (op : OpSpec ℂ) (le : Bool) (m : Nat) (mem gate : List ℂ) (targets controls : List Nat) :
    callKernelBy exactArith op le m mem gate targets controls = callKernel op le m mem gate targets controls := by
  unfold callKernelBy callKernel
  congr!

theorem gateArrayBy_exact (b : Base) : gateArrayBy exactArith b = gateArray b false := by
  unfold gateArrayBy gateArray
  rfl

theorem applyBy_exact (u : Nat → ℝ) (m : Nat) (op : SOp) (hk : op.kind ≠ .measurement) (targets : List Nat) (le : Bool) (w : World) :
    applyInstruction u m op targets le false w = (applyBy exactArith m op targets le w.bits w.mem).map fun mem => { w with mem := mem } := by
  have key : ∀ (o : OpSpec ℂ) (gate : List ℂ) (t t' : List Nat), (callKernel o le m w.mem gate t t' >>= fun mem => pure { w with mem := mem }) =
      (callKernelBy exactArith o le m w.mem gate t t').map fun mem => ({ w with mem := mem } : World) := by
    intro o gate t t'
    rw [callKernelBy_exact]
    cases callKernel o le m w.mem gate t t' <;> rfl
  have bind_map : ∀ {α : Type} (x : Except Err α) (f : α → Except Err World) (g : α → Except Err (List ℂ)),
      (∀ a, f a = (g a).map fun mem => { w with mem := mem }) → (x >>= f) = (x >>= g).map fun mem => ({ w with mem := mem } : World) := by
    intro α x f g h
    cases x
    · rfl
    · exact h _
  unfold applyInstruction applyBy
  split
  · rfl
  · generalize op.kind = k at hk
    cases k with
    | measurement => exact absurd rfl hk
    | swap => exact bind_map _ _ _ fun _ => bind_map _ _ _ fun _ => key _ _ _ _
    | cswap => exact bind_map _ _ _ fun _ => bind_map _ _ _ fun _ => bind_map _ _ _ fun _ => key _ _ _ _
    | ccx => exact bind_map _ _ _ fun _ => bind_map _ _ _ fun _ => bind_map _ _ _ fun _ => key _ _ _ _
    | controlled nc b =>
      refine bind_map (gateArray b false) _ _ fun gate => ?_
      by_cases h1 : nc = 1
      · rw [if_pos h1, if_pos h1]
        exact bind_map _ _ _ fun _ => bind_map _ _ _ fun _ => key _ _ _ _
      · rw [if_neg h1, if_neg h1]
        by_cases h2 : nc = 2
        · rw [if_pos h2, if_pos h2]
          exact bind_map _ _ _ fun _ => bind_map _ _ _ fun _ => bind_map _ _ _ fun _ => key _ _ _ _
        · rw [if_neg h2, if_neg h2]
          rfl
    | single b => exact bind_map (gateArray b false) _ _ fun _ => bind_map _ _ _ fun _ => key _ _ _ _
    | barrier =>
      by_cases h1 : numQubitsOf op ≠ 1
      · simp only [if_pos h1]; rfl
      · simp only [if_neg h1]; rfl
    | «opaque» => rfl

theorem loopBy_step (c : SCircuit) (op : SOp) (ops : List SOp) (le : Bool) (bits : Nat → Option Bool) (mem : List (Fl A)) :
    loopBy A { c with ops := op :: ops } le bits mem = ((targetsOf { c with ops := ops } op >>= fun targets =>
      applyBy A c.qubits.length op targets le bits mem) >>= fun mem1 => loopBy A { c with ops := ops } le bits mem1) := by
  unfold loopBy
  rw [List.foldlM_cons]
  rfl

theorem loopBy_exact (u : Nat → ℝ) (c : SCircuit) (le : Bool) : ∀ (ops : List SOp), (∀ op ∈ ops, op.kind ≠ .measurement) → ∀ (w : World),
    loop u { c with ops := ops } le w = (loopBy exactArith { c with ops := ops } le w.bits w.mem).map fun mem => { w with mem := mem } := by
  intro ops
  induction ops with
  | nil => intro _ w; rfl
  | cons op ops ih =>
    intro hk w
    have ih' := ih fun o ho => hk o (by simp [ho])
    refine Eq.trans ?_ (congrArg (Except.map _) (loopBy_step c op ops le w.bits w.mem).symm)
    have hl : loop u { c with ops := op :: ops } le w = ((targetsOf { c with ops := ops } op >>= fun targets =>
        applyInstruction u c.qubits.length op targets le false w) >>= fun w' => loop u { c with ops := ops } le w') := by
      unfold loop
      rw [List.foldlM_cons]
      rfl
    rw [hl]
    cases targetsOf { c with ops := ops } op with
    | error e => rfl
    | ok targets =>
      simp only [ok_bind]
      rw [applyBy_exact u _ op (hk op (by simp))]
      cases applyBy exactArith c.qubits.length op targets le w.bits w.mem with
      | error e => rfl
      | ok mem => exact ih' { w with mem := mem }

/-- The two models of the simulation agree. -/
theorem simulateBy_exact (u : Nat → ℝ) (c : SCircuit) (hk : ∀ op ∈ c.ops, op.kind ≠ .measurement) (le : Bool) (bits : Nat → Option Bool)
    (records : Nat → Record) : simulate u c le bits records =
      (simulateBy exactArith c le bits).map fun r => r.map fun mem => { mem := mem, bits := bits, drawn := 0, records := records } := by
  unfold simulate simulateBy
  split
  · rfl
  · have h := loopBy_exact u c le c.ops hk { mem := initialState c.qubits.length, bits := bits, drawn := 0, records := records }
    have hc : { c with ops := c.ops } = c := rfl
    rw [hc] at h
    rw [h]
    dsimp only
    cases loopBy exactArith c le bits (initialState c.qubits.length) with
    | error e => rfl
    | ok mem =>
      have : assertStateBy exactArith c.qubits.length mem = assertState c.qubits.length mem := by
        unfold assertStateBy assertState
        congr!
      simp only [Except.map, ok_bind]
      rw [this]
      cases assertState c.qubits.length mem <;> rfl

end DG.Sim
