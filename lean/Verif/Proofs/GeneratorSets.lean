import Verif.Proofs.Generator

/-! # Operator sets on several qubits -/

namespace DG.Sim
open Complex Spec Kernel Props

variable {n : Nat}

/-- The probability of an operator: the squared norm of its result, where all controls are set. -/
noncomputable def probN (ts cs : List (Fin n)) (ψ : State n ℂ) (E : Nat → Nat → ℂ) : ℝ := normWhere cs (applyOnTargets ts cs E ψ)

theorem probN_nonneg (ts cs : List (Fin n)) (ψ : State n ℂ) (E : Nat → Nat → ℂ) : 0 ≤ probN ts cs ψ E :=
  Finset.sum_nonneg (fun x _ => Complex.normSq_nonneg _)

theorem opProbN_ok (hn : n ≤ 30) (E : Nat → Nat → ℂ) (le : Bool) {mem : List ℂ} {ψ : State n ℂ} (hm : Stores le mem ψ)
    {ts cs : List (Fin n)} (hnd : (ts ++ cs).Nodup) :
    opProbN ts.length cs.length E le n mem (ts.map Fin.val) (cs.map Fin.val) = .ok (probN ts cs ψ E) := by
  have h := run_norm_gen (N := ℝ) (normKernelN ts.length cs.length E) Complex.normSq (by simp) rfl le hn ts cs hnd rfl rfl
    (gate := []) (by intro h; simp [normKernelN] at h) (Gv := fun _ _ => 0) (by intro h; simp [normKernelN] at h) 1 hm
  unfold opProbN
  rw [← args_eq, ← args_eq, h]
  simp only [ok_bind]
  rw [gen_eq_applyMatrix (List.nodup_append.1 hnd).1]
  rfl

theorem applyKernelN_ok (hn : n ≤ 30) (E : Nat → Nat → ℂ) (factor : ℂ) (le : Bool) {mem : List ℂ} {ψ : State n ℂ}
    (hm : Stores le mem ψ) {ts cs : List (Fin n)} (hnd : (ts ++ cs).Nodup) : ∃ mem',
    run (applyKernelN ts.length cs.length E) Complex.normSq le (BitVec.ofNat 64 n) mem [] ((ts.map Fin.val).map (BitVec.ofNat 64))
      ((cs.map Fin.val).map (BitVec.ofNat 64)) factor = .ok (0, mem') ∧
      Stores le mem' (fun x => if ∀ c ∈ cs, x c = true then factor * applyOnTargets ts cs E ψ x else ψ x) := by
  obtain ⟨mem', h1, h2⟩ := runOrder_gen (N := ℝ) (applyKernelN ts.length cs.length E) Complex.normSq rfl le hn ts cs hnd rfl rfl
    (gate := []) (by intro h; simp [applyKernelN] at h) (Gv := fun _ _ => 0) (by intro h; simp [applyKernelN] at h)
    factor hm id (fun l => List.Perm.refl l)
  rw [gen_eq_applyMatrix (List.nodup_append.1 hnd).1] at h2
  rw [args_eq, args_eq] at h1
  refine ⟨mem', h1, ?_⟩
  convert h2 using 2 with x
  unfold applyOnTargets
  split
  · simp only [applyKernelN, effective, if_true, Finset.mul_sum, mul_assoc]
  · rfl

theorem chooseN_ok (hn : n ≤ 30) (le : Bool) {mem : List ℂ} {ψ : State n ℂ} (hm : Stores le mem ψ) {ts cs : List (Fin n)}
    (hnd : (ts ++ cs).Nodup) (u : ℝ) :
    ∀ (ops : List (Nat → Nat → ℂ)) (idx : Nat) (acc : ℝ), ops ≠ [] →
    ∃ i, ∃ h : i < ops.length, Stops (ops.map (probN ts cs ψ)) acc u i ∧
      chooseN ts.length cs.length le n mem (ts.map Fin.val) (cs.map Fin.val) u ops idx acc = .ok (((idx + i : Nat) : Int), probN ts cs ψ ops[i])
  | [], _, _, h => absurd rfl h
  | [E], idx, acc, _ => by
    refine ⟨0, by simp, ⟨by simp, by simp, by simp⟩, ?_⟩
    simp only [chooseN, opProbN_ok hn E le hm hnd, ok_bind]
    rfl
  | E :: E' :: rest, idx, acc, _ => by
    unfold chooseN
    simp only [opProbN_ok hn E le hm hnd, ok_bind]
    by_cases h : acc + probN ts cs ψ E > u
    · refine ⟨0, by simp, ⟨by simp, by simp, ?_⟩, ?_⟩
      · intro _; simpa using h
      · simp only [if_pos h]; rfl
    · obtain ⟨i, hi, hs, hc⟩ := chooseN_ok hn le hm hnd u (E' :: rest) (idx + 1) (acc + probN ts cs ψ E) (by simp)
      refine ⟨i + 1, by simpa using hi, ⟨?_, ?_, ?_⟩, ?_⟩
      · simpa using hs.1
      · intro j hj
        cases j with
        | zero => simpa using not_lt.1 h
        | succ j =>
          have := hs.2.1 j (by omega)
          simp only [List.map_cons, List.take_succ_cons, List.sum_cons] at this ⊢
          linarith
      · intro h'
        have := hs.2.2 (by simpa using h')
        simp only [List.map_cons, List.take_succ_cons, List.sum_cons] at this ⊢
        linarith
      · rw [if_neg h, hc]
        simp
        ring

theorem Stops.selectsOrLast {ps : List ℝ} {u : ℝ} {i : Nat} (h : Stops ps 0 u i) (h0 : 0 ≤ u) : SelectsOrLast ps u i := by
  refine ⟨h.1, ?_, ?_⟩
  · cases i with
    | zero => simpa using h0
    | succ i => simpa using h.2.1 i (by omega)
  · by_cases h' : i + 1 < ps.length
    · left; simpa using h.2.2 h'
    · right; have := h.1; omega

/-- The state after operator `E`, with the amplitudes where the controls are set divided by the norm of the result there. -/
noncomputable def collapsedN (ts cs : List (Fin n)) (ψ : State n ℂ) (E : Nat → Nat → ℂ) : State n ℂ :=
  fun x => if ∀ c ∈ cs, x c = true then ((1 / Real.sqrt (probN ts cs ψ E) : ℝ) : ℂ) * applyOnTargets ts cs E ψ x else ψ x

/-- An operator set, for any operators and any random number. -/
theorem opSetN_ok (hn : n ≤ 30) {ops : List (Nat → Nat → ℂ)} (hne : ops ≠ []) (le : Bool) {mem : List ℂ} {ψ : State n ℂ} (hm : Stores le mem ψ)
    {ts cs : List (Fin n)} (hnd : (ts ++ cs).Nodup) {u : ℝ} (h0 : 0 ≤ u) :
    ∃ i, ∃ h : i < ops.length, SelectsOrLast (ops.map (probN ts cs ψ)) u i ∧
      (probN ts cs ψ ops[i] = 0 → ∀ a, opSetN ts.length cs.length ops le a n mem (ts.map Fin.val) (cs.map Fin.val) u = .error .runtimeError) ∧
      (probN ts cs ψ ops[i] ≠ 0 →
        opSetN ts.length cs.length ops le false n mem (ts.map Fin.val) (cs.map Fin.val) u = .ok ((i : Int), mem) ∧
        ∃ mem', opSetN ts.length cs.length ops le true n mem (ts.map Fin.val) (cs.map Fin.val) u = .ok ((i : Int), mem') ∧
          Stores le mem' (collapsedN ts cs ψ ops[i])) := by
  obtain ⟨i, hi, hst, hch⟩ := chooseN_ok hn le hm hnd u ops 0 0 hne
  obtain ⟨mem', e1, e2⟩ := applyKernelN_ok hn ops[i] ((1 / Real.sqrt (probN ts cs ψ ops[i]) : ℝ) : ℂ) le hm hnd
  rw [Nat.zero_add] at hch
  refine ⟨i, hi, hst.selectsOrLast h0, fun hz a => ?_, fun hz => ⟨?_, mem', ?_, e2⟩⟩
  · simp only [opSetN, hch, ok_bind, if_pos hz]
  · simp only [opSetN, hch, ok_bind, if_neg hz]
    rfl
  · simp only [opSetN, hch, ok_bind, if_neg hz, if_true, Int.toNat_natCast, List.getElem?_eq_getElem hi, e1]
    rfl

/-! ## The sets of the simulator -/

theorem choose_eq (le : Bool) (m : Nat) (mem : List ℂ) (t : Nat) (u : ℝ) : ∀ (ops : List (Nat → Nat → ℂ)) (idx : Nat) (acc : ℝ),
    chooseN 1 0 le m mem [t] [] u ops idx acc = choose le m mem t u ops idx acc
  | [], _, _ => rfl
  | [_], _, _ => rfl
  | E :: E' :: rest, idx, acc => by
    have ih := fun a => choose_eq le m mem t u (E' :: rest) (idx + 1) a
    unfold chooseN choose
    simp only [ih]
    rfl

theorem opSet_eq (ops : List (Nat → Nat → ℂ)) (le a : Bool) (m : Nat) (mem : List ℂ) (t : Nat) (u : ℝ) :
    opSetN 1 0 ops le a m mem [t] [] u = opSet ops le a m mem t u := by
  unfold opSetN opSet
  rw [choose_eq]
  rfl

theorem Complete.completeN {ops : List (Nat → Nat → ℂ)} (h : Complete ops) : CompleteN (2 ^ 1) ops := by
  intro a ha b hb
  have h1 : a = (decide (a = 1)).toNat := by have : a = 0 ∨ a = 1 := by omega
                                             rcases this with rfl | rfl <;> rfl
  have h2 : b = (decide (b = 1)).toNat := by have : b = 0 ∨ b = 1 := by omega
                                             rcases this with rfl | rfl <;> rfl
  have := h (decide (a = 1)) (decide (b = 1))
  have e : (decide (a = 1) = decide (b = 1)) ↔ a = b := by
    constructor
    · intro he; rw [h1, h2, he]
    · rintro rfl; rfl
  simp only [bitMat, ← h1, ← h2, Fintype.sum_bool, Bool.toNat_true, Bool.toNat_false, e] at this
  rw [← this]
  simp only [pow_one, Finset.sum_range_succ, Finset.sum_range_zero, zero_add]
  congr 1
  apply List.map_congr_left
  intro E _
  rw [add_comm]

/-! ## The total probability -/

/-- One block: the sum over all operators and rows is the quadratic form of `op_sum`. -/
theorem block_form (size : Nat) (ops : List (Nat → Nat → ℂ)) (a : Nat → ℂ) :
    (((ops.map fun E => ∑ i ∈ Finset.range size, Complex.normSq (∑ j ∈ Finset.range size, E i j * a j)).sum : ℝ) : ℂ) =
      ∑ j ∈ Finset.range size, ∑ l ∈ Finset.range size, (starRingEnd ℂ) (a j) * a l * opSum size ops j l := by
  induction ops with
  | nil => simp [opSum]
  | cons E ops ih =>
    have h1 : ∀ j l, opSum size (E :: ops) j l = (∑ k ∈ Finset.range size, (starRingEnd ℂ) (E k j) * E k l) + opSum size ops j l := by
      intro j l; simp [opSum]
    simp only [List.map_cons, List.sum_cons, ofReal_add, ih, h1, mul_add, Finset.sum_add_distrib]
    congr 1
    push_cast
    have h2 : ∀ i, ((Complex.normSq (∑ j ∈ Finset.range size, E i j * a j) : ℝ) : ℂ) =
        ∑ j ∈ Finset.range size, ∑ l ∈ Finset.range size, (starRingEnd ℂ) (a j) * a l * ((starRingEnd ℂ) (E i j) * E i l) := by
      intro i
      rw [Complex.normSq_eq_conj_mul_self, map_sum, Finset.sum_mul]
      apply Finset.sum_congr rfl
      intro j _
      rw [Finset.mul_sum]
      apply Finset.sum_congr rfl
      intro l _
      rw [map_mul]
      ring
    simp only [h2]
    rw [Finset.sum_comm]
    apply Finset.sum_congr rfl
    intro j _
    rw [Finset.sum_comm]
    apply Finset.sum_congr rfl
    intro l _
    rw [Finset.mul_sum]

/-- One block: an accepted set of operators keeps the norm up to the tolerance. -/
theorem block_close {size : Nat} {ops : List (Nat → Nat → ℂ)} {r t : ℝ} (ht : 0 ≤ t)
    (hc : ∀ a < size, ∀ b < size, ‖opSum size ops a b - (if a = b then 1 else 0)‖ ≤ t + r * ‖(if a = b then 1 else 0 : ℂ)‖) (a : Nat → ℂ) :
    |(ops.map fun E => ∑ i ∈ Finset.range size, Complex.normSq (∑ j ∈ Finset.range size, E i j * a j)).sum -
      ∑ j ∈ Finset.range size, Complex.normSq (a j)| ≤ (r + size * t) * ∑ j ∈ Finset.range size, Complex.normSq (a j) := by
  have h1 := block_form size ops a
  have h2 : ((∑ j ∈ Finset.range size, Complex.normSq (a j) : ℝ) : ℂ) =
      ∑ j ∈ Finset.range size, ∑ l ∈ Finset.range size, (starRingEnd ℂ) (a j) * a l * (if j = l then 1 else 0) := by
    push_cast
    apply Finset.sum_congr rfl
    intro j hj
    rw [Finset.sum_eq_single j]
    · rw [if_pos rfl, mul_one, Complex.normSq_eq_conj_mul_self]
    · intro l _ hne; rw [if_neg (Ne.symm hne), mul_zero]
    · intro h; exact absurd hj h
  have h3 : (((ops.map fun E => ∑ i ∈ Finset.range size, Complex.normSq (∑ j ∈ Finset.range size, E i j * a j)).sum -
      ∑ j ∈ Finset.range size, Complex.normSq (a j) : ℝ) : ℂ) =
      ∑ j ∈ Finset.range size, ∑ l ∈ Finset.range size, (starRingEnd ℂ) (a j) * a l * (opSum size ops j l - (if j = l then 1 else 0)) := by
    rw [ofReal_sub, h1, h2, ← Finset.sum_sub_distrib]
    apply Finset.sum_congr rfl
    intro j _
    rw [← Finset.sum_sub_distrib]
    apply Finset.sum_congr rfl
    intro l _
    ring
  rw [← Real.norm_eq_abs, ← Complex.norm_real, h3]
  have h4 : ‖∑ j ∈ Finset.range size, ∑ l ∈ Finset.range size, (starRingEnd ℂ) (a j) * a l * (opSum size ops j l - (if j = l then 1 else 0))‖ ≤
      ∑ j ∈ Finset.range size, ∑ l ∈ Finset.range size, ‖a j‖ * ‖a l‖ * (t + r * (if j = l then 1 else 0)) := by
    refine (norm_sum_le _ _).trans (Finset.sum_le_sum fun j hj => (norm_sum_le _ _).trans (Finset.sum_le_sum fun l hl => ?_))
    rw [norm_mul, norm_mul, RCLike.norm_conj]
    have hcl := hc j (Finset.mem_range.1 hj) l (Finset.mem_range.1 hl)
    have : ‖(if j = l then 1 else 0 : ℂ)‖ = (if j = l then 1 else 0 : ℝ) := by split <;> simp
    rw [this] at hcl
    exact mul_le_mul_of_nonneg_left hcl (by positivity)
  refine h4.trans ?_
  have h5 : ∑ j ∈ Finset.range size, ∑ l ∈ Finset.range size, ‖a j‖ * ‖a l‖ * (t + r * (if j = l then 1 else 0)) =
      t * (∑ j ∈ Finset.range size, ‖a j‖) ^ 2 + r * ∑ j ∈ Finset.range size, ‖a j‖ ^ 2 := by
    have e : ∀ j ∈ Finset.range size, ∑ l ∈ Finset.range size, ‖a j‖ * ‖a l‖ * (t + r * (if j = l then 1 else 0)) =
        t * (‖a j‖ * ∑ l ∈ Finset.range size, ‖a l‖) + r * ‖a j‖ ^ 2 := by
      intro j hj
      have : ∀ l ∈ Finset.range size, ‖a j‖ * ‖a l‖ * (t + r * (if j = l then 1 else 0)) =
          t * (‖a j‖ * ‖a l‖) + (if j = l then r * (‖a j‖ * ‖a l‖) else 0) := by
        intro l _; split <;> ring
      rw [Finset.sum_congr rfl this, Finset.sum_add_distrib, Finset.sum_ite_eq, if_pos hj, ← Finset.mul_sum, ← Finset.mul_sum]
      ring
    rw [Finset.sum_congr rfl e, Finset.sum_add_distrib, ← Finset.mul_sum, ← Finset.sum_mul, ← Finset.mul_sum]
    ring
  have h6 : (∑ j ∈ Finset.range size, ‖a j‖) ^ 2 ≤ size * ∑ j ∈ Finset.range size, ‖a j‖ ^ 2 := by
    have := sq_sum_le_card_mul_sum_sq (s := Finset.range size) (f := fun j => ‖a j‖)
    simpa using this
  have h7 : ∑ j ∈ Finset.range size, Complex.normSq (a j) = ∑ j ∈ Finset.range size, ‖a j‖ ^ 2 :=
    Finset.sum_congr rfl fun j _ => Complex.normSq_eq_norm_sq _
  rw [h5, h7]
  nlinarith [mul_le_mul_of_nonneg_left h6 ht]

/-- The result of a matrix in a block. -/
theorem applyMatrix_setT {ts cs : List (Fin n)} (hnd : (ts ++ cs).Nodup) {r : Basis n} (hr : ∀ c ∈ cs, r c = true) (E : Nat → Nat → ℂ)
    (ψ : State n ℂ) {i : Nat} (hi : i < 2 ^ ts.length) :
    applyOnTargets ts cs E ψ (setT ts i r) = ∑ j ∈ Finset.range (2 ^ ts.length), E i j * ψ (setT ts j r) := by
  have hnd1 : ts.Nodup := (List.nodup_append.1 hnd).1
  have hdis : ∀ c ∈ cs, c ∉ ts := fun c hc ht => (List.nodup_append.1 hnd).2.2 c ht c hc rfl
  rw [← gen_eq_applyMatrix hnd1]
  unfold gen
  rw [if_pos (fun c hc => by rw [setT_not_mem (hdis c hc)]; exact hr c hc), sub_setT hnd1 hi]
  apply Finset.sum_congr rfl
  intro j _
  rw [setT_setT]

/-- The total probability of a set of operators. -/
theorem total_close {ops : List (Nat → Nat → ℂ)} {ts cs : List (Fin n)} (hnd : (ts ++ cs).Nodup) {r t : ℝ} (ht : 0 ≤ t)
    (hc : ∀ a < 2 ^ ts.length, ∀ b < 2 ^ ts.length,
      ‖opSum (2 ^ ts.length) ops a b - (if a = b then 1 else 0)‖ ≤ t + r * ‖(if a = b then 1 else 0 : ℂ)‖) (ψ : State n ℂ) :
    |(ops.map (probN ts cs ψ)).sum - normWhere cs ψ| ≤ (r + 2 ^ ts.length * t) * normWhere cs ψ := by
  have hb : ∀ φ : State n ℂ, normWhere cs φ = ∑ r with ((∀ c ∈ cs, r c = true) ∧ setT ts 0 r = r),
      ∑ i ∈ Finset.range (2 ^ ts.length), Complex.normSq (φ (setT ts i r)) := fun φ => sum_blocks hnd _
  have hs : (ops.map (probN ts cs ψ)).sum = ∑ r with ((∀ c ∈ cs, r c = true) ∧ setT ts 0 r = r),
      (ops.map fun E => ∑ i ∈ Finset.range (2 ^ ts.length),
        Complex.normSq (∑ j ∈ Finset.range (2 ^ ts.length), E i j * ψ (setT ts j r))).sum := by
    clear hc
    induction ops with
    | nil => simp
    | cons E ops ih =>
      simp only [List.map_cons, List.sum_cons, ih, Finset.sum_add_distrib]
      congr 1
      unfold probN
      rw [hb]
      apply Finset.sum_congr rfl
      intro r hr
      simp only [Finset.mem_filter, Finset.mem_univ, true_and] at hr
      apply Finset.sum_congr rfl
      intro i hi
      rw [applyMatrix_setT hnd hr.1 E ψ (Finset.mem_range.1 hi)]
  rw [hs, hb ψ, ← Finset.sum_sub_distrib, Finset.mul_sum]
  refine (Finset.abs_sum_le_sum_abs _ _).trans (Finset.sum_le_sum fun r _ => ?_)
  have := block_close ht hc (fun j => ψ (setT ts j r))
  simpa using this

theorem total_complete {ops : List (Nat → Nat → ℂ)} {ts cs : List (Fin n)} (hnd : (ts ++ cs).Nodup) (hc : CompleteN (2 ^ ts.length) ops)
    (ψ : State n ℂ) : (ops.map (probN ts cs ψ)).sum = normWhere cs ψ := by
  have h := total_close hnd (r := 0) (t := 0) (le_refl _) (ops := ops) (by
    intro a ha b hb
    have := hc a ha b hb
    have e : opSum (2 ^ ts.length) ops a b = if a = b then 1 else 0 := this
    rw [e]; simp) ψ
  simp only [mul_zero, add_zero, zero_mul] at h
  have := abs_eq_zero.1 (le_antisymm h (abs_nonneg _))
  linarith

theorem normWhere_nil (ψ : State n ℂ) : normWhere [] ψ = Spec.normSq ψ := by
  unfold normWhere Spec.normSq
  simp

/-- The norm after an operator: 1 from the part where the controls are set, and the unchanged rest. -/
theorem collapsedN_norm {ts cs : List (Fin n)} (ψ : State n ℂ) (E : Nat → Nat → ℂ) (h : probN ts cs ψ E ≠ 0) :
    Spec.normSq (collapsedN ts cs ψ E) = 1 + (Spec.normSq ψ - normWhere cs ψ) := by
  have hpos : 0 < probN ts cs ψ E := lt_of_le_of_ne (probN_nonneg ..) (Ne.symm h)
  have split : ∀ φ : State n ℂ, Spec.normSq φ = normWhere cs φ + ∑ x with ¬ (∀ c ∈ cs, x c = true), Complex.normSq (φ x) :=
    fun φ => (Finset.sum_filter_add_sum_filter_not _ _ _).symm
  rw [split (collapsedN ts cs ψ E), split ψ]
  have h1 : normWhere cs (collapsedN ts cs ψ E) = 1 := by
    have : normWhere cs (collapsedN ts cs ψ E) = Complex.normSq ((1 / Real.sqrt (probN ts cs ψ E) : ℝ) : ℂ) * probN ts cs ψ E := by
      unfold probN normWhere
      rw [Finset.mul_sum]
      apply Finset.sum_congr rfl
      intro x hx
      rw [Finset.mem_filter] at hx
      unfold collapsedN
      rw [if_pos hx.2, Complex.normSq_mul]
      rfl
    rw [this, Complex.normSq_ofReal]
    have hs := Real.mul_self_sqrt hpos.le
    have hsp : 0 < Real.sqrt (probN ts cs ψ E) := Real.sqrt_pos.2 hpos
    generalize Real.sqrt (probN ts cs ψ E) = s at *
    rw [← hs]
    field_simp
  have h2 : ∑ x with ¬ (∀ c ∈ cs, x c = true), Complex.normSq (collapsedN ts cs ψ E x) =
      ∑ x with ¬ (∀ c ∈ cs, x c = true), Complex.normSq (ψ x) := by
    apply Finset.sum_congr rfl
    intro x hx
    rw [Finset.mem_filter] at hx
    unfold collapsedN
    rw [if_neg hx.2]
  rw [h1, h2]
  ring

theorem SelectsOrLast.selects {ps : List ℝ} {u : ℝ} {i : Nat} (h : SelectsOrLast ps u i) (h1 : u < ps.sum) : Selects ps u i := by
  refine ⟨h.1, h.2.1, ?_⟩
  rcases h.2.2 with h' | h'
  · exact h'
  · rw [h', List.take_length]; exact h1

end DG.Sim
