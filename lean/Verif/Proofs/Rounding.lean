import Verif.Spec.Rounding
import Verif.Proofs.SimFinal
import Mathlib.Analysis.InnerProductSpace.PiL2

/-! # Rounding errors -/

noncomputable section

namespace DG.Sim
open Complex Spec Kernel Props

variable {n : Nat} {A : Arith} {ε η δ : ℝ}

/-! ## Kernels for any arithmetic -/

/-- The kernels with one target and the matrix in memory. -/
theorem computes_gate (op : OpSpec (Fl A)) (h1 : op.numTargets = 1) (h2 : op.precompiled = none) (h3 : op.collectNorm = false) (h4 : op.scale = false)
    (h5 : op.mask = fun _ _ => true)
    (g : Bool → Bool → ℂ) (factor : Fl A) :
    Computes op ([g false false, g false true, g true false, g true true] : List ℂ) factor
      (fun a i => A.add (A.mul (g (i.testBit 0) false) (a 0)) (A.mul (g (i.testBit 0) true) (a 1))) := by
  have hsz : op.size = 2 := by unfold OpSpec.size; rw [h1]; rfl
  have hins : op.instructions = [(0, [(0, .var 0 0), (1, .var 0 1)]), (1, [(0, .var 1 0), (1, .var 1 1)])] := by
    unfold OpSpec.instructions
    rw [h2, hsz, h5]
    rfl
  have hdep : dependents op.size op.instructions = [0, 1] := by
    rw [hins, hsz]; rfl
  refine ⟨fun a => ?_, fun a i hi h => ?_, fun u w h i _ => ?_⟩
  · rw [hdep, hins]
    simp only [List.mapM_cons, List.mapM_nil, List.map_cons, List.map_nil, ampResult, hsz, h4]
    rfl
  · rw [hsz] at hi
    rw [hins] at h
    exfalso
    apply h
    simp only [List.map_cons, List.map_nil, List.mem_cons, List.not_mem_nil, or_false]
    omega
  · rw [h 0 (by rw [hsz]; omega), h 1 (by rw [hsz]; omega)]

/-- The kernels that exchange two targets. -/
theorem computes_swap (op : OpSpec (Fl A)) (h1 : op.numTargets = 2) (h2 : op.precompiled = some swapMatrix) (h3 : op.collectNorm = false)
    (h4 : op.scale = false) (gate : List (Fl A)) (factor : Fl A) :
    Computes op gate factor (fun a i => if i = 1 then a 2 else if i = 2 then a 1 else a i) := by
  have hsz : op.size = 4 := by unfold OpSpec.size; rw [h1]; rfl
  have h10 : (1 : Fl A) ≠ 0 := (one_ne_zero : (1 : ℂ) ≠ 0)
  have hins : op.instructions = [(1, [(2, .num 1)]), (2, [(1, .num 1)])] := by
    unfold OpSpec.instructions
    rw [h2, hsz, h3, h4]
    have hr : List.range 4 = [0, 1, 2, 3] := rfl
    simp [compileGate, hr, Entry.nonzero, Entry.isOne, swapMatrix, h10]
  have hdep : dependents op.size op.instructions = [1, 2] := by
    rw [hins, hsz]; rfl
  refine ⟨fun a => ?_, fun a i hi h => ?_, fun u w h i hi => ?_⟩
  · rw [hdep, hins]
    simp [List.mapM_cons, ampResult, term, PyDict.get?, Entry.isOne, h4, sumTerms, bind, Except.bind, pure, Except.pure]
  · rw [hins] at h
    simp only [List.map_cons, List.map_nil, List.mem_cons, List.not_mem_nil, or_false, not_or] at h
    simp only [h.1, h.2, if_false]
  · rw [hsz] at h hi
    split
    · exact h 2 (by omega)
    · split
      · exact h 1 (by omega)
      · exact h i hi

/-- What a gate with matrix `g` does to a state with the given arithmetic. -/
def gateBy (A : Arith) (cs : List (Fin n)) (t : Fin n) (g : Bool → Bool → ℂ) (ψ : State n ℂ) : State n ℂ :=
  fun x => if ∀ c ∈ cs, x c = true then
    A.add (A.mul (g (x t) false) (ψ (Function.update x t false))) (A.mul (g (x t) true) (ψ (Function.update x t true))) else ψ x

theorem callKernelBy_eq {op : OpSpec (Fl A)} {le : Bool} {mem gate mem' : List (Fl A)} {targets controls : List (Fin n)} {r : ℝ}
    (h : run (N := ℝ) op Complex.normSq le (BitVec.ofNat 64 n) mem gate (args targets) (args controls) 1 = .ok (r, mem')) :
    callKernelBy A op le n mem gate (targets.map Fin.val) (controls.map Fin.val) = .ok mem' := by
  rw [args_eq, args_eq] at h
  unfold callKernelBy
  rw [h]
  rfl

theorem kernelBy_gate (op : OpSpec (Fl A)) (h1 : op.numTargets = 1) (h2 : op.precompiled = none) (h3 : op.collectNorm = false) (h4 : op.scale = false)
    (h5 : op.mask = fun _ _ => true)
    (le : Bool) (hn : n ≤ 30) (t : Fin n) (cs : List (Fin n)) (hnd : (t :: cs).Nodup) (hcs : op.numControls = cs.length) (g : Bool → Bool → ℂ)
    {mem : List (Fl A)} {ψ : State n ℂ} (hm : Stores (R := ℂ) le mem ψ) :
    ∃ mem', callKernelBy A op le n mem ([g false false, g false true, g true false, g true true] : List ℂ) [t.val] (cs.map Fin.val) = .ok mem' ∧
      Stores (R := ℂ) le mem' (gateBy A cs t g ψ) := by
  obtain ⟨mem', e1, e2⟩ := runOrder_state (N := ℝ) op Complex.normSq h3 le hn [t] cs hnd h1 hcs
    (fun _ => by unfold OpSpec.size; rw [h1]; rfl) (computes_gate op h1 h2 h3 h4 h5 g 1) (show Stores (R := Fl A) le mem ψ from hm) id (fun l => .refl l)
  refine ⟨mem', callKernelBy_eq (targets := [t]) e1, ?_⟩
  have e0 : ∀ x : Basis n, setT [t] 0 x = Function.update x t false := by
    intro x
    funext q; by_cases h : q = t
    · subst h; simp [setT]
    · simp [setT, h]
  have e1 : ∀ x : Basis n, setT [t] 1 x = Function.update x t true := by
    intro x
    funext q; by_cases h : q = t
    · subst h; simp [setT]
    · simp [setT, h]
  have hs : ∀ x : Basis n, (sub [t] x).testBit 0 = x t := by
    intro x
    simp only [sub]
    rw [Nat.testBit_ofBits_lt _ _ (by simp)]
    rfl
  have : (fun x => if ∀ c ∈ cs, x c = true then (fun (a : Nat → Fl A) (i : Nat) =>
      A.add (A.mul (g (i.testBit 0) false) (a 0)) (A.mul (g (i.testBit 0) true) (a 1))) (fun j => ψ (setT [t] j x)) (sub [t] x) else ψ x) =
      gateBy A cs t g ψ := by
    funext x
    unfold gateBy
    simp only [hs, e0, e1]
  rw [← this]
  exact e2

theorem kernelBy_swap (op : OpSpec (Fl A)) (h1 : op.numTargets = 2) (h2 : op.precompiled = some swapMatrix) (h3 : op.collectNorm = false)
    (h4 : op.scale = false) (le : Bool) (hn : n ≤ 30) (a b : Fin n) (cs : List (Fin n)) (hnd : (a :: b :: cs).Nodup) (hcs : op.numControls = cs.length)
    (gate : List (Fl A)) {mem : List (Fl A)} {ψ : State n ℂ} (hm : Stores (R := ℂ) le mem ψ) :
    ∃ mem', callKernelBy A op le n mem gate [a.val, b.val] (cs.map Fin.val) = .ok mem' ∧
      Stores (R := ℂ) le mem' (fun x => if ∀ c ∈ cs, x c = true then applySwap a b ψ x else ψ x) := by
  obtain ⟨mem', e1, e2⟩ := runOrder_state (N := ℝ) op Complex.normSq h3 le hn [a, b] cs hnd h1 hcs
    (fun h => by rw [h2] at h; cases h) (computes_swap op h1 h2 h3 h4 gate 1) (show Stores (R := Fl A) le mem ψ from hm) id (fun l => .refl l)
  refine ⟨mem', callKernelBy_eq (targets := [a, b]) e1, ?_⟩
  have hab : a ≠ b := by simp only [List.nodup_cons, List.mem_cons, not_or] at hnd; exact hnd.1.1
  have hset : ∀ (x : Basis n) (u v : Bool), setT [a, b] (u.toNat + 2 * v.toNat) x = Function.update (Function.update x a u) b v := by
    intro x u v
    funext q
    by_cases h1 : q = b
    · subst h1
      cases u <;> cases v <;> simp [setT, List.idxOf_cons, hab, Nat.testBit_succ]
    · by_cases h2 : q = a
      · subst h2
        cases u <;> cases v <;> simp [setT, Function.update_of_ne hab]
      · simp [setT, h1, h2]
  have hsw : ∀ x : Basis n, x ∘ Equiv.swap a b = Function.update (Function.update x a (x b)) b (x a) := by
    intro x
    funext q
    simp only [Function.comp_apply]
    by_cases h1 : q = b
    · subst h1; simp
    · by_cases h2 : q = a
      · subst h2; simp [Function.update_of_ne h1]
      · simp [h1, h2, Equiv.swap_apply_of_ne_of_ne h2 h1]
  have hs : ∀ x : Basis n, sub [a, b] x = (x a).toNat + 2 * (x b).toNat := by
    intro x
    simp [sub, Nat.ofBits_succ]; omega
  have : (fun x => if ∀ c ∈ cs, x c = true then (fun (a : Nat → Fl A) (i : Nat) => if i = 1 then a 2 else if i = 2 then a 1 else a i)
      (fun j => ψ (setT [a, b] j x)) (sub [a, b] x) else ψ x) = fun x => if ∀ c ∈ cs, x c = true then applySwap a b ψ x else ψ x := by
    funext x
    unfold applySwap
    rw [hsw, ← hset x (x b) (x a), hs]
    by_cases hx : ∀ c ∈ cs, x c = true
    · refine (if_pos hx).trans (Eq.trans ?_ (if_pos hx).symm)
      cases x a <;> cases x b <;> rfl
    · exact (if_neg hx).trans (if_neg hx).symm
  rw [← this]
  exact e2

/-! ## Norms -/

/-- Euclidean norm. -/
def nrm (ψ : State n ℂ) : ℝ := Real.sqrt (Spec.normSq ψ)

theorem nrm_eq (ψ : State n ℂ) : nrm ψ = ‖(WithLp.toLp 2 ψ : EuclideanSpace ℂ (Basis n))‖ := by
  rw [EuclideanSpace.norm_eq]
  unfold nrm Spec.normSq
  congr 1
  exact Finset.sum_congr rfl fun x _ => by rw [Complex.normSq_eq_norm_sq]

theorem nrm_add (ψ φ : State n ℂ) : nrm (fun x => ψ x + φ x) ≤ nrm ψ + nrm φ := by
  rw [nrm_eq, nrm_eq, nrm_eq]
  exact norm_add_le (WithLp.toLp 2 ψ : EuclideanSpace ℂ (Basis n)) (WithLp.toLp 2 φ)

theorem nrm_nonneg (ψ : State n ℂ) : 0 ≤ nrm ψ := Real.sqrt_nonneg _

theorem nrm_mono {ψ φ : State n ℂ} (h : ∀ x, ‖ψ x‖ ≤ ‖φ x‖) : nrm ψ ≤ nrm φ := by
  refine Real.sqrt_le_sqrt (Finset.sum_le_sum fun x _ => ?_)
  rw [Complex.normSq_eq_norm_sq, Complex.normSq_eq_norm_sq]
  exact pow_le_pow_left₀ (norm_nonneg _) (h x) 2

theorem nrm_smul (r : ℝ) (hr : 0 ≤ r) (ψ : State n ℂ) : nrm (fun x => (r : ℂ) * ψ x) = r * nrm ψ := by
  rw [nrm_eq, nrm_eq]
  have := norm_smul (r : ℂ) (WithLp.toLp 2 ψ : EuclideanSpace ℂ (Basis n))
  rw [Complex.norm_of_nonneg hr] at this
  exact this

theorem norm_le_nrm (ψ : State n ℂ) (x : Basis n) : ‖ψ x‖ ≤ nrm ψ := by
  rw [nrm_eq]
  exact PiLp.norm_apply_le (WithLp.toLp 2 ψ : EuclideanSpace ℂ (Basis n)) x

theorem nrm_const (r : ℝ) (hr : 0 ≤ r) : nrm (fun _ : Basis n => (r : ℂ)) = r * Real.sqrt (2 ^ n) := by
  unfold nrm Spec.normSq
  have : (∑ _x : Basis n, Complex.normSq (r : ℂ)) = r ^ 2 * 2 ^ n := by
    rw [Finset.sum_const, Finset.card_univ]
    simp only [Complex.normSq_ofReal, Fintype.card_pi, Fintype.card_bool, Finset.prod_const, Finset.card_univ, Fintype.card_fin, nsmul_eq_mul]
    push_cast
    ring
  rw [this, Real.sqrt_mul (sq_nonneg r), Real.sqrt_sq hr]

theorem nrm_flip (t : Fin n) (ψ : State n ℂ) : nrm (fun x => ψ (flipAt t x)) = nrm ψ := by
  unfold nrm Spec.normSq
  rw [sum_flip t fun x => Complex.normSq (ψ x)]

theorem stateDist_eq (φ ψ : State n ℂ) : stateDist φ ψ = nrm fun x => φ x - ψ x := rfl

/-! ## One gate -/

/-- The entries of a unitary matrix have absolute value at most 1. -/
theorem entry_le {a : Arr2} (h : Cols a) (i j : Bool) : ‖gateOf a i j‖ ≤ 1 := by
  have h1 := pair_norm h 1 0
  have h2 := pair_norm h 0 1
  simp only [mul_one, mul_zero, add_zero, zero_add, map_one, map_zero] at h1 h2
  have key : ∀ z : ℂ, Complex.normSq z ≤ 1 → ‖z‖ ≤ 1 := by
    intro z hz
    rw [Complex.normSq_eq_norm_sq] at hz
    exact (sq_le_one_iff₀ (norm_nonneg _)).1 hz
  have n00 := Complex.normSq_nonneg a.e00
  have n01 := Complex.normSq_nonneg a.e01
  have n10 := Complex.normSq_nonneg a.e10
  have n11 := Complex.normSq_nonneg a.e11
  cases i <;> cases j <;> refine key _ ?_ <;> simp only [gateOf] <;> linarith

/-- The rounding error of one new amplitude. -/
theorem amp_error (hA : Accurate A ε η) (hε : 0 ≤ ε) (hε1 : ε ≤ 1 / 8) (hη : 0 ≤ η) (hη1 : η ≤ 1) (hδ : 0 ≤ δ) (hδ1 : δ ≤ 1 / 8)
    {g0 g1 g0' g1' a0 a1 : ℂ} (h0 : ‖g0‖ ≤ 1) (h1 : ‖g1‖ ≤ 1) (h0' : ‖g0' - g0‖ ≤ δ) (h1' : ‖g1' - g1‖ ≤ δ) (ha0 : ‖a0‖ ≤ 2) (ha1 : ‖a1‖ ≤ 2) :
    ‖A.add (A.mul g0' a0) (A.mul g1' a1) - (g0 * a0 + g1 * a1)‖ ≤ (3 * ε + δ) * (‖a0‖ + ‖a1‖) + 4 * η := by
  have hk : ∀ {g g' a : ℂ}, ‖g‖ ≤ 1 → ‖g' - g‖ ≤ δ → ‖a‖ ≤ 2 → ‖A.mul g' a - g * a‖ ≤ (9 / 8 * ε + δ) * ‖a‖ + η ∧ ‖A.mul g' a‖ ≤ 4 ∧
      ‖A.mul g' a‖ ≤ (1 + 9 / 8 * ε + δ) * ‖a‖ + η := by
    intro g g' a hg hg' ha
    have n1 : ‖g'‖ ≤ 9 / 8 := by
      have := norm_le_norm_sub_add g' g
      linarith
    have n2 := hA.mul g' a (by linarith) (by linarith)
    have n3 : ‖g' * a - g * a‖ ≤ δ * ‖a‖ := by
      rw [← sub_mul, norm_mul]
      exact mul_le_mul_of_nonneg_right hg' (norm_nonneg _)
    have na := norm_nonneg a
    have n4 : ‖A.mul g' a - g * a‖ ≤ (9 / 8 * ε + δ) * ‖a‖ + η := by
      have e : A.mul g' a - g * a = (A.mul g' a - g' * a) + (g' * a - g * a) := by ring
      have h1 : ‖g'‖ * ‖a‖ ≤ 9 / 8 * ‖a‖ := mul_le_mul_of_nonneg_right n1 na
      have h2 : ε * (‖g'‖ * ‖a‖) ≤ ε * (9 / 8 * ‖a‖) := mul_le_mul_of_nonneg_left h1 hε
      calc ‖A.mul g' a - g * a‖ ≤ ‖A.mul g' a - g' * a‖ + ‖g' * a - g * a‖ := by rw [e]; exact norm_add_le _ _
        _ ≤ (ε * (‖g'‖ * ‖a‖) + η) + δ * ‖a‖ := add_le_add n2 n3
        _ ≤ _ := by nlinarith
    have n5 : ‖A.mul g' a‖ ≤ (1 + 9 / 8 * ε + δ) * ‖a‖ + η := by
      have h1 : ‖g * a‖ ≤ ‖a‖ := by
        rw [norm_mul]
        calc ‖g‖ * ‖a‖ ≤ 1 * ‖a‖ := mul_le_mul_of_nonneg_right hg na
          _ = ‖a‖ := one_mul _
      have h2 := norm_le_norm_sub_add (A.mul g' a) (g * a)
      linarith
    refine ⟨n4, ?_, n5⟩
    have : (1 + 9 / 8 * ε + δ) * ‖a‖ ≤ (1 + 9 / 8 * (1 / 8) + 1 / 8) * 2 := mul_le_mul (by linarith) ha na (by linarith)
    linarith
  obtain ⟨b1, b2, b3⟩ := hk h0 h0' ha0
  obtain ⟨c1, c2, c3⟩ := hk h1 h1' ha1
  have d := hA.add _ _ b2 c2
  have na0 := norm_nonneg a0
  have na1 := norm_nonneg a1
  have hs : ‖A.mul g0' a0 + A.mul g1' a1‖ ≤ (1 + 9 / 8 * ε + δ) * (‖a0‖ + ‖a1‖) + 2 * η := by
    refine (norm_add_le _ _).trans ?_
    linarith
  have hs' : ε * ‖A.mul g0' a0 + A.mul g1' a1‖ ≤ ε * ((1 + 9 / 8 * ε + δ) * (‖a0‖ + ‖a1‖) + 2 * η) := mul_le_mul_of_nonneg_left hs hε
  have e : A.add (A.mul g0' a0) (A.mul g1' a1) - (g0 * a0 + g1 * a1) =
      (A.add (A.mul g0' a0) (A.mul g1' a1) - (A.mul g0' a0 + A.mul g1' a1)) + (A.mul g0' a0 - g0 * a0) + (A.mul g1' a1 - g1 * a1) := by ring
  have t : ‖A.add (A.mul g0' a0) (A.mul g1' a1) - (g0 * a0 + g1 * a1)‖ ≤
      (ε * ‖A.mul g0' a0 + A.mul g1' a1‖ + η) + ((9 / 8 * ε + δ) * ‖a0‖ + η) + ((9 / 8 * ε + δ) * ‖a1‖ + η) := by
    rw [e]
    refine (norm_add_le _ _).trans (add_le_add ((norm_add_le _ _).trans (add_le_add d b1)) c1)
  refine t.trans ?_
  have hS : 0 ≤ ‖a0‖ + ‖a1‖ := by linarith
  have q1 : ε * (1 + 9 / 8 * ε + δ) ≤ ε * (15 / 8) := mul_le_mul_of_nonneg_left (by linarith) hε
  have q2 : ε * (1 + 9 / 8 * ε + δ) * (‖a0‖ + ‖a1‖) ≤ ε * (15 / 8) * (‖a0‖ + ‖a1‖) := mul_le_mul_of_nonneg_right q1 hS
  have q3 : ε * η ≤ 1 / 8 * η := mul_le_mul_of_nonneg_right hε1 hη
  nlinarith

end DG.Sim
