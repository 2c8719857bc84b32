import Verif.Proofs.SimGate
import Verif.Spec.Kraus
import Mathlib.Algebra.Order.BigOperators.Ring.Finset

/-! # Operator sets: choice by cumulative probability, normalisation -/

namespace DG.Sim
open Complex Spec Kernel Props

variable {n : Nat}

theorem opProb_ok (hn : n ≤ 30) (E : Nat → Nat → ℂ) (le : Bool) {mem : List ℂ} {ψ : State n ℂ} (hm : Stores le mem ψ)
    (t : Fin n) : opProb E le n mem t.val = .ok (prob t ψ E) := by
  have h := run_norm (N := ℝ) (normKernel E) Complex.normSq (by simp) rfl rfl (G := E) rfl le hn [t] (by simp) rfl rfl [] 1 hm
  rw [gen_single, applyControlled_nil] at h
  unfold opProb
  rw [show [BitVec.ofNat 64 t.val] = args [t] from rfl]
  rw [h]
  rfl

theorem applyKernel_ok (hn : n ≤ 30) (E : Nat → Nat → ℂ) (factor : ℂ) (le : Bool) {mem : List ℂ} {ψ : State n ℂ}
    (hm : Stores le mem ψ) (t : Fin n) : ∃ mem',
    run (applyKernel E) Complex.normSq le (BitVec.ofNat 64 n) mem [] [BitVec.ofNat 64 t.val] [] factor = .ok (0, mem') ∧
      Stores le mem' (fun x => factor * applyGate t (bitMat E) ψ x) := by
  obtain ⟨mem', h1, h2⟩ := runOrder_gen (N := ℝ) (applyKernel E) Complex.normSq rfl le hn [t] [] (by simp) rfl rfl
    (gate := []) (by intro h; simp [applyKernel] at h) (Gv := fun _ _ => 0) (by intro h; simp [applyKernel] at h)
    factor hm id (fun l => List.Perm.refl l)
  rw [gen_single, applyControlled_nil] at h2
  refine ⟨mem', h1, ?_⟩
  have : (fun x => factor * applyGate t (bitMat E) ψ x) = applyGate t (fun a b : Bool =>
      if (applyKernel E).scale = true then factor * effective (applyKernel E) (fun _ _ => 0) a.toNat b.toNat
      else effective (applyKernel E) (fun _ _ => 0) a.toNat b.toNat) ψ := by
    funext x
    simp only [applyGate, applyKernel, effective, bitMat, Finset.mul_sum, if_true, mul_assoc]
  rw [this]
  exact h2

/-- What the chain of `if` blocks selects: the first index whose cumulative sum exceeds `u`, or the last. -/
def Stops (ps : List ℝ) (acc u : ℝ) (i : Nat) : Prop :=
  i < ps.length ∧ (∀ j < i, acc + (ps.take (j + 1)).sum ≤ u) ∧ (i + 1 < ps.length → u < acc + (ps.take (i + 1)).sum)

theorem choose_ok (hn : n ≤ 30) (le : Bool) {mem : List ℂ} {ψ : State n ℂ} (hm : Stores le mem ψ) (t : Fin n) (u : ℝ) :
    ∀ (ops : List (Nat → Nat → ℂ)) (idx : Nat) (acc : ℝ), ops ≠ [] →
    ∃ i, ∃ h : i < ops.length, Stops (ops.map (prob t ψ)) acc u i ∧
      choose le n mem t.val u ops idx acc = .ok (((idx + i : Nat) : Int), prob t ψ ops[i])
  | [], _, _, h => absurd rfl h
  | [E], idx, acc, _ => by
    refine ⟨0, by simp, ⟨by simp, by simp, by simp⟩, ?_⟩
    simp only [choose, opProb_ok hn E le hm t, ok_bind]
    rfl
  | E :: E' :: rest, idx, acc, _ => by
    unfold choose
    simp only [opProb_ok hn E le hm t, ok_bind]
    by_cases h : acc + prob t ψ E > u
    · refine ⟨0, by simp, ⟨by simp, by simp, ?_⟩, ?_⟩
      · intro _; simpa using h
      · simp only [if_pos h]; rfl
    · obtain ⟨i, hi, hs, hc⟩ := choose_ok hn le hm t u (E' :: rest) (idx + 1) (acc + prob t ψ E) (by simp)
      refine ⟨i + 1, by simpa using hi, ⟨?_, ?_, ?_⟩, ?_⟩
      · simpa using hs.1
      · intro j hj
        cases j with
        | zero => simpa using not_lt.1 h
        | succ j =>
          have := hs.2.1 j (by omega)
          simp only [List.map_cons, List.take_succ_cons, List.sum_cons] at this ⊢
          linarith
      · intro h'
        have := hs.2.2 (by simpa using h')
        simp only [List.map_cons, List.take_succ_cons, List.sum_cons] at this ⊢
        linarith
      · rw [if_neg h, hc]
        simp
        ring

theorem prob_nonneg (t : Fin n) (ψ : State n ℂ) (E : Nat → Nat → ℂ) : 0 ≤ prob t ψ E :=
  Finset.sum_nonneg (fun x _ => Complex.normSq_nonneg _)

/-- A complete set of operators preserves the total probability. -/
theorem sum_prob {ops : List (Nat → Nat → ℂ)} (hc : Complete ops) (t : Fin n) (ψ : State n ℂ) :
    (ops.map (prob t ψ)).sum = Spec.normSq ψ := by
  have hsum : ∀ l : List (Nat → Nat → ℂ), (l.map (prob t ψ)).sum =
      ∑ x, (l.map fun E => Complex.normSq (applyGate t (bitMat E) ψ x)).sum := by
    intro l
    induction l with
    | nil => simp
    | cons E l ih =>
      simp only [List.map_cons, List.sum_cons, Finset.sum_add_distrib, ih]
      rfl
  rw [hsum]
  apply sum_eq_of_pairs t
  -- the pair identity for a list
  have pair : ∀ (l : List (Nat → Nat → ℂ)) (p q : ℂ),
      (((l.map fun E => Complex.normSq (bitMat E false false * p + bitMat E false true * q)).sum +
        (l.map fun E => Complex.normSq (bitMat E true false * p + bitMat E true true * q)).sum : ℝ) : ℂ) =
      star p * p * (l.map fun E => ∑ k : Bool, star (bitMat E k false) * bitMat E k false).sum +
      star q * q * (l.map fun E => ∑ k : Bool, star (bitMat E k true) * bitMat E k true).sum +
      star p * q * (l.map fun E => ∑ k : Bool, star (bitMat E k false) * bitMat E k true).sum +
      star q * p * (l.map fun E => ∑ k : Bool, star (bitMat E k true) * bitMat E k false).sum := by
    intro l p q
    induction l with
    | nil => simp
    | cons E l ih =>
      simp only [List.map_cons, List.sum_cons, ofReal_add, Fintype.sum_bool, normSq_cast, star_add, star_mul'] at ih ⊢
      linear_combination ih
  have key : ∀ p q : ℂ, (ops.map fun E => Complex.normSq (bitMat E false false * p + bitMat E false true * q)).sum +
        (ops.map fun E => Complex.normSq (bitMat E true false * p + bitMat E true true * q)).sum =
        Complex.normSq p + Complex.normSq q := by
    intro p q
    have h := pair ops p q
    rw [hc false false, hc true true, hc false true, hc true false] at h
    simp only [if_true, Bool.false_eq_true, Bool.true_eq_false, if_false, mul_one, mul_zero, add_zero] at h
    have h2 : ((Complex.normSq p + Complex.normSq q : ℝ) : ℂ) = star p * p + star q * q := by
      rw [ofReal_add]; simp only [normSq_cast]
    rw [← h2] at h
    exact_mod_cast h
  have gf : ∀ (x : Basis n) (E : Nat → Nat → ℂ), x t = false → applyGate t (bitMat E) ψ x =
      bitMat E false false * ψ x + bitMat E false true * ψ (flipAt t x) := by
    intro x E h
    have : Function.update x t false = x := by rw [← h]; simp
    simp only [applyGate, Fintype.sum_bool, h, this, flipAt, Bool.not_false]
    ring
  have gt : ∀ (x : Basis n) (E : Nat → Nat → ℂ), x t = true → applyGate t (bitMat E) ψ x =
      bitMat E true false * ψ (flipAt t x) + bitMat E true true * ψ x := by
    intro x E h
    have : Function.update x t true = x := by rw [← h]; simp
    simp only [applyGate, Fintype.sum_bool, h, this, flipAt, Bool.not_true]
    ring
  intro x
  cases hb : x t
  · have h1 : ∀ E, _ := fun E => gf x E hb
    have h2 : ∀ E, _ := fun E => gt (flipAt t x) E (by simp [flipAt_self, hb])
    simp only [h1, h2, flipAt_invol]
    exact key _ _
  · have h1 : ∀ E, _ := fun E => gt x E hb
    have h2 : ∀ E, _ := fun E => gf (flipAt t x) E (by simp [flipAt_self, hb])
    simp only [h1, h2, flipAt_invol]
    rw [add_comm, key, add_comm]

theorem sum_take_succ (ps : List ℝ) {i : Nat} (h : i < ps.length) : (ps.take (i + 1)).sum = (ps.take i).sum + ps[i] := by
  have : ps.take (i + 1) = ps.take i ++ [ps[i]] := by
    rw [List.take_add_one, List.getElem?_eq_getElem h]; rfl
  rw [this, List.sum_append]
  simp

theorem Stops.selects {ps : List ℝ} {u : ℝ} {i : Nat} (h : Stops ps 0 u i) (h0 : 0 ≤ u) (h1 : u < ps.sum) :
    Selects ps u i := by
  refine ⟨h.1, ?_, ?_⟩
  · cases i with
    | zero => simpa using h0
    | succ i => simpa using h.2.1 i (by omega)
  · by_cases h' : i + 1 < ps.length
    · simpa using h.2.2 h'
    · have : i + 1 = ps.length := by have := h.1; omega
      rw [this]; simpa using h1

theorem selects_pos {ps : List ℝ} {u : ℝ} {i : Nat} (h : Selects ps u i) : 0 < ps[i]'h.1 := by
  have h2 := h.2.2
  rw [sum_take_succ ps h.1] at h2
  have := h.2.1
  linarith

theorem selects_unique {ps : List ℝ} {u : ℝ} {i j : Nat} (hp : ∀ p ∈ ps, 0 ≤ p) (hi : Selects ps u i) (hj : Selects ps u j) :
    i = j := by
  have mono : ∀ a b, a ≤ b → (ps.take a).sum ≤ (ps.take b).sum := by
    intro a b hab
    induction b, hab using Nat.le_induction with
    | base => exact le_refl _
    | succ b _ ih =>
      by_cases hb : b < ps.length
      · rw [sum_take_succ ps hb]
        have := hp ps[b] (List.getElem_mem _)
        linarith
      · rw [List.take_of_length_le (show ps.length ≤ b + 1 by omega)]
        rwa [List.take_of_length_le (show ps.length ≤ b by omega)] at ih
  rcases lt_trichotomy i j with h | h | h
  · have := mono (i + 1) j h
    have h1 := hi.2.2; have h2 := hj.2.1
    linarith
  · exact h
  · have := mono (j + 1) i h
    have h1 := hj.2.2; have h2 := hi.2.1
    linarith

theorem collapsed_norm (t : Fin n) (ψ : State n ℂ) (E : Nat → Nat → ℂ) (h : 0 < prob t ψ E) :
    Spec.normSq (collapsed t ψ E) = 1 := by
  unfold Spec.normSq collapsed
  simp only [Complex.normSq_mul, Complex.normSq_ofReal]
  rw [← Finset.mul_sum]
  show _ * prob t ψ E = 1
  have hs := Real.mul_self_sqrt h.le
  have hpos : 0 < Real.sqrt (prob t ψ E) := Real.sqrt_pos.2 h
  generalize Real.sqrt (prob t ψ E) = s at *
  rw [← hs]
  field_simp

/-- **An operator set** on a normalised state: the selected operator is applied and the result normalised. -/
theorem opSet_ok (hn : n ≤ 30) {ops : List (Nat → Nat → ℂ)} (hc : Complete ops) (le : Bool) {mem : List ℂ}
    {ψ : State n ℂ} (hm : Stores le mem ψ) (h1 : Spec.normSq ψ = 1) (t : Fin n) {u : ℝ} (hu0 : 0 ≤ u) (hu1 : u < 1) :
    ∃ i, ∃ h : i < ops.length, Selects (ops.map (prob t ψ)) u i ∧
      opSet ops le false n mem t.val u = .ok ((i : Int), mem) ∧
      ∃ mem', opSet ops le true n mem t.val u = .ok ((i : Int), mem') ∧
        Stores le mem' (collapsed t ψ ops[i]) ∧ Spec.normSq (collapsed t ψ ops[i]) = 1 := by
  have hs := sum_prob hc t ψ
  have hne : ops ≠ [] := by
    rintro rfl
    rw [h1] at hs; simp at hs
  obtain ⟨i, hi, hst, hch⟩ := choose_ok hn le hm t u ops 0 0 hne
  have hsel := hst.selects hu0 (by rw [hs, h1]; exact hu1)
  have hpos := selects_pos hsel
  rw [List.getElem_map] at hpos
  obtain ⟨mem', e1, e2⟩ := applyKernel_ok hn ops[i] ((1 / Real.sqrt (prob t ψ ops[i]) : ℝ) : ℂ) le hm t
  rw [Nat.zero_add] at hch
  refine ⟨i, hi, hsel, ?_, mem', ?_, e2, collapsed_norm t ψ _ hpos⟩
  · simp only [opSet, hch, ok_bind, if_neg hpos.ne']
    rfl
  · simp only [opSet, hch, ok_bind, if_neg hpos.ne', if_true, Int.toNat_natCast, List.getElem?_eq_getElem hi, e1]
    rfl

end DG.Sim
