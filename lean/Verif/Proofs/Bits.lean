import Verif.Model.Kernel
import Batteries.Data.Nat.Lemmas
import Mathlib.Data.List.Nodup
import Mathlib.Data.List.Induction
import Mathlib.Data.List.Sort
import Mathlib.Tactic.Linarith

/-! # Bit arithmetic of the kernels -/

namespace DG.Kernel

/-- Insert a zero bit at position `p`. -/
def insZ (p t : Nat) : Nat := ((t >>> p) <<< (p + 1)) ||| (t % 2 ^ p)

/-- Remove the bit at position `p`. -/
def rmZ (p b : Nat) : Nat := ((b >>> (p + 1)) <<< p) ||| (b % 2 ^ p)

theorem testBit_insZ (p t i : Nat) :
    (insZ p t).testBit i = if i < p then t.testBit i else if i = p then false else t.testBit (i - 1) := by
  simp only [insZ, Nat.testBit_or, Nat.testBit_shiftLeft, Nat.testBit_shiftRight, Nat.testBit_mod_two_pow]
  by_cases h1 : i < p
  · simp [h1, show ¬ (p + 1 ≤ i) by omega]
  · by_cases h2 : i = p
    · subst h2; simp
    · simp [h1, h2, show p + 1 ≤ i by omega, show p + (i - (p + 1)) = i - 1 by omega]

theorem testBit_rmZ (p b i : Nat) :
    (rmZ p b).testBit i = if i < p then b.testBit i else b.testBit (i + 1) := by
  simp only [rmZ, Nat.testBit_or, Nat.testBit_shiftLeft, Nat.testBit_shiftRight, Nat.testBit_mod_two_pow]
  by_cases h1 : i < p
  · simp [h1, show ¬ (p ≤ i) by omega]
  · simp [h1, show p ≤ i by omega, show p + 1 + (i - p) = i + 1 by omega]

theorem rmZ_insZ (p t : Nat) : rmZ p (insZ p t) = t := by
  apply Nat.eq_of_testBit_eq
  intro i
  rw [testBit_rmZ, testBit_insZ, testBit_insZ]
  by_cases h : i < p
  · simp [h]
  · simp [h, show ¬ (i + 1 < p) by omega, show ¬ (i + 1 = p) by omega]

theorem insZ_rmZ (p b : Nat) (h : b.testBit p = false) : insZ p (rmZ p b) = b := by
  apply Nat.eq_of_testBit_eq
  intro i
  rw [testBit_insZ]
  by_cases h1 : i < p
  · simp [h1, testBit_rmZ]
  · by_cases h2 : i = p
    · simp [h2, h]
    · simp only [h1, h2, if_false, testBit_rmZ, show ¬ (i - 1 < p) by omega, show i - 1 + 1 = i by omega]

theorem insZ_lt {p t m : Nat} (h : t < 2 ^ m) : insZ p t < 2 ^ (m + 1) := by
  apply Nat.lt_pow_two_of_testBit
  intro i hi
  rw [testBit_insZ]
  have hh : ∀ k, m ≤ k → t.testBit k = false := fun k hk =>
    Nat.testBit_lt_two_pow (Nat.lt_of_lt_of_le h (Nat.pow_le_pow_right (by omega) hk))
  split
  · exact hh _ (by omega)
  · split
    · rfl
    · exact hh _ (by omega)

theorem rmZ_lt {p b m : Nat} (h : b < 2 ^ (m + 1)) (hp : p ≤ m) : rmZ p b < 2 ^ m := by
  apply Nat.lt_pow_two_of_testBit
  intro i hi
  rw [testBit_rmZ, if_neg (by omega)]
  exact Nat.testBit_lt_two_pow (Nat.lt_of_lt_of_le h (Nat.pow_le_pow_right (by omega) (by omega)))

/-- The basis template on natural numbers, for the list of positions. -/
def tmplN (ps : List Nat) (t : Nat) : Nat := ps.foldl (fun t p => insZ p t) t

theorem tmplN_inj (ps : List Nat) : ∀ t t', tmplN ps t = tmplN ps t' → t = t' := by
  induction ps with
  | nil => intro t t' h; exact h
  | cons p ps ih =>
    intro t t' h
    have : insZ p t = insZ p t' := ih _ _ h
    rw [← rmZ_insZ p t, ← rmZ_insZ p t', this]

theorem tmplN_lt (ps : List Nat) : ∀ t m, t < 2 ^ m → tmplN ps t < 2 ^ (m + ps.length) := by
  induction ps with
  | nil => intro t m h; exact h
  | cons p ps ih =>
    intro t m h
    have := ih _ _ (insZ_lt (p := p) h)
    simp only [List.length_cons]
    rw [show m + (ps.length + 1) = m + 1 + ps.length by omega]
    exact this

theorem testBit_tmplN_low (ps : List Nat) : ∀ t i, (∀ p ∈ ps, i < p) → (tmplN ps t).testBit i = t.testBit i := by
  induction ps with
  | nil => intro t i _; rfl
  | cons p ps ih =>
    intro t i h
    show (tmplN ps (insZ p t)).testBit i = _
    rw [ih _ _ (fun q hq => h q (by simp [hq])), testBit_insZ, if_pos (h p (by simp))]

theorem tmplN_zero (ps : List Nat) (hs : ps.Pairwise (· < ·)) : ∀ t, ∀ p ∈ ps, (tmplN ps t).testBit p = false := by
  induction ps with
  | nil => simp
  | cons p ps ih =>
    rw [List.pairwise_cons] at hs
    intro t q hq
    rw [List.mem_cons] at hq
    rcases hq with rfl | hq
    · show (tmplN ps (insZ q t)).testBit q = _
      rw [testBit_tmplN_low ps _ _ hs.1, testBit_insZ]; simp
    · exact ih hs.2 _ q hq

theorem tmplN_surj (ps : List Nat) (hs : ps.Pairwise (· < ·)) : ∀ (n b : Nat), b < 2 ^ n → (∀ p ∈ ps, p < n) →
    (∀ p ∈ ps, b.testBit p = false) → ∃ t, t < 2 ^ (n - ps.length) ∧ tmplN ps t = b := by
  induction ps using List.reverseRecOn with
  | nil => intro n b h _ _; exact ⟨b, by simpa using h, rfl⟩
  | append_singleton ps p ih =>
    intro n b hb hn hz
    rw [List.pairwise_append] at hs
    have hpn : p < n := hn p (by simp)
    obtain ⟨m, rfl⟩ : ∃ m, n = m + 1 := ⟨n - 1, by omega⟩
    have hlt : ∀ q ∈ ps, q < p := fun q hq => hs.2.2 q hq p (by simp)
    obtain ⟨t, ht, heq⟩ := ih hs.1 m (rmZ p b) (rmZ_lt hb (by omega)) (fun q hq => by have := hlt q hq; omega)
      (fun q hq => by rw [testBit_rmZ, if_pos (hlt q hq)]; exact hz q (by simp [hq]))
    refine ⟨t, ?_, ?_⟩
    · simpa using ht
    · show (ps ++ [p]).foldl _ t = b
      rw [List.foldl_append]
      show insZ p (tmplN ps t) = b
      rw [heq, insZ_rmZ p b (hz p (by simp))]

/-- The C statement inserts a zero bit. -/
theorem insertZero_toNat (t : BitVec 64) (p : Nat) (hp : p < 64) (ht : t.toNat < 2 ^ 63) :
    (insertZero t (BitVec.ofNat 64 (2 ^ p - 1))).toNat = insZ p t.toNat := by
  apply Nat.eq_of_testBit_eq
  intro i
  rw [testBit_insZ]
  have hh : ∀ k, 63 ≤ k → t.toNat.testBit k = false := fun k hk =>
    Nat.testBit_lt_two_pow (Nat.lt_of_lt_of_le ht (Nat.pow_le_pow_right (by omega) hk))
  by_cases hi : i < 64
  · have hm : ∀ k, k < 64 → (BitVec.ofNat 64 (2 ^ p - 1)).getLsbD k = decide (k < p) := by
      intro k hk
      rw [BitVec.getLsbD_ofNat, Nat.testBit_two_pow_sub_one]; simp [hk]
    rw [show (insertZero t (BitVec.ofNat 64 (2 ^ p - 1))).toNat.testBit i
      = (insertZero t (BitVec.ofNat 64 (2 ^ p - 1))).getLsbD i from rfl]
    simp only [insertZero, BitVec.getLsbD_or, BitVec.getLsbD_shiftLeft, BitVec.getLsbD_and, BitVec.getLsbD_not]
    rw [hm i hi]
    by_cases h0 : i = 0
    · subst h0
      by_cases hp0 : 0 < p
      · simp only [hp0, decide_true, Bool.and_true, if_true]
        simp [BitVec.getLsbD]
      · simp [show p = 0 by omega]
    · rw [hm (i - 1) (by omega)]
      have e1 : t.getLsbD i = t.toNat.testBit i := rfl
      have e2 : t.getLsbD (i - 1) = t.toNat.testBit (i - 1) := rfl
      rw [e1, e2]
      by_cases h1 : i < p
      · simp [h1, hi, show i - 1 < p by omega, show i - 1 < 64 by omega]
      · by_cases h2 : i = p
        · subst h2
          simp [show i - 1 < i by omega]
        · simp [h1, h2, hi, show ¬ (i - 1 < p) by omega, show i - 1 < 64 by omega, show 1 ≤ i by omega]
          omega
  · have : (insertZero t (BitVec.ofNat 64 (2 ^ p - 1))).toNat.testBit i = false :=
      Nat.testBit_lt_two_pow (Nat.lt_of_lt_of_le (BitVec.isLt _) (Nat.pow_le_pow_right (by omega) (by omega)))
    rw [this]
    split
    · exact (hh _ (by omega)).symm
    · split
      · rfl
      · exact (hh _ (by omega)).symm

theorem template_fold_toNat (ps : List Nat) : ∀ (t : BitVec 64) (m : Nat), (∀ p ∈ ps, p < 64) → t.toNat < 2 ^ m →
    m + ps.length ≤ 63 →
    ((ps.map fun p => BitVec.ofNat 64 (2 ^ p - 1)).foldl insertZero t).toNat = tmplN ps t.toNat := by
  induction ps with
  | nil => intro t m _ _ _; rfl
  | cons p ps ih =>
    intro t m hp ht hm
    simp only [List.map_cons, List.foldl_cons, List.length_cons] at *
    have h1 := insertZero_toNat t p (hp p (by simp))
      (Nat.lt_of_lt_of_le ht (Nat.pow_le_pow_right (by omega) (by omega)))
    have h2 := insZ_lt (p := p) ht
    rw [ih _ (m + 1) (fun q hq => hp q (by simp [hq])) (by rw [h1]; exact h2) (by omega), h1]
    rfl

theorem testBit_foldl_or (es : List Nat) : ∀ (a i : Nat),
    (es.foldl (· ||| ·) a).testBit i = (a.testBit i || es.any fun e => e.testBit i) := by
  induction es with
  | nil => simp
  | cons e es ih => intro a i; simp [ih, Nat.testBit_or, Bool.or_assoc]

theorem foldl_or_lt (es : List Nat) : ∀ (a m : Nat), a < 2 ^ m → (∀ e ∈ es, e < 2 ^ m) →
    es.foldl (· ||| ·) a < 2 ^ m := by
  induction es with
  | nil => intro a m h _; exact h
  | cons e es ih =>
    intro a m h he
    exact ih _ m (Nat.or_lt_two_pow h (he e (by simp))) (fun x hx => he x (by simp [hx]))

end DG.Kernel
