import Verif.Proofs.RegisterExtra

/-! # Slices of registers, in all cases -/

namespace DG.CyReg
open Spec

/-- The indices of `range(a, b, s)`. -/
theorem pyRange_getElem? (a b s : Int) (k : Nat) : (pyRange a b s)[k]? = if Visited a b s k then some (a + k * s) else none := by
  unfold pyRange
  by_cases h1 : 0 < s
  · rw [if_pos h1, List.getElem?_map]
    have key : k < ((b - a + s - 1) / s).toNat ↔ a + k * s < b := by
      rw [Int.lt_toNat, ← Int.add_one_le_iff, Int.le_ediv_iff_mul_le h1, Int.add_mul]
      omega
    by_cases h : a + k * s < b
    · rw [List.getElem?_range (key.2 h), if_pos (show Visited a b s k from .inl ⟨h1, h⟩)]; rfl
    · rw [List.getElem?_eq_none (by simpa using fun h' => h (key.1 h')), if_neg (show ¬ Visited a b s k by rintro (h' | h') <;> omega)]; rfl
  · rw [if_neg h1]
    by_cases h2 : s < 0
    · rw [if_pos h2, List.getElem?_map]
      have key : k < ((a - b - s - 1) / -s).toNat ↔ b < a + k * s := by
        rw [Int.lt_toNat, ← Int.add_one_le_iff, Int.le_ediv_iff_mul_le (by omega), Int.add_mul, Int.mul_neg]
        omega
      by_cases h : b < a + k * s
      · rw [List.getElem?_range (key.2 h), if_pos (show Visited a b s k from .inr ⟨h2, h⟩)]; rfl
      · rw [List.getElem?_eq_none (by simpa using fun h' => h (key.1 h')), if_neg (show ¬ Visited a b s k by rintro (h' | h') <;> omega)]; rfl
    · rw [if_neg h2, if_neg (show ¬ Visited a b s k by rintro (h' | h') <;> omega)]; rfl

/-- What the loop does, on lists. -/
def sliceSpec (L : List Lbl) : List Int → List Lbl → Except Err (List Lbl)
  | [], M => .ok M
  | i :: is, M =>
    match getItem L i with
    | .error e => .error e
    | .ok v => if v ∈ M then .error .valueError else sliceSpec L is (M ++ [v])

theorem sliceLoop_spec {ev : EqEnv} (hev : Inert ev) {r : CyReg} {L : List Lbl} (h : Rep r L) (is : List Int) :
    ∀ {new : CyReg} {M : List Lbl}, Rep new M →
    (∀ M', sliceSpec L is M = .ok M' → ∃ new', r.sliceLoop ev is new = .ok new' ∧ Rep new' M') ∧
    (∀ e, sliceSpec L is M = .error e → r.sliceLoop ev is new = .error e) := by
  induction is with
  | nil =>
    intro new M hM
    refine ⟨fun M' h' => ?_, fun e h' => by cases h'⟩
    cases h'
    exact ⟨new, rfl, hM⟩
  | cons i is ih =>
    intro new M hM
    simp only [sliceSpec, sliceLoop, h.at_eq]
    cases hg : getItem L i with
    | error e =>
      refine ⟨fun M' h' => (by cases h'), fun e' h' => ?_⟩
      cases h'; rfl
    | ok v =>
      simp only
      have ha := append_eq (ev := ev) hM (some v) false (by intro w _; rw [pyEq_inert hev]; simp [eq_comm])
      simp only [Spec.append] at ha
      generalize hra : new.append ev (some v) false = ra at ha
      obtain ⟨res, r'⟩ := ra
      by_cases hv : v ∈ M
      · rw [if_pos hv] at ha ⊢
        obtain ⟨h1, -⟩ := ha
        simp only [Bool.false_eq_true, if_false] at h1
        subst h1
        refine ⟨fun M' h' => (by cases h'), fun e h' => by cases h'; rfl⟩
      · rw [if_neg hv] at ha ⊢
        obtain ⟨h1, h2⟩ := ha
        simp only at h1 h2
        subst h1
        exact ih h2

theorem sliceSpec_ok (L : List Lbl) : ∀ (is : List Int) (M : List Lbl),
    (∀ (k : Nat) i, is[k]? = some i → ∃ v, getItem L i = .ok v ∧ v ∉ M ∧ ∀ (j : Nat) i', j < k → is[j]? = some i' → getItem L i' ≠ .ok v) →
    ∃ N, sliceSpec L is M = .ok (M ++ N) ∧ ∀ k : Nat, N[k]? = is[k]?.bind fun i => (getItem L i).toOption
  | [], M, _ => ⟨[], by simp [sliceSpec], by simp⟩
  | i :: is, M, h => by
    obtain ⟨v, h1, h2, -⟩ := h 0 i rfl
    obtain ⟨N, e1, e2⟩ := sliceSpec_ok L is (M ++ [v]) (by
      intro k i' hk
      obtain ⟨v', g1, g2, g3⟩ := h (k + 1) i' (by simpa using hk)
      refine ⟨v', g1, ?_, fun j i'' hj hi'' => g3 (j + 1) i'' (by omega) (by simpa using hi'')⟩
      rw [List.mem_append, List.mem_singleton, not_or]
      refine ⟨g2, ?_⟩
      rintro rfl
      exact g3 0 i (by omega) rfl h1)
    refine ⟨v :: N, ?_, ?_⟩
    · simp only [sliceSpec, h1, if_neg h2, e1, List.append_assoc, List.cons_append, List.nil_append]
    · intro k
      cases k with
      | zero => simp [h1, Except.toOption]
      | succ k => simpa using e2 k

theorem sliceSpec_error (L : List Lbl) (e : Err) : ∀ (k : Nat) (is : List Int) (M : List Lbl),
    (∀ (j : Nat) i, j < k → is[j]? = some i → ∃ v, getItem L i = .ok v ∧ v ∉ M ∧ ∀ (l : Nat) i', l < j → is[l]? = some i' → getItem L i' ≠ .ok v) →
    (∃ i, is[k]? = some i ∧ (getItem L i = .error e ∨
      e = .valueError ∧ ∃ v, getItem L i = .ok v ∧ (v ∈ M ∨ ∃ (j : Nat) (i' : Int), j < k ∧ is[j]? = some i' ∧ getItem L i' = .ok v))) →
    sliceSpec L is M = .error e
  | k, [], M, _, ⟨i, h, _⟩ => by simp at h
  | 0, i :: is, M, _, ⟨i', h, h'⟩ => by
    simp only [List.getElem?_cons_zero, Option.some.injEq] at h
    subst h
    rcases h' with h' | ⟨rfl, v, h1, h2⟩
    · simp only [sliceSpec, h']
    · simp only [sliceSpec, h1]
      rcases h2 with h2 | ⟨j, _, hj, _⟩
      · rw [if_pos h2]
      · omega
  | k + 1, i :: is, M, h, ⟨i', hi, h'⟩ => by
    obtain ⟨v, h1, h2, -⟩ := h 0 i (by omega) rfl
    simp only [sliceSpec, h1, if_neg h2]
    refine sliceSpec_error L e k is (M ++ [v]) ?_ ⟨i', by simpa using hi, ?_⟩
    · intro j i'' hj hi''
      obtain ⟨v', g1, g2, g3⟩ := h (j + 1) i'' (by omega) (by simpa using hi'')
      refine ⟨v', g1, ?_, fun l i3 hl hi3 => g3 (l + 1) i3 (by omega) (by simpa using hi3)⟩
      rw [List.mem_append, List.mem_singleton, not_or]
      refine ⟨g2, ?_⟩
      rintro rfl
      exact g3 0 i (by omega) rfl h1
    · rcases h' with h' | ⟨he, v', g1, g2⟩
      · exact .inl h'
      · refine .inr ⟨he, v', g1, ?_⟩
        rcases g2 with g2 | ⟨j, i2, hj, hi2, hv⟩
        · exact .inl (by simp [g2])
        · cases j with
          | zero =>
            simp only [List.getElem?_cons_zero, Option.some.injEq] at hi2
            subst hi2
            rw [h1] at hv
            cases hv
            exact .inl (by simp)
          | succ j => exact .inr ⟨j, i2, by omega, by simpa using hi2, hv⟩

end DG.CyReg
