import Verif.Spec.CircuitState

/-! Lemmas on the state of a circuit. -/

namespace DG
open Spec StateSlot

theorem norm_ofVec {m : Nat} (v : Fin m → ℂ) : (ofVec v).norm = ‖WithLp.toLp 2 v‖ := by
  rw [EuclideanSpace.norm_eq]
  unfold NDArr.norm ofVec
  dsimp only
  congr 1
  rw [List.map_ofFn, List.sum_ofFn]
  rfl

theorem norm_ofMat {m k : Nat} (M : Matrix (Fin m) (Fin k) ℂ) : (ofMat M).norm = frobeniusNorm M := by
  unfold frobeniusNorm
  rw [Matrix.frobenius_norm_def, ← Real.sqrt_eq_rpow]
  unfold NDArr.norm ofMat
  dsimp only
  congr 1
  rw [List.map_flatten, List.sum_flatten, List.map_map, List.map_ofFn, List.sum_ofFn]
  refine Finset.sum_congr rfl fun i _ => ?_
  simp only [Function.comp_apply, List.map_ofFn, List.sum_ofFn, Real.rpow_ofNat]

theorem exists_ofVec (a : NDArr) {m : Nat} (h : a.shape = [m]) : ∃ v : Fin m → ℂ, a = ofVec v := by
  obtain ⟨sh, d, hs⟩ := a
  subst h
  have hl : d.length = m := by simpa using hs
  subst hl
  exact ⟨d.get, by simp [ofVec]⟩

theorem exists_ofMat (a : NDArr) {m k : Nat} (h : a.shape = [m, k]) : ∃ M : Matrix (Fin m) (Fin k) ℂ, a = ofMat M := by
  obtain ⟨sh, d, hs⟩ := a
  subst h
  have hl : d.length = m * k := by simpa using hs
  have aux : ∀ (m : Nat) (d : List ℂ), d.length = m * k → ∃ M : Fin m → Fin k → ℂ, d = (List.ofFn fun i => List.ofFn (M i)).flatten := by
    intro m
    induction m with
    | zero => intro d hd; exact ⟨fun i => i.elim0, by simpa using hd⟩
    | succ m ih =>
      intro d hd
      obtain ⟨M, hM⟩ := ih (d.drop k) (by rw [List.length_drop, hd, Nat.succ_mul]; omega)
      have ht : (d.take k).length = k := by rw [List.length_take, hd, Nat.succ_mul]; omega
      refine ⟨Fin.cons (fun j => (d.take k).get (j.cast ht.symm)) M, ?_⟩
      rw [List.ofFn_succ]
      simp only [Fin.cons_zero, Fin.cons_succ, List.flatten_cons]
      rw [← hM]
      conv_lhs => rw [← List.take_append_drop k d]
      congr 1
      apply List.ext_get
      · simp [ht]
      · intro i h1 h2; simp
  obtain ⟨M, hM⟩ := aux m d hl
  exact ⟨M, by subst hM; rfl⟩

theorem outer_ofVec {m : Nat} (v : Fin m → ℂ) : (ofVec v).outer = ofMat (Matrix.vecMulVec v v) := by
  have h : (ofVec v).outer.data = (ofMat (Matrix.vecMulVec v v)).data := by
    unfold NDArr.outer ofVec ofMat
    dsimp only
    rw [List.flatMap_def, List.map_ofFn]
    congr 2
    funext i
    simp [List.map_ofFn, Function.comp_def]
    rfl
  have h' : (ofVec v).outer.shape = (ofMat (Matrix.vecMulVec v v)).shape := by simp [NDArr.outer, ofVec, ofMat]
  revert h h'
  generalize (ofVec v).outer = a
  generalize ofMat (Matrix.vecMulVec v v) = b
  cases a; cases b
  rintro rfl rfl
  rfl

theorem stateSize_succ (n : Nat) : stateSize (n + 1) = .ok (2 ^ (n + 1)) := by
  show Except.ok (2 <<< n) = _
  rw [Nat.shiftLeft_eq, pow_succ, mul_comm]

theorem assertState_ok (n : Nat) (a : NDArr) : (assertState n a = .ok () ↔ 1 ≤ n ∧ (a.shape = [2 ^ n] ∨ a.shape = [2 ^ n, 2 ^ n]) ∧ IsClose1 a.norm) ∧
    (assertState n a = .ok () ∨ assertState n a = .error .valueError) := by
  unfold assertState
  cases n with
  | zero => simp [stateSize]
  | succ n =>
    rw [stateSize_succ]
    dsimp only
    by_cases h1 : a.shape ≠ [2 ^ (n + 1)] ∧ a.shape ≠ [2 ^ (n + 1), 2 ^ (n + 1)]
    · rw [if_pos h1]
      refine ⟨⟨(fun h => by cases h), ?_⟩, .inr rfl⟩
      rintro ⟨-, h | h, -⟩
      · exact absurd h h1.1
      · exact absurd h h1.2
    · rw [if_neg h1]
      by_cases h2 : IsClose1 a.norm
      · rw [if_neg (not_not.2 h2)]
        refine ⟨⟨fun _ => ⟨by omega, ?_, h2⟩, fun _ => rfl⟩, .inl rfl⟩
        by_contra h
        push Not at h
        exact h1 h
      · rw [if_pos h2]
        exact ⟨⟨(fun h => by cases h), fun h => absurd h.2.2 h2⟩, .inr rfl⟩

theorem setState_eq (n : Nat) (a : NDArr) (force : Bool) (s : StateSlot) (h : force = true ∨ s.state = none ∧ s.dm = none) :
    s.setState n a force false = match assertState n a with
      | .error e => (.error e, s)
      | .ok () => if a.shape.length = 1 then (.ok (), ⟨some a, none⟩) else (.ok (), ⟨none, some a⟩) := by
  unfold setState
  rw [if_neg (by rcases h with h | ⟨h1, h2⟩ <;> simp [*])]
  simp only [Bool.false_eq_true, if_false]
  rcases assertState n a with e | ⟨⟩ <;> rfl

theorem setState_normalize (n : Nat) (a : NDArr) (force : Bool) (s : StateSlot) :
    s.setState n a force true = s.setState n (a.scale a.norm) force false := by
  unfold setState
  simp only [Bool.false_eq_true, if_false, if_true]

theorem norm_scale (a : NDArr) (h : a.norm ≠ 0) : (a.scale a.norm).norm = 1 := by
  have hp : 0 < a.norm := lt_of_le_of_ne (Real.sqrt_nonneg _) (Ne.symm h)
  have : (a.scale a.norm).norm = a.norm / a.norm := by
    show Real.sqrt (((a.data.map fun x => x / (a.norm : ℂ)).map fun x => ‖x‖ ^ 2).sum) = _
    rw [List.map_map]
    have : (a.data.map ((fun x => ‖x‖ ^ 2) ∘ fun x => x / (a.norm : ℂ))).sum = (a.data.map fun x => ‖x‖ ^ 2).sum / a.norm ^ 2 := by
      rw [div_eq_mul_inv, ← List.sum_map_mul_right]
      congr 1
      apply List.map_congr_left
      intro x _
      simp only [Function.comp_apply, norm_div, Complex.norm_real, Real.norm_eq_abs, abs_of_pos hp]
      rw [div_pow, div_eq_mul_inv]
    rw [this, Real.sqrt_div' _ (by positivity), Real.sqrt_sq hp.le]
    rfl
  rw [this, div_self h]

theorem isClose1_eq : IsClose1 = NearOne := by
  funext x
  unfold IsClose1 NearOne
  rw [abs_le]
  have e : (1 : ℝ) / 100000000 + 1 / 100000 = 0.00001001 := by norm_num
  rw [e]
  exact propext ⟨fun h => ⟨by linarith [h.1], by linarith [h.2]⟩, fun h => ⟨by linarith [h.1], by linarith [h.2]⟩⟩

theorem isClose1_one : IsClose1 1 := by unfold IsClose1; norm_num

theorem not_isClose1 {x : ℝ} (h : x ≤ 9 / 10) : ¬ IsClose1 x := by
  unfold IsClose1
  rw [abs_le]
  rintro ⟨h1, -⟩
  linarith

theorem frobeniusNorm_eq {m k : Nat} (M : Matrix (Fin m) (Fin k) ℂ) : frobeniusNorm M = Real.sqrt (∑ i, ∑ j, ‖M i j‖ ^ 2) := by
  unfold frobeniusNorm
  rw [Matrix.frobenius_norm_def, ← Real.sqrt_eq_rpow]
  simp only [Real.rpow_ofNat]

theorem ofMat_injective {m k : Nat} {M N : Matrix (Fin m) (Fin k) ℂ} (h : ofMat M = ofMat N) : M = N := by
  have h1 : (ofMat M).data = (ofMat N).data := by rw [h]
  unfold ofMat at h1
  dsimp only at h1
  have h2 := List.eq_iff_flatten_eq.2 ⟨h1, by simp [List.map_ofFn, Function.comp_def]⟩
  have h3 := List.ofFn_injective h2
  funext i
  exact List.ofFn_injective (congrFun h3 i)

/-- The attributes `_state` and `_density_matrix` fit. -/
def SlotInv (n : Nat) (s : StateSlot) : Prop :=
  s.state = none ∨ ∃ v : Fin (2 ^ n) → ℂ, s.state = some (ofVec v) ∧ (s.dm = none ∨ s.dm = some (ofMat (Matrix.vecMulVec v v)))

theorem slotInv_set {n : Nat} {s : StateSlot} (h : SlotInv n s) (a : NDArr) (f z : Bool) : SlotInv n (s.setState n a f z).2 := by
  have key : ∀ a, SlotInv n (s.setState n a f false).2 := by
    intro a
    by_cases hf : f = true ∨ s.state = none ∧ s.dm = none
    · rw [setState_eq n a f s hf]
      obtain ⟨h1, h2⟩ := assertState_ok n a
      rcases h2 with h2 | h2
      · rw [h2]
        dsimp only
        obtain ⟨-, h4 | h4, -⟩ := h1.1 h2
        · obtain ⟨v, rfl⟩ := exists_ofVec a h4
          exact .inr ⟨v, rfl, .inl rfl⟩
        · rw [if_neg (by simp [h4])]
          exact .inl rfl
      · rw [h2]; exact h
    · unfold setState
      rw [if_pos]
      · exact h
      · push Not at hf
        obtain ⟨h1, h2⟩ := hf
        simp only [Bool.and_eq_true, Bool.not_eq_true', Bool.or_eq_true, Option.isSome_iff_ne_none]
        refine ⟨by simpa using h1, ?_⟩
        by_contra hc
        push Not at hc
        exact h2 hc.1 hc.2
  cases z with
  | false => exact key a
  | true => rw [setState_normalize]; exact key _

theorem slotInv_getDm {n : Nat} {s : StateSlot} (h : SlotInv n s) : SlotInv n s.getDm.2 := by
  rcases h with h | ⟨v, h1, h2 | h2⟩
  · unfold getDm; rw [h]; exact .inl h
  · unfold getDm; rw [h1, h2]; exact .inr ⟨v, rfl, .inr (by rw [← outer_ofVec])⟩
  · unfold getDm; rw [h1, h2]; exact .inr ⟨v, h1, .inr h2⟩

theorem slotInv_run {n : Nat} : ∀ (calls : List StateCall) {s : StateSlot}, SlotInv n s → SlotInv n (runCalls n calls s)
  | [], _, h => h
  | .set a f z :: l, s, h => slotInv_run l (slotInv_set h a f z)
  | .readState :: l, s, h => slotInv_run l h
  | .readDm :: l, s, h => slotInv_run l (slotInv_getDm h)

end DG
