import Verif.Proofs.UnitaryAct
import Mathlib.Tactic.FinCases

/-!
# Unitarity, and matrices of operations applied to the qubits of a larger system
-/

namespace DG.Unitary
open Complex Spec Kernel DG.Sim

section
variable {n : Nat}

/-- A matrix whose map preserves the norm is unitary. -/
theorem acts_unitary {M : NMat} {f : State n ℂ → State n ℂ} (h : ActsAs n M f) (hf : ∀ ψ, Spec.normSq (f ψ) = Spec.normSq ψ) :
    NMat.toMatrix M ∈ Matrix.unitaryGroup (Fin M.dim) ℂ := by
  set A : Basis n → Basis n → ℂ := fun x y => M.e (index false x) (index false y) with hA
  set B : Basis n → Basis n → ℂ := fun y z => ∑ x, star (A x y) * A x z with hB
  have quad : ∀ ψ : State n ℂ, ∑ y, ∑ z, star (ψ y) * B y z * ψ z = ∑ y, star (ψ y) * ψ y := by
    intro ψ
    have h1 : ∑ x, star (f ψ x) * f ψ x = ∑ y, star (ψ y) * ψ y := by
      have := congrArg (fun r : ℝ => (r : ℂ)) (hf ψ)
      simp only [Spec.normSq, ofReal_sum, normSq_cast] at this
      exact this
    rw [← h1]
    have h2 : ∀ x, star (f ψ x) * f ψ x = ∑ y, ∑ z, star (A x y) * star (ψ y) * (A x z * ψ z) := by
      intro x
      rw [h.2 ψ x, star_sum, Finset.sum_mul_sum]
      refine Finset.sum_congr rfl fun y _ => Finset.sum_congr rfl fun z _ => ?_
      rw [star_mul']
    simp only [h2]
    rw [Finset.sum_comm (s := Finset.univ) (t := Finset.univ) (f := fun x y => ∑ z, star (A x y) * star (ψ y) * (A x z * ψ z))]
    refine Finset.sum_congr rfl fun y _ => ?_
    rw [Finset.sum_comm (s := Finset.univ) (t := Finset.univ) (f := fun x z => star (A x y) * star (ψ y) * (A x z * ψ z))]
    refine Finset.sum_congr rfl fun z _ => ?_
    simp only [hB, Finset.mul_sum, Finset.sum_mul]
    refine Finset.sum_congr rfl fun x _ => ?_
    ring
  -- test vectors
  have test : ∀ (y z : Basis n) (c : ℂ), y ≠ z → B y y + c * B y z + star c * B z y + star c * c * B z z = 1 + star c * c := by
    intro y z c hyz
    have h1 := quad (fun w => if w = y then 1 else if w = z then c else 0)
    have e1 : ∀ (g : Basis n → ℂ), ∑ w, (if w = y then 1 else if w = z then c else 0) * g w = g y + c * g z := by
      intro g
      have : ∀ w, (if w = y then 1 else if w = z then c else 0) * g w = (if w = y then g w else 0) + (if w = z then c * g w else 0) := by
        intro w
        by_cases h1 : w = y
        · subst h1; simp [hyz]
        · by_cases h2 : w = z
          · simp [h1, h2, Ne.symm hyz]
          · simp [h1, h2]
      simp only [this, Finset.sum_add_distrib, Finset.sum_ite_eq', Finset.mem_univ, if_true]
    have e2 : ∀ (g : Basis n → ℂ), ∑ w, star (if w = y then 1 else if w = z then c else 0) * g w = g y + star c * g z := by
      intro g
      have : ∀ w, star (if w = y then 1 else if w = z then c else 0) * g w = (if w = y then g w else 0) + (if w = z then star c * g w else 0) := by
        intro w
        by_cases h1 : w = y
        · subst h1; simp [hyz]
        · by_cases h2 : w = z
          · simp [h1, h2, Ne.symm hyz]
          · simp [h1, h2]
      simp only [this, Finset.sum_add_distrib, Finset.sum_ite_eq', Finset.mem_univ, if_true]
    have l : ∑ v, ∑ w, star (if v = y then 1 else if v = z then c else 0 : ℂ) * B v w * (if w = y then 1 else if w = z then c else 0) =
        B y y + c * B y z + star c * B z y + star c * c * B z z := by
      have : ∀ v, ∑ w, star (if v = y then 1 else if v = z then c else 0 : ℂ) * B v w * (if w = y then 1 else if w = z then c else 0) =
          star (if v = y then 1 else if v = z then c else 0 : ℂ) * (B v y + c * B v z) := by
        intro v
        rw [← e1 (B v), Finset.mul_sum]
        refine Finset.sum_congr rfl fun w _ => ?_
        ring
      simp only [this]
      rw [e2]
      ring
    rw [l] at h1
    rw [h1, e2]
    simp [Ne.symm hyz]
  have diag : ∀ y, B y y = 1 := by
    intro y
    have h1 := quad (fun w => if w = y then 1 else 0)
    simpa using h1
  have offd : ∀ y z, y ≠ z → B y z = 0 := by
    intro y z hyz
    have h1 := test y z 1 hyz
    have h2 := test y z I hyz
    rw [diag y, diag z] at h1 h2
    simp only [star_one, show star I = -I from Complex.conj_I] at h1 h2
    have h3 : B y z + B z y = 0 := by linear_combination h1
    have h4 : B y z - B z y = 0 := by
      have : I * (B y z - B z y) = 0 := by linear_combination h2
      rcases mul_eq_zero.1 this with h | h
      · exact absurd h I_ne_zero
      · exact h
    linear_combination (h3 + h4) / 2
  rw [Matrix.mem_unitaryGroup_iff']
  ext i j
  rw [Matrix.mul_apply, Matrix.one_apply]
  have hi : i.val < 2 ^ n := by rw [← h.1]; exact i.isLt
  have hj : j.val < 2 ^ n := by rw [← h.1]; exact j.isLt
  have conv : ∑ k : Fin M.dim, (star (NMat.toMatrix M)) i k * NMat.toMatrix M k j = B (basisOf false n i.val) (basisOf false n j.val) := by
    simp only [Matrix.star_apply, NMat.toMatrix]
    rw [Fin.sum_univ_eq_sum_range (fun k => star (M.e k i) * M.e k j) M.dim]
    have hr : Finset.range M.dim = Finset.range (2 ^ n) := by rw [h.1]
    rw [hr, sum_range_index]
    simp only [hB, hA, index_basisOf false hi, index_basisOf false hj]
  rw [conv]
  by_cases hij : i = j
  · subst hij; simp [diag]
  · rw [if_neg hij]
    refine offd _ _ (fun hb => hij (Fin.ext ?_))
    rw [← index_basisOf false hi, ← index_basisOf false hj, hb]

/-! ## Lifting to a larger system -/

/-- `x` with the qubits `ts` replaced by `y`. -/
noncomputable def patch {k : Nat} (ts : Fin k → Fin n) (x : Basis n) (y : Basis k) : Basis n :=
  fun q => if h : ∃ i, ts i = q then y h.choose else x q

theorem patch_at {k : Nat} {ts : Fin k → Fin n} (hts : Function.Injective ts) (x : Basis n) (y : Basis k) (i : Fin k) :
    patch ts x y (ts i) = y i := by
  unfold patch
  have h : ∃ j, ts j = ts i := ⟨i, rfl⟩
  rw [dif_pos h, hts h.choose_spec]

theorem patch_off {k : Nat} {ts : Fin k → Fin n} (x : Basis n) (y : Basis k) {q : Fin n} (hq : ∀ i, ts i ≠ q) :
    patch ts x y q = x q := by
  unfold patch
  rw [dif_neg (by rintro ⟨i, hi⟩; exact hq i hi)]

theorem patch_update {k : Nat} {ts : Fin k → Fin n} (hts : Function.Injective ts) (x : Basis n) (i : Fin k) (b : Bool) :
    patch ts x (Function.update (x ∘ ts) i b) = Function.update x (ts i) b := by
  funext q
  by_cases hq : ∃ j, ts j = q
  · obtain ⟨j, rfl⟩ := hq
    rw [patch_at hts]
    by_cases hj : j = i
    · subst hj; simp
    · rw [Function.update_of_ne hj, Function.update_of_ne (fun h => hj (hts h))]; rfl
  · push Not at hq
    rw [patch_off _ _ hq, Function.update_of_ne (fun h => hq i h.symm)]

theorem patch_swap {k : Nat} {ts : Fin k → Fin n} (hts : Function.Injective ts) (x : Basis n) (i j : Fin k) :
    patch ts x ((x ∘ ts) ∘ Equiv.swap i j) = x ∘ Equiv.swap (ts i) (ts j) := by
  funext q
  by_cases hq : ∃ l, ts l = q
  · obtain ⟨l, rfl⟩ := hq
    rw [patch_at hts]
    simp only [Function.comp_apply]
    rw [hts.swap_apply]
  · push Not at hq
    rw [patch_off _ _ hq]
    simp only [Function.comp_apply]
    rw [Equiv.swap_apply_of_ne_of_ne (fun h => hq i h.symm) (fun h => hq j h.symm)]

theorem patch_self {k : Nat} {ts : Fin k → Fin n} (hts : Function.Injective ts) (x : Basis n) : patch ts x (x ∘ ts) = x := by
  funext q
  by_cases hq : ∃ l, ts l = q
  · obtain ⟨l, rfl⟩ := hq
    rw [patch_at hts]; rfl
  · push Not at hq
    rw [patch_off _ _ hq]

/-- If `M` is the matrix of `f` then applying `M` to the qubits `ts` is `f` on the bits `ts`. -/
theorem applyMatrix_lift {k : Nat} (ts : Fin k → Fin n) {M : NMat} {f : State k ℂ → State k ℂ} (h : ActsAs k M f) (ψ : State n ℂ)
    (x : Basis n) : applyMatrix ts M ψ x = f (fun y => ψ (patch ts x y)) (x ∘ ts) := by
  rw [h.2]
  rfl

theorem lift_controlled {k : Nat} {ts : Fin k → Fin n} (hts : Function.Injective ts) {M : NMat} {cs : List (Fin k)} {t : Fin k}
    {G : Bool → Bool → ℂ} (h : ActsAs k M (applyControlled cs t G)) :
    applyMatrix ts M = applyControlled (cs.map ts) (ts t) G := by
  funext ψ x
  rw [applyMatrix_lift ts h]
  unfold applyControlled applyGate
  simp only [patch_update hts, patch_self hts, List.mem_map, forall_exists_index, and_imp, forall_apply_eq_imp_iff₂, Function.comp_apply]

/-! ## Matrices of the operations -/

theorem ofArr_acts (a : Arr2) : ActsAs 1 (ofArr a) (applyControlled [] 0 (gateOf a)) := by
  have h := chain_acts (n := 1) [0] (by simp) rfl 0 0 rfl (ofArr a) rfl
  rw [gateN_ofArr] at h
  have : applyControlled [] (0 : Fin 1) (gateOf a) = applyGate 0 (gateOf a) := funext (applyControlled_nil' _ _)
  rw [this]
  simpa [chain] using h

theorem table_acts {k : Nat} (t : List (List Nat)) (hl : t.length = 2 ^ k) (hr : ∀ r ∈ t, r.length = 2 ^ k) (p : Basis k → Basis k)
    (h : ∀ x y : Basis k, ((t[index false x]?).bind (·[index false y]?)) = some (if p x = y then 1 else 0)) :
    ActsAs k (ofTable t) (fun ψ x => ψ (p x)) := by
  refine ⟨hl, fun ψ x => ?_⟩
  have : ∀ y, (ofTable t).e (index false x) (index false y) * ψ y = if p x = y then ψ y else 0 := by
    intro y
    have h1 := h x y
    show tableEntry t _ _ * _ = _
    unfold tableEntry
    cases hrow : t[index false x]? with
    | none => rw [hrow] at h1; simp at h1
    | some row =>
      rw [hrow] at h1
      simp only [Option.bind_some] at h1
      show (match row[index false y]? with | some v => (v : ℂ) | none => 0) * _ = _
      rw [h1]
      by_cases hp : p x = y <;> simp [hp]
  simp only [this, Finset.sum_ite_eq, Finset.mem_univ, if_true]

theorem swap_acts : ActsAs 2 (ofTable swapTable) (applySwap 0 1) :=
  table_acts swapTable rfl (by decide) (fun x => x ∘ Equiv.swap 0 1) (by decide +kernel)

theorem cswap_acts : ActsAs 3 (ofTable cswapTable) (applyCSwap 0 1 2) := by
  have h := table_acts cswapTable (k := 3) rfl (by decide) (fun x => if x 0 = true then x ∘ Equiv.swap 1 2 else x) (by decide +kernel)
  have e : (fun (ψ : State 3 ℂ) (x : Basis 3) => ψ (if x 0 = true then x ∘ Equiv.swap 1 2 else x)) = applyCSwap 0 1 2 := by
    funext ψ x
    unfold applyCSwap applySwap
    split <;> rfl
  rwa [e] at h

theorem ccx_acts : ActsAs 3 (ofTable ccxTable) (fun ψ x => if x 0 = true ∧ x 1 = true then ψ (Function.update x 2 (!x 2)) else ψ x) := by
  have h := table_acts ccxTable (k := 3) rfl (by decide) (fun x => if x 0 = true ∧ x 1 = true then Function.update x 2 (!x 2) else x)
    (by decide +kernel)
  have e : (fun (ψ : State 3 ℂ) (x : Basis 3) => ψ (if x 0 = true ∧ x 1 = true then Function.update x 2 (!x 2) else x)) =
      (fun ψ x => if x 0 = true ∧ x 1 = true then ψ (Function.update x 2 (!x 2)) else ψ x) := by
    funext ψ x
    split <;> rfl
  rwa [e] at h

/-- The qubits 0, ..., nc - 1. -/
def firsts (nc : Nat) : List (Fin (nc + 1)) := (List.finRange nc).map Fin.castSucc

theorem controlledMatrix_ok (nc : Nat) (b : Base) (a : Arr2) (ha : b.matrix = .ok a) :
    ∃ M, controlledMatrix nc 1 b none [] [] = .ok M ∧ ActsAs (nc + 1) M (applyControlled (firsts nc) (Fin.last nc) (gateOf a)) := by
  have hnd : (firsts nc).Nodup := (List.nodup_finRange nc).map (Fin.castSucc_injective nc)
  have hlast : Fin.last nc ∉ firsts nc := by
    intro h
    obtain ⟨i, _, hi⟩ := List.mem_map.1 h
    exact absurd hi (Fin.castSucc_lt_last i).ne
  obtain ⟨M, h1, h2⟩ := buildControlled_acts (firsts nc) (Fin.last nc) hnd hlast (ofArr a) rfl (some ((nc + 1 : Nat) : Int)) (.inl rfl)
  rw [gateN_ofArr] at h2
  refine ⟨M, ?_, h2⟩
  have e1 : (firsts nc).map (fun c : Fin (nc + 1) => (c.val : Int)) = (List.range nc).map Int.ofNat := by
    unfold firsts
    rw [List.map_map, ← List.map_coe_finRange_eq_range, List.map_map]
    rfl
  rw [e1] at h1
  have e2 : (List.range' nc 1).map Int.ofNat = [((Fin.last nc).val : Int)] := rfl
  have e3 : controlledMatrix nc 1 b none [] [] = (do
      let u ← b.matrix
      buildControlled ((List.range nc).map Int.ofNat) ((List.range' nc 1).map Int.ofNat) (some (ofArr u)) (some ((nc + 1 : Nat) : Int))) := by
    unfold controlledMatrix
    cases b <;> rfl
  rw [e3, ha, ok_bind, e2]
  exact h1

/-- Every operation acts as its matrix, on any distinct qubits of a system of any size. -/
theorem gateAct_matrix {k : Kind} {ts : List (Fin n)} {f : State n ℂ → State n ℂ} (h : GateAct k ts f) :
    ∃ M, opMatrix k = .ok (some M) ∧ M.dim = 2 ^ ts.length ∧ f = applyMatrix ts.get M := by
  cases h with
  | @single b a t ha =>
    refine ⟨ofArr a, ?_, rfl, ?_⟩
    · show (do let a ← b.matrix; pure (some (ofArr a)) : Except Err (Option NMat)) = _
      rw [ha]; rfl
    · rw [lift_controlled (List.nodup_iff_injective_get.1 (List.nodup_singleton t)) (ofArr_acts a)]
      exact (funext (applyControlled_nil' t _)).symm
  | @controlled1 b a c t ha hct =>
    obtain ⟨M, h1, h2⟩ := controlledMatrix_ok 1 b a ha
    refine ⟨M, ?_, h2.1, ?_⟩
    · show (do let m ← controlledMatrix 1 1 b none [] []; pure (some m) : Except Err (Option NMat)) = _
      rw [h1]; rfl
    · exact (lift_controlled (n := n) (ts := [c, t].get) (List.nodup_iff_injective_get.1 (by simp [hct])) h2).symm
  | @controlled2 b a c c' t ha h1 h2 h3 =>
    obtain ⟨M, g1, g2⟩ := controlledMatrix_ok 2 b a ha
    refine ⟨M, ?_, g2.1, ?_⟩
    · show (do let m ← controlledMatrix 2 1 b none [] []; pure (some m) : Except Err (Option NMat)) = _
      rw [g1]; rfl
    · exact (lift_controlled (n := n) (ts := [c, c', t].get) (List.nodup_iff_injective_get.1 (by simp [h1, h2, h3])) g2).symm
  | swap a b hab =>
    refine ⟨_, rfl, rfl, ?_⟩
    funext ψ x
    have hinj : Function.Injective [a, b].get := List.nodup_iff_injective_get.1 (by simp [hab])
    rw [applyMatrix_lift (k := 2) [a, b].get swap_acts]
    unfold applySwap
    dsimp only
    rw [patch_swap (k := 2) (ts := [a, b].get) hinj]
    rfl
  | cswap c a b h1 h2 h3 =>
    refine ⟨_, rfl, rfl, ?_⟩
    funext ψ x
    have hinj : Function.Injective [c, a, b].get := List.nodup_iff_injective_get.1 (by simp [h1, h2, h3])
    rw [applyMatrix_lift (k := 3) [c, a, b].get cswap_acts]
    unfold applyCSwap applySwap
    dsimp only
    rw [patch_swap (k := 3) (ts := [c, a, b].get) hinj, patch_self (k := 3) (ts := [c, a, b].get) hinj]
    rfl
  | ccx c c' t h1 h2 h3 =>
    refine ⟨_, rfl, rfl, ?_⟩
    funext ψ x
    have hinj : Function.Injective [c, c', t].get := List.nodup_iff_injective_get.1 (by simp [h1, h2, h3])
    rw [applyMatrix_lift (k := 3) [c, c', t].get ccx_acts]
    dsimp only
    rw [patch_update (k := 3) (ts := [c, c', t].get) hinj, patch_self (k := 3) (ts := [c, c', t].get) hinj]
    rfl

end
end DG.Unitary
