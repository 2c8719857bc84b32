import Verif.Spec.Sampling
import Verif.Proofs.SimFinal
import Verif.Model.Sampling

/-! # Probabilities of measurement results -/

noncomputable section

namespace DG
open Spec Sim MeasureTheory

variable {n : Nat}

/-- The intervals the random numbers must be in for the outcomes `ms`. -/
def box : List (Fin n) → List Bool → State n ℂ → List (ℝ × ℝ)
  | t :: ts, m :: ms, ψ => (if m then (born t false ψ, 1) else (0, born t false ψ)) :: box ts ms (project t m ψ)
  | _, _, _ => []

/-- The random numbers from number `k` on are in the intervals. -/
def InBox (u : Nat → ℝ) : Nat → List (ℝ × ℝ) → Prop
  | _, [] => True
  | k, (a, b) :: B => (a ≤ u k ∧ u k < b) ∧ InBox u (k + 1) B

theorem inBox_append (u : Nat → ℝ) : ∀ (B B' : List (ℝ × ℝ)) (k : Nat), InBox u k (B ++ B') ↔ InBox u k B ∧ InBox u (k + B.length) B'
  | [], B', k => by simp [InBox]
  | (a, b) :: B, B', k => by
    simp only [List.cons_append, InBox, inBox_append u B B' (k + 1), List.length_cons, and_assoc]
    rw [show k + 1 + B.length = k + (B.length + 1) by omega]

theorem inBox_iff (u : Nat → ℝ) : ∀ (B : List (ℝ × ℝ)) (k : Nat), InBox u k B ↔ ∀ j (h : j < B.length), B[j].1 ≤ u (k + j) ∧ u (k + j) < B[j].2
  | [], k => by simp [InBox]
  | (a, b) :: B, k => by
    rw [InBox, inBox_iff u B (k + 1)]
    constructor
    · rintro ⟨h1, h2⟩ j hj
      cases j with
      | zero => exact h1
      | succ j =>
        have := h2 j (by simpa using hj)
        rw [show k + (j + 1) = k + 1 + j by omega]
        exact this
    · intro h
      refine ⟨h 0 (by simp), fun j hj => ?_⟩
      have := h (j + 1) (by simpa using hj)
      rw [show k + 1 + j = k + (j + 1) by omega]
      exact this

theorem box_length : ∀ (ts : List (Fin n)) (ms : List Bool) (ψ : State n ℂ), ms.length = ts.length → (box ts ms ψ).length = ts.length
  | [], [], _, _ => rfl
  | t :: ts, m :: ms, ψ, h => by simp [box, box_length ts ms _ (by simpa using h)]

theorem measureAll_iff (u : Nat → ℝ) (hu : ∀ k, 0 ≤ u k ∧ u k < 1) : ∀ (ts : List (Fin n)) (ms : List Bool) (k : Nat) (ψ : State n ℂ),
    ms.length = ts.length → ((measureAll u ts k ψ).1 = ms ↔ InBox u k (box ts ms ψ))
  | [], [], _, _, _ => by simp [measureAll, box, InBox]
  | t :: ts, m :: ms, k, ψ, h => by
    have ih := measureAll_iff u hu ts ms (k + 1) (project t m ψ) (by simpa using h)
    simp only [measureAll, box, List.cons.injEq]
    have ho : outcome t ψ (u k) = m ↔ (if m then ((born t false ψ, 1) : ℝ × ℝ) else (0, born t false ψ)).1 ≤ u k ∧
        u k < (if m then ((born t false ψ, 1) : ℝ × ℝ) else (0, born t false ψ)).2 := by
      unfold outcome
      cases m
      · simp [(hu k).1]
      · simp [(hu k).2]
    rw [show InBox u k ((if m then (born t false ψ, 1) else (0, born t false ψ)) :: box ts ms (project t m ψ)) ↔
      _ from Iff.rfl, InBox, ← ih, ho]
    constructor
    · rintro ⟨h1, h2⟩
      have := ho.2 h1
      rw [this] at h2
      exact ⟨h1, h2⟩
    · rintro ⟨h1, h2⟩
      have := ho.2 h1
      rw [this]
      exact ⟨h1, h2⟩

theorem born_nonneg (t : Fin n) (m : Bool) (ψ : State n ℂ) : 0 ≤ born t m ψ := by
  unfold born
  apply Finset.sum_nonneg
  intro x _
  split
  · exact Complex.normSq_nonneg _
  · exact le_rfl

theorem jointBorn_nonneg (ts : List (Fin n)) (ms : List Bool) (ψ : State n ℂ) : 0 ≤ jointBorn ts ms ψ := by
  unfold jointBorn
  apply Finset.sum_nonneg
  intro x _
  split
  · exact Complex.normSq_nonneg _
  · exact le_rfl

theorem jointBorn_cons (t : Fin n) (ts : List (Fin n)) (m : Bool) (ms : List Bool) (ψ : State n ℂ) :
    jointBorn (t :: ts) (m :: ms) ψ = born t m ψ * jointBorn ts ms (project t m ψ) := by
  rcases (born_nonneg t m ψ).eq_or_lt with h | h
  · rw [← h, zero_mul]
    have hz : ∀ x, x t = m → Complex.normSq (ψ x) = 0 := by
      intro x hx
      have := (Finset.sum_eq_zero_iff_of_nonneg (s := Finset.univ) (f := fun x : Spec.Basis n => if x t = m then Complex.normSq (ψ x) else 0) (by
        intro y _
        split
        · exact Complex.normSq_nonneg _
        · exact le_rfl)).1 h.symm x (Finset.mem_univ x)
      simpa [hx] using this
    unfold jointBorn
    apply Finset.sum_eq_zero
    intro x _
    split
    · next hx =>
      simp only [List.map_cons, List.cons.injEq] at hx
      exact hz x hx.1
    · rfl
  · unfold jointBorn
    rw [Finset.mul_sum]
    apply Finset.sum_congr rfl
    intro x _
    by_cases h1 : x t = m
    · by_cases h2 : ts.map x = ms
      · have hs : Real.sqrt (born t m ψ) * Real.sqrt (born t m ψ) = born t m ψ := Real.mul_self_sqrt h.le
        simp only [List.map_cons, h1, h2, if_true, project, Complex.normSq_mul, Complex.normSq_ofReal]
        field_simp
        rw [Real.sq_sqrt h.le]
      · simp [h1, h2]
    · simp only [List.map_cons, List.cons.injEq, h1, false_and, if_false, project]
      simp

theorem box_prod : ∀ (ts : List (Fin n)) (ms : List Bool) (ψ : State n ℂ), ms.length = ts.length → Spec.normSq ψ = 1 →
    ((box ts ms ψ).map fun p => p.2 - p.1).prod = jointBorn ts ms ψ
  | [], [], ψ, _, h1 => by simpa [box, jointBorn, Spec.normSq] using h1.symm
  | t :: ts, m :: ms, ψ, h, h1 => by
    rw [jointBorn_cons, box, List.map_cons, List.prod_cons]
    have hlen : (if m then ((born t false ψ, 1) : ℝ × ℝ) else (0, born t false ψ)).2 -
        (if m then ((born t false ψ, 1) : ℝ × ℝ) else (0, born t false ψ)).1 = born t m ψ := by
      have hb := born_add t ψ
      rw [h1] at hb
      cases m
      · simp
      · simp; linarith
    rw [hlen]
    rcases (born_nonneg t m ψ).eq_or_lt with h0 | h0
    · rw [← h0, zero_mul, zero_mul]
    · rw [box_prod ts ms _ (by simpa using h) (normSq_project t m ψ h0)]

theorem born_le (t : Fin n) (m : Bool) {ψ : State n ℂ} (h : Spec.normSq ψ = 1 ∨ ψ = 0) : born t m ψ ≤ 1 := by
  rcases h with h | rfl
  · have hb := born_add t ψ
    rw [h] at hb
    have h0 := born_nonneg t false ψ
    have h1 := born_nonneg t true ψ
    cases m <;> linarith
  · simp [born]

theorem project_or (t : Fin n) (m : Bool) {ψ : State n ℂ} (_h : Spec.normSq ψ = 1 ∨ ψ = 0) : Spec.normSq (project t m ψ) = 1 ∨ project t m ψ = 0 := by
  rcases (born_nonneg t m ψ).eq_or_lt with h0 | h0
  · right
    funext x
    simp [project, ← h0]
  · exact .inl (normSq_project t m ψ h0)

/-- The intervals are parts of [0, 1). -/
theorem box_unit : ∀ (ts : List (Fin n)) (ms : List Bool) (ψ : State n ℂ), (Spec.normSq ψ = 1 ∨ ψ = 0) → ∀ p ∈ box ts ms ψ, 0 ≤ p.1 ∧ p.1 ≤ p.2 ∧ p.2 ≤ 1
  | [], _, _, _, p, hp => by simp [box] at hp
  | _ :: _, [], _, _, p, hp => by simp [box] at hp
  | t :: ts, m :: ms, ψ, h, p, hp => by
    rw [box] at hp
    rcases List.mem_cons.1 hp with rfl | hp
    · cases m
      · simpa using ⟨born_nonneg t false ψ, born_le t false h⟩
      · simpa using ⟨born_nonneg t false ψ, born_le t false h⟩
    · exact box_unit ts ms _ (project_or t m h) p hp

theorem uniform_stream {N : Nat} {v : Fin N → ℝ} (hv : v ∈ cube N) : ∀ k, 0 ≤ stream v k ∧ stream v k < 1 := by
  intro k
  unfold stream
  split
  · exact hv _
  · norm_num

theorem stream_lt {N : Nat} (v : Fin N → ℝ) (j : Fin N) : stream v j = v j := by
  simp [stream]

/-- The random numbers in intervals. -/
theorem event_box {B : List (ℝ × ℝ)} (h0 : ∀ p ∈ B, 0 ≤ p.1 ∧ p.1 ≤ p.2 ∧ p.2 ≤ 1) {E : (Nat → ℝ) → Prop}
    (hE : ∀ u : Nat → ℝ, (∀ k, 0 ≤ u k ∧ u k < 1) → (E u ↔ InBox u 0 B)) :
    {v : Fin B.length → ℝ | v ∈ cube B.length ∧ E (stream v)} = Set.pi Set.univ fun j => Set.Ico (B[j].1) (B[j].2) := by
  ext v
  simp only [Set.mem_ofPred_eq, Set.mem_pi, Set.mem_univ, true_implies, Set.mem_Ico]
  constructor
  · rintro ⟨hv, he⟩ j
    have := (inBox_iff _ _ _).1 ((hE _ (uniform_stream hv)).1 he) j j.isLt
    rw [Nat.zero_add, stream_lt] at this
    exact this
  · intro h
    have hv : v ∈ cube B.length := by
      intro j
      have h1 := h0 B[j] (List.getElem_mem _)
      have h2 := h j
      exact ⟨h1.1.trans h2.1, h2.2.trans_le h1.2.2⟩
    refine ⟨hv, (hE _ (uniform_stream hv)).2 ((inBox_iff _ _ _).2 fun j hj => ?_)⟩
    rw [Nat.zero_add, show stream v j = v ⟨j, hj⟩ from stream_lt v ⟨j, hj⟩]
    exact h ⟨j, hj⟩

theorem event_measurable {N : Nat} {B : List (ℝ × ℝ)} (hB : B.length = N) (h0 : ∀ p ∈ B, 0 ≤ p.1 ∧ p.1 ≤ p.2 ∧ p.2 ≤ 1) {E : (Nat → ℝ) → Prop}
    (hE : ∀ u : Nat → ℝ, (∀ k, 0 ≤ u k ∧ u k < 1) → (E u ↔ InBox u 0 B)) : MeasurableSet {v : Fin N → ℝ | v ∈ cube N ∧ E (stream v)} := by
  subst hB
  rw [event_box h0 hE]
  exact MeasurableSet.univ_pi fun _ => measurableSet_Ico

/-- The probability to be in intervals. -/
theorem chance_box {N : Nat} {B : List (ℝ × ℝ)} (hB : B.length = N) (h0 : ∀ p ∈ B, 0 ≤ p.1 ∧ p.1 ≤ p.2 ∧ p.2 ≤ 1) {E : (Nat → ℝ) → Prop}
    (hE : ∀ u : Nat → ℝ, (∀ k, 0 ≤ u k ∧ u k < 1) → (E u ↔ InBox u 0 B)) : chance N E = ENNReal.ofReal ((B.map fun p => p.2 - p.1).prod) := by
  subst hB
  unfold chance
  rw [event_box h0 hE, Real.volume_pi_Ico, ← ENNReal.ofReal_prod_of_nonneg]
  · congr 1
    rw [← List.prod_ofFn]
    congr 1
    apply List.ext_getElem
    · simp
    · intro i h1 h2
      simp
  · intro i _
    have := h0 B[i] (List.getElem_mem _)
    simpa using this.2.1

/-! ## Several rows -/

theorem rows_iff (u : Nat → ℝ) (hu : ∀ k, 0 ≤ u k ∧ u k < 1) (ts : List (Fin n)) (ψ : State n ℂ) : ∀ (rows : List (List Bool)) (k : Nat),
    (∀ row ∈ rows, row.length = ts.length) →
    ((List.range rows.length).map (fun i => (measureAll u ts (k + i * ts.length) ψ).1) = rows ↔ InBox u k (rows.flatMap fun ms => box ts ms ψ))
  | [], k, _ => by simp [InBox]
  | ms :: rows, k, h => by
    have hms := h ms (by simp)
    have ih := rows_iff u hu ts ψ rows (k + ts.length) fun row hr => h row (by simp [hr])
    rw [List.length_cons, List.range_succ_eq_map, List.map_cons, List.map_map, List.cons.injEq, List.flatMap_cons, inBox_append, box_length _ _ _ hms, ← ih,
      ← measureAll_iff u hu ts ms k ψ hms]
    have e : ((fun i => (measureAll u ts (k + i * ts.length) ψ).1) ∘ Nat.succ) = fun i => (measureAll u ts (k + ts.length + i * ts.length) ψ).1 := by
      funext i
      simp only [Function.comp, Nat.succ_eq_add_one]
      congr 2
      ring
    rw [e]
    simp

theorem rows_length (ts : List (Fin n)) (ψ : State n ℂ) : ∀ (rows : List (List Bool)), (∀ row ∈ rows, row.length = ts.length) →
    (rows.flatMap fun ms => box ts ms ψ).length = rows.length * ts.length
  | [], _ => by simp
  | ms :: rows, h => by
    rw [List.flatMap_cons, List.length_append, box_length _ _ _ (h ms (by simp)), rows_length ts ψ rows fun row hr => h row (by simp [hr]),
      List.length_cons]
    ring

theorem rows_prod (ts : List (Fin n)) (ψ : State n ℂ) (h1 : Spec.normSq ψ = 1) : ∀ (rows : List (List Bool)), (∀ row ∈ rows, row.length = ts.length) →
    ((rows.flatMap fun ms => box ts ms ψ).map fun p => p.2 - p.1).prod = (rows.map fun ms => jointBorn ts ms ψ).prod
  | [], _ => by simp
  | ms :: rows, h => by
    rw [List.flatMap_cons, List.map_append, List.prod_append, box_prod _ _ _ (h ms (by simp)) h1, rows_prod ts ψ h1 rows fun row hr => h row (by simp [hr]),
      List.map_cons, List.prod_cons]

theorem chance_rows (ts : List (Fin n)) (ψ : State n ℂ) (h1 : Spec.normSq ψ = 1) (rows : List (List Bool)) (h : ∀ row ∈ rows, row.length = ts.length)
    {E : (Nat → ℝ) → Prop} (hE : ∀ u : Nat → ℝ, (∀ k, 0 ≤ u k ∧ u k < 1) →
      (E u ↔ (List.range rows.length).map (fun i => (measureAll u ts (i * ts.length) ψ).1) = rows)) :
    chance (rows.length * ts.length) E = ENNReal.ofReal (rows.map fun ms => jointBorn ts ms ψ).prod := by
  rw [← rows_prod ts ψ h1 rows h]
  refine chance_box (rows_length ts ψ rows h) ?_ ?_
  · intro p hp
    obtain ⟨ms, -, hp⟩ := List.mem_flatMap.1 hp
    exact box_unit ts ms ψ (.inl h1) p hp
  · intro u hu
    rw [hE u hu, ← rows_iff u hu ts ψ rows 0 h]
    simp only [Nat.zero_add]

/-! ## One row -/

/-- The intervals for the outcomes `ms` of the measurements from random number `k` on. -/
def rowBox (N k : Nat) (ts : List (Fin n)) (ms : List Bool) (ψ : State n ℂ) : List (ℝ × ℝ) :=
  List.replicate k (0, 1) ++ (box ts ms ψ ++ List.replicate (N - (k + ts.length)) (0, 1))

theorem inBox_replicate (u : Nat → ℝ) (hu : ∀ k, 0 ≤ u k ∧ u k < 1) : ∀ (m k : Nat), InBox u k (List.replicate m (0, 1))
  | 0, _ => trivial
  | m + 1, k => by
    rw [List.replicate_succ]
    exact ⟨hu k, inBox_replicate u hu m (k + 1)⟩

theorem rowBox_iff (u : Nat → ℝ) (hu : ∀ k, 0 ≤ u k ∧ u k < 1) (N k : Nat) (ts : List (Fin n)) (ms : List Bool) (ψ : State n ℂ) (h : ms.length = ts.length) :
    (measureAll u ts k ψ).1 = ms ↔ InBox u 0 (rowBox N k ts ms ψ) := by
  rw [rowBox, inBox_append, inBox_append, List.length_replicate, Nat.zero_add, measureAll_iff u hu ts ms k ψ h]
  simp [inBox_replicate u hu]

theorem rowBox_length {N k : Nat} {ts : List (Fin n)} (hk : k + ts.length ≤ N) {ms : List Bool} (ψ : State n ℂ) (h : ms.length = ts.length) :
    (rowBox N k ts ms ψ).length = N := by
  simp only [rowBox, List.length_append, List.length_replicate, box_length _ _ _ h]
  omega

theorem rowBox_prod (N k : Nat) {ts : List (Fin n)} {ms : List Bool} {ψ : State n ℂ} (h : ms.length = ts.length) (h1 : Spec.normSq ψ = 1) :
    ((rowBox N k ts ms ψ).map fun p => p.2 - p.1).prod = jointBorn ts ms ψ := by
  simp [rowBox, box_prod ts ms ψ h h1]

theorem rowBox_unit (N k : Nat) (ts : List (Fin n)) (ms : List Bool) {ψ : State n ℂ} (h1 : Spec.normSq ψ = 1) :
    ∀ p ∈ rowBox N k ts ms ψ, 0 ≤ p.1 ∧ p.1 ≤ p.2 ∧ p.2 ≤ 1 := by
  intro p hp
  simp only [rowBox, List.mem_append, List.mem_replicate] at hp
  rcases hp with ⟨-, rfl⟩ | hp | ⟨-, rfl⟩
  · norm_num
  · exact box_unit ts ms ψ (.inl h1) p hp
  · norm_num

/-- The distribution of the outcomes of measuring several qubits, using the random numbers from number `k` on. -/
theorem chance_row {N k : Nat} {ts : List (Fin n)} (hk : k + ts.length ≤ N) {ψ : State n ℂ} (h1 : Spec.normSq ψ = 1) {ms : List Bool} (h : ms.length = ts.length) :
    chance N (fun u => (measureAll u ts k ψ).1 = ms) = ENNReal.ofReal (jointBorn ts ms ψ) := by
  rw [← rowBox_prod N k h h1]
  exact chance_box (rowBox_length hk ψ h) (rowBox_unit N k ts ms h1) fun u hu => rowBox_iff u hu N k ts ms ψ h

theorem row_measurable {N k : Nat} {ts : List (Fin n)} (hk : k + ts.length ≤ N) {ψ : State n ℂ} (h1 : Spec.normSq ψ = 1) {ms : List Bool}
    (h : ms.length = ts.length) : MeasurableSet {v : Fin N → ℝ | v ∈ cube N ∧ (measureAll (stream v) ts k ψ).1 = ms} :=
  event_measurable (rowBox_length hk ψ h) (rowBox_unit N k ts ms h1) (E := fun u => (measureAll u ts k ψ).1 = ms) fun u hu => rowBox_iff u hu N k ts ms ψ h

theorem measureAll_length (u : Nat → ℝ) : ∀ (ts : List (Fin n)) (k : Nat) (ψ : State n ℂ), (measureAll u ts k ψ).1.length = ts.length
  | [], _, _ => rfl
  | t :: ts, k, ψ => by simp [measureAll, measureAll_length u ts]

/-- Marginals of the joint distribution. -/
theorem jointBorn_marginal (ts : List (Fin n)) (j : Fin ts.length) (ψ : State n ℂ) :
    (∑ f : Fin ts.length → Bool, if f j = true then jointBorn ts (List.ofFn f) ψ else 0) = born ts[j] true ψ := by
  have key : ∀ (x : Spec.Basis n) (f : Fin ts.length → Bool), ts.map x = List.ofFn f ↔ f = fun i => x ts[i] := by
    intro x f
    constructor
    · intro h
      funext i
      have h2 : (ts.map x)[i.val]? = (List.ofFn f)[i.val]? := by rw [h]
      simp at h2
      exact h2.symm
    · rintro rfl
      apply List.ext_getElem
      · simp
      · intro i h1 h2
        simp
  unfold jointBorn born
  have h1 : ∀ f : Fin ts.length → Bool, (if f j = true then ∑ x, (if ts.map x = List.ofFn f then Complex.normSq (ψ x) else 0) else 0) =
      ∑ x, if f = (fun i => x ts[i]) then (if x ts[j] = true then Complex.normSq (ψ x) else 0) else 0 := by
    intro f
    by_cases hf : f j = true
    · rw [if_pos hf]
      apply Finset.sum_congr rfl
      intro x _
      rw [if_congr (key x f) rfl rfl]
      by_cases e : f = fun i => x ts[i]
      · subst e
        simp only [if_true, hf]
      · rw [if_neg e, if_neg e]
    · rw [if_neg hf]
      symm
      apply Finset.sum_eq_zero
      intro x _
      by_cases e : f = fun i => x ts[i]
      · subst e
        simp only [if_true]
        rw [if_neg hf]
      · rw [if_neg e]
  simp only [h1]
  rw [Finset.sum_comm]
  apply Finset.sum_congr rfl
  intro x _
  rw [Finset.sum_ite_eq' Finset.univ (fun i => x ts[i])]
  simp

/-! ## Expected values -/

theorem cube_eq (N : Nat) : cube N = Set.pi Set.univ fun _ => Set.Ico (0 : ℝ) 1 := by
  ext v
  simp [cube]

theorem cube_measurable (N : Nat) : MeasurableSet (cube N) := by
  rw [cube_eq]
  exact MeasurableSet.univ_pi fun _ => measurableSet_Ico

theorem cube_volume (N : Nat) : volume (cube N) = 1 := by
  rw [cube_eq, Real.volume_pi_Ico]
  simp

/-- The `j`th outcome of a measurement as a number. -/
def outcomeAt (u : Nat → ℝ) (ts : List (Fin n)) (k : Nat) (ψ : State n ℂ) (j : Nat) : ℝ := if (measureAll u ts k ψ).1.getD j false then 1 else 0

theorem outcomeAt_eq {N k : Nat} {ts : List (Fin n)} {ψ : State n ℂ} (j : Fin ts.length) {v : Fin N → ℝ} (hv : v ∈ cube N) :
    outcomeAt (stream v) ts k ψ j = ∑ f : Fin ts.length → Bool,
      if f j = true then Set.indicator {v : Fin N → ℝ | v ∈ cube N ∧ (measureAll (stream v) ts k ψ).1 = List.ofFn f} (fun _ => (1 : ℝ)) v else 0 := by
  have hl := measureAll_length (stream v) ts k ψ
  set l := (measureAll (stream v) ts k ψ).1 with hldef
  have h1 : ∀ f : Fin ts.length → Bool, (if f j = true then Set.indicator {v : Fin N → ℝ | v ∈ cube N ∧ (measureAll (stream v) ts k ψ).1 = List.ofFn f} (fun _ => (1 : ℝ)) v else 0) =
      if f = (fun i => l[i.val]'(by rw [hl]; exact i.isLt)) then (if f j = true then 1 else 0) else 0 := by
    intro f
    have hiff : v ∈ {v : Fin N → ℝ | v ∈ cube N ∧ (measureAll (stream v) ts k ψ).1 = List.ofFn f} ↔ f = fun i => l[i.val]'(by rw [hl]; exact i.isLt) := by
      simp only [Set.mem_ofPred_eq, hv, true_and, ← hldef]
      constructor
      · intro h
        funext i
        simp [h]
      · rintro rfl
        apply List.ext_getElem
        · simp [hl]
        · intro i h1 h2
          simp
    by_cases e : f = fun i => l[i.val]'(by rw [hl]; exact i.isLt)
    · rw [if_pos e, Set.indicator_of_mem (hiff.2 e)]
    · rw [if_neg e, Set.indicator_of_notMem (fun h => e (hiff.1 h))]
      simp
  simp only [h1]
  rw [Finset.sum_ite_eq' Finset.univ]
  simp only [Finset.mem_univ, if_true]
  unfold outcomeAt
  rw [← hldef, List.getD_eq_getElem?_getD, List.getElem?_eq_getElem (show j.val < l.length by rw [hl]; exact j.isLt), Option.getD_some]

theorem indicator_integrable {N : Nat} {S : Set (Fin N → ℝ)} (hS : MeasurableSet S) :
    IntegrableOn (Set.indicator S fun _ => (1 : ℝ)) (cube N) := by
  apply Integrable.indicator _ hS
  apply integrableOn_const
  · rw [cube_volume]; simp
  · simp

theorem outcomeAt_integrable {N k : Nat} {ts : List (Fin n)} (hk : k + ts.length ≤ N) {ψ : State n ℂ} (h1 : Spec.normSq ψ = 1) (j : Fin ts.length) :
    IntegrableOn (fun v : Fin N → ℝ => outcomeAt (stream v) ts k ψ j) (cube N) := by
  rw [integrableOn_congr_fun (fun v hv => outcomeAt_eq j hv) (cube_measurable N)]
  apply integrable_finsetSum
  intro f _
  split
  · exact indicator_integrable (row_measurable hk h1 (by simp))
  · exact integrable_zero _ _ _

/-- The expected value of an outcome is the probability of 1. -/
theorem expected_outcome {N k : Nat} {ts : List (Fin n)} (hk : k + ts.length ≤ N) {ψ : State n ℂ} (h1 : Spec.normSq ψ = 1) (j : Fin ts.length) :
    ∫ v in cube N, outcomeAt (stream v) ts k ψ j = born ts[j] true ψ := by
  rw [setIntegral_congr_fun (cube_measurable N) (fun v hv => outcomeAt_eq j hv), integral_finsetSum]
  · rw [← jointBorn_marginal]
    apply Finset.sum_congr rfl
    intro f _
    split
    · rw [setIntegral_indicator (row_measurable hk h1 (by simp)), setIntegral_const, smul_eq_mul, mul_one]
      have hs : cube N ∩ {v : Fin N → ℝ | v ∈ cube N ∧ (measureAll (stream v) ts k ψ).1 = List.ofFn f} =
          {v : Fin N → ℝ | v ∈ cube N ∧ (measureAll (stream v) ts k ψ).1 = List.ofFn f} := by
        apply Set.inter_eq_right.2
        exact fun v hv => hv.1
      rw [hs, Measure.real]
      have := chance_row hk h1 (ms := List.ofFn f) (by simp)
      unfold chance at this
      rw [this, ENNReal.toReal_ofReal (jointBorn_nonneg _ _ _)]
    · simp
  · intro f _
    split
    · exact indicator_integrable (row_measurable hk h1 (by simp))
    · exact integrable_zero _ _ _

/-- The expected value of an average of outcomes. -/
theorem expected_mean {ts : List (Fin n)} (num : Nat) (hnum : 1 ≤ num) {ψ : State n ℂ} (h1 : Spec.normSq ψ = 1) (j : Fin ts.length) :
    expected (num * ts.length) (fun u => ((List.range num).map fun k => outcomeAt u ts (k * ts.length) ψ j).sum / num) = born ts[j] true ψ := by
  unfold expected
  have hk : ∀ k ∈ Finset.range num, k * ts.length + ts.length ≤ num * ts.length := by
    intro k hk
    have := Finset.mem_range.1 hk
    calc k * ts.length + ts.length = (k + 1) * ts.length := by ring
      _ ≤ num * ts.length := Nat.mul_le_mul_right _ this
  have e : ∀ v : Fin (num * ts.length) → ℝ, ((List.range num).map fun k => outcomeAt (stream v) ts (k * ts.length) ψ j).sum / (num : ℝ) =
      (∑ k ∈ Finset.range num, outcomeAt (stream v) ts (k * ts.length) ψ j) * (1 / num) := by
    intro v
    rw [← List.sum_toFinset _ List.nodup_range, List.toFinset_range]
    ring
  simp only [e]
  rw [integral_mul_const, integral_finsetSum _ fun k hk' => outcomeAt_integrable (hk k hk') h1 j,
    Finset.sum_congr rfl fun k hk' => expected_outcome (hk k hk') h1 j, show (∑ k ∈ Finset.range num, born ts[j] true ψ) = num * born ts[j] true ψ by simp]
  have : (num : ℝ) ≠ 0 := by positivity
  field_simp

end DG
