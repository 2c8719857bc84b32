import Verif.Spec.Branches
import Verif.Proofs.Sampling

/-! # The distribution of the results of a circuit -/

noncomputable section

namespace DG
open Spec Sim MeasureTheory

variable {n : Nat}

/-! ## Parts of states -/

theorem normSq_nonneg' (ψ : State n ℂ) : 0 ≤ Spec.normSq ψ := Finset.sum_nonneg fun _ _ => Complex.normSq_nonneg _

theorem normSq_zero_iff {ψ : State n ℂ} : Spec.normSq ψ = 0 ↔ ψ = 0 := by
  constructor
  · intro h
    funext x
    have := (Finset.sum_eq_zero_iff_of_nonneg (fun y _ => Complex.normSq_nonneg (ψ y))).1 h x (Finset.mem_univ x)
    simpa using this
  · rintro rfl
    simp [Spec.normSq]

theorem normSq_restrict (ts : List (Fin n)) (ms : List Bool) (ψ : State n ℂ) : Spec.normSq (restrict ts ms ψ) = jointBorn ts ms ψ := by
  unfold Spec.normSq restrict jointBorn
  apply Finset.sum_congr rfl
  intro x _
  split <;> simp

theorem normSq_scale (a : ℝ) (ψ : State n ℂ) : Spec.normSq (fun x => (a : ℂ) * ψ x) = a ^ 2 * Spec.normSq ψ := by
  unfold Spec.normSq
  rw [Finset.mul_sum]
  apply Finset.sum_congr rfl
  intro x _
  rw [Complex.normSq_mul, Complex.normSq_ofReal]
  ring

theorem restrict_scale (ts : List (Fin n)) (ms : List Bool) (a : ℂ) (ψ : State n ℂ) :
    restrict ts ms (fun x => a * ψ x) = fun x => a * restrict ts ms ψ x := by
  funext x
  simp only [restrict]
  split <;> simp

theorem normalised_scale {a : ℝ} (ha : 0 < a) (ψ : State n ℂ) : normalised (fun x => (a : ℂ) * ψ x) = normalised ψ := by
  funext x
  simp only [normalised]
  rw [normSq_scale, Real.sqrt_mul (sq_nonneg a), Real.sqrt_sq ha.le, ← mul_assoc, ← Complex.ofReal_mul]
  congr 2
  field_simp

theorem normSq_normalised {ψ : State n ℂ} (h : Spec.normSq ψ ≠ 0) : Spec.normSq (normalised ψ) = 1 := by
  have h0 : 0 < Spec.normSq ψ := lt_of_le_of_ne (normSq_nonneg' ψ) (Ne.symm h)
  show Spec.normSq (fun x => ((1 / Real.sqrt (Spec.normSq ψ) : ℝ) : ℂ) * ψ x) = 1
  rw [normSq_scale, div_pow, Real.sq_sqrt h0.le]
  field_simp

theorem normalised_one {ψ : State n ℂ} (h : Spec.normSq ψ = 1) : normalised ψ = ψ := by
  funext x
  simp [normalised, h]

/-- The states after finding the qubits `ts` in the states `ms`. -/
def collapse : List (Fin n) → List Bool → State n ℂ → State n ℂ
  | t :: ts, m :: ms, ψ => collapse ts ms (project t m ψ)
  | _, _, ψ => ψ

theorem measureAll_collapse (u : Nat → ℝ) : ∀ (ts : List (Fin n)) (k : Nat) (ψ : State n ℂ),
    (measureAll u ts k ψ).2 = collapse ts (measureAll u ts k ψ).1 ψ
  | [], _, _ => rfl
  | t :: ts, k, ψ => by
    simp only [measureAll, collapse]
    exact measureAll_collapse u ts (k + 1) _

theorem restrict_cons (t : Fin n) (ts : List (Fin n)) (m : Bool) (ms : List Bool) (ψ : State n ℂ) :
    restrict (t :: ts) (m :: ms) ψ = restrict ts ms (restrict [t] [m] ψ) := by
  funext x
  simp only [restrict, List.map_cons, List.map_nil, List.cons.injEq, and_true]
  by_cases h1 : x t = m <;> by_cases h2 : ts.map x = ms <;> simp [h1, h2]

theorem project_eq (t : Fin n) (m : Bool) (ψ : State n ℂ) : project t m ψ = normalised (restrict [t] [m] ψ) := by
  have hb : Spec.normSq (restrict [t] [m] ψ) = born t m ψ := by
    rw [normSq_restrict]
    simp [jointBorn, born]
  funext x
  simp only [normalised, hb, project, restrict, List.map_cons, List.map_nil, List.cons.injEq, and_true]
  split <;> simp

theorem restrict_zero (ts : List (Fin n)) (ms : List Bool) : restrict ts ms (0 : State n ℂ) = 0 := by
  funext x
  simp [restrict]

theorem collapse_eq : ∀ (ts : List (Fin n)) (ms : List Bool) (ψ : State n ℂ), ms.length = ts.length → Spec.normSq ψ = 1 →
    Spec.normSq (restrict ts ms ψ) ≠ 0 → collapse ts ms ψ = normalised (restrict ts ms ψ)
  | [], [], ψ, _, h1, _ => by
    rw [show restrict [] [] ψ = ψ by funext x; simp [restrict], normalised_one h1]
    rfl
  | t :: ts, m :: ms, ψ, hl, h1, h0 => by
    rw [restrict_cons] at h0 ⊢
    have hne : Spec.normSq (restrict [t] [m] ψ) ≠ 0 := by
      intro h
      rw [normSq_zero_iff.1 h, restrict_zero] at h0
      exact h0 (normSq_zero_iff.2 rfl)
    have hpos : 0 < Spec.normSq (restrict [t] [m] ψ) := lt_of_le_of_ne (normSq_nonneg' _) (Ne.symm hne)
    have ha : 0 < 1 / Real.sqrt (Spec.normSq (restrict [t] [m] ψ)) := by positivity
    have hr : restrict ts ms (normalised (restrict [t] [m] ψ)) =
        fun x => ((1 / Real.sqrt (Spec.normSq (restrict [t] [m] ψ)) : ℝ) : ℂ) * restrict ts ms (restrict [t] [m] ψ) x := restrict_scale _ _ _ _
    rw [collapse, project_eq, collapse_eq ts ms _ (by simpa using hl) (normSq_normalised hne) (by
      rw [hr, normSq_scale]
      exact mul_ne_zero (pow_ne_zero _ ha.ne') h0), hr, normalised_scale ha]

theorem collapse_or : ∀ (ts : List (Fin n)) (ms : List Bool) (ψ : State n ℂ), (Spec.normSq ψ = 1 ∨ ψ = 0) →
    Spec.normSq (collapse ts ms ψ) = 1 ∨ collapse ts ms ψ = 0
  | [], _, ψ, h => h
  | _ :: _, [], ψ, h => h
  | t :: ts, m :: ms, ψ, h => collapse_or ts ms _ (project_or t m h)

/-! ## Rows -/

theorem mem_allRows : ∀ {k : Nat} {ms : List Bool}, ms ∈ allRows k ↔ ms.length = k
  | 0, ms => by simp [allRows]
  | k + 1, ms => by
    simp only [allRows, List.mem_append, List.mem_map, mem_allRows (k := k)]
    constructor
    · rintro (⟨l, h, rfl⟩ | ⟨l, h, rfl⟩) <;> simp [h]
    · intro h
      cases ms with
      | nil => simp at h
      | cons m ms =>
        cases m
        · exact .inl ⟨ms, by simpa using h, rfl⟩
        · exact .inr ⟨ms, by simpa using h, rfl⟩

theorem nodup_allRows : ∀ k, (allRows k).Nodup
  | 0 => by simp [allRows]
  | k + 1 => by
    rw [allRows, List.nodup_append]
    refine ⟨(nodup_allRows k).map (List.cons_injective), (nodup_allRows k).map (List.cons_injective), ?_⟩
    intro a ha b hb
    obtain ⟨_, -, rfl⟩ := List.mem_map.1 ha
    obtain ⟨_, -, rfl⟩ := List.mem_map.1 hb
    simp

theorem flatMap_one {α β : Type} {f : α → List β} {a : α} : ∀ {l : List α}, l.Nodup → a ∈ l → (∀ x ∈ l, x ≠ a → f x = []) → l.flatMap f = f a
  | [], _, h, _ => by simp at h
  | y :: l, hn, h, hf => by
    rw [List.nodup_cons] at hn
    rw [List.flatMap_cons]
    by_cases hy : y = a
    · subst hy
      have : l.flatMap f = [] := by
        rw [List.flatMap_eq_nil_iff]
        intro x hx
        refine hf x (by simp [hx]) ?_
        rintro rfl
        exact hn.1 hx
      rw [this, List.append_nil]
    · rw [hf y (by simp) hy, List.nil_append]
      refine flatMap_one hn.2 ?_ fun x hx => hf x (by simp [hx])
      rcases List.mem_cons.1 h with h | h
      · exact absurd h.symm hy
      · exact h

theorem forall₂_flatMap {α β γ : Type} {R : β → γ → Prop} {f : α → List β} {g : α → List γ} : ∀ {l : List α},
    (∀ a ∈ l, List.Forall₂ R (f a) (g a)) → List.Forall₂ R (l.flatMap f) (l.flatMap g)
  | [], _ => .nil
  | a :: l, h => by
    rw [List.flatMap_cons, List.flatMap_cons]
    exact List.rel_append (h a (by simp)) (forall₂_flatMap fun b hb => h b (by simp [hb]))

theorem writeBits_append (vals : Nat → Option Bool) : ∀ (l l' : List (Nat × Bool)), writeBits vals (l ++ l') = writeBits (writeBits vals l) l'
  | [], _ => rfl
  | (b, m) :: l, l' => writeBits_append (Function.update vals b (some m)) l l'

theorem gateAct_scale {k : Kind} {ts : List (Fin n)} {f : State n ℂ → State n ℂ} (h : GateAct k ts f) (a : ℂ) (ψ : State n ℂ) :
    f (fun x => a * ψ x) = fun x => a * f ψ x := by
  obtain ⟨K, hK⟩ := DG.GateAct.isLocal h
  funext x
  rw [hK.lin, hK.lin, Finset.mul_sum]
  apply Finset.sum_congr rfl
  intro y _
  ring

/-! ## Branches and intervals -/

/-- The random numbers that lead to a branch, and the state and the bits at its end. -/
structure Way (n : Nat) where
  box : List (ℝ × ℝ)
  ψ : State n ℂ
  bits : Nat → Option Bool

/-- The size of a box. -/
def size (B : List (ℝ × ℝ)) : ℝ := (B.map fun p => p.2 - p.1).prod

theorem size_append (A B : List (ℝ × ℝ)) : size (A ++ B) = size A * size B := by simp [size]

/-- `ψ` is the state `φ` normalised, unless `φ = 0`. -/
def Norms (φ ψ : State n ℂ) : Prop := (Spec.normSq ψ = 1 ∨ ψ = 0) ∧ (Spec.normSq φ ≠ 0 → ψ = normalised φ)

theorem Norms.measure {φ ψ : State n ℂ} (h : Norms φ ψ) {ts : List (Fin n)} {ms : List Bool} (hl : ms.length = ts.length) :
    Norms (restrict ts ms φ) (collapse ts ms ψ) ∧ Spec.normSq (restrict ts ms φ) = Spec.normSq φ * size (box ts ms ψ) := by
  by_cases h0 : Spec.normSq φ = 0
  · have := normSq_zero_iff.1 h0
    subst this
    rw [restrict_zero, h0, zero_mul]
    exact ⟨⟨collapse_or _ _ _ h.1, fun h' => absurd h0 h'⟩, rfl⟩
  · have hψ := h.2 h0
    have hpos : 0 < Spec.normSq φ := lt_of_le_of_ne (normSq_nonneg' _) (Ne.symm h0)
    have ha : 0 < 1 / Real.sqrt (Spec.normSq φ) := by positivity
    have h1 : Spec.normSq ψ = 1 := by rw [hψ]; exact normSq_normalised h0
    have hr : restrict ts ms ψ = fun x => ((1 / Real.sqrt (Spec.normSq φ) : ℝ) : ℂ) * restrict ts ms φ x := by
      rw [hψ]
      exact restrict_scale _ _ _ _
    have hsz : size (box ts ms ψ) = jointBorn ts ms ψ := box_prod ts ms ψ hl h1
    refine ⟨⟨collapse_or _ _ _ h.1, fun h' => ?_⟩, ?_⟩
    · rw [collapse_eq ts ms ψ hl h1 (by
        rw [hr, normSq_scale]
        exact mul_ne_zero (pow_ne_zero _ ha.ne') h'), hr, normalised_scale ha]
    · rw [hsz, ← normSq_restrict ts ms ψ, hr, normSq_scale, div_pow, Real.sq_sqrt hpos.le]
      field_simp

open Classical in
/-- The ways belong to the branches. -/
theorem branches_ways {c : SCircuit} {ops : List SOp} {bits : Nat → Option Bool} {L : List (Branch c.qubits.length)} (h : Branches c ops bits L)
    (hops : ∀ op ∈ ops, GateOp c op ∨ MeasureOp c op) : ∀ (φ ψ : State c.qubits.length ℂ), Norms φ ψ →
    ∃ P : List (Way c.qubits.length),
      List.Forall₂ (fun b (p : Way c.qubits.length) => Norms (b.act φ) p.ψ ∧ Spec.normSq (b.act φ) = Spec.normSq φ * size p.box ∧ p.bits = writeBits bits b.writes) L P ∧
      (∀ p ∈ P, p.box.length ≤ measuredQubits ops ∧ ∀ i ∈ p.box, 0 ≤ i.1 ∧ i.1 ≤ i.2 ∧ i.2 ≤ 1) ∧
      ∀ (u : Nat → ℝ) (k : Nat), (∀ k, 0 ≤ u k ∧ u k < 1) →
        ∃ p, (P.filter fun p => InBox u k p.box) = [p] ∧ Exec c u ops ⟨ψ, bits, k⟩ ⟨p.ψ, p.bits, k + p.box.length⟩ := by
  induction h with
  | @nil bits =>
    intro φ ψ hn
    refine ⟨[⟨[], ψ, bits⟩], ?_, ?_, ?_⟩
    · simpa [size, writeBits] using hn
    · simp
    · intro u k _
      exact ⟨⟨[], ψ, bits⟩, by simp [InBox], .nil⟩
  | @blocked op ops bits L hb hL ih =>
    intro φ ψ hn
    obtain ⟨P, p1, p2, p3⟩ := ih (fun o ho => hops o (by simp [ho])) φ ψ hn
    refine ⟨P, p1, fun p hp => ⟨(p2 p hp).1.trans (by simp [measuredQubits]), (p2 p hp).2⟩, fun u k hu => ?_⟩
    obtain ⟨p, e1, e2⟩ := p3 u k hu
    exact ⟨p, e1, .cons (.blocked hb) e2⟩
  | @gate op ops bits L ts f hb ht hf hL ih =>
    intro φ ψ hn
    have hs : Supported op.kind := by
      rcases hops op (by simp) with h | h
      · exact h.1
      · rw [h.1] at hf
        cases hf
    have hnorm : ∀ χ, Spec.normSq (f χ) = Spec.normSq χ := fun χ => DG.GateAct.norm hf (supported_unitary hs) χ
    have hsm : ∀ (a : ℂ) χ, f (fun x => a * χ x) = fun x => a * f χ x := gateAct_scale hf
    have hn' : Norms (f φ) (f ψ) := by
      refine ⟨?_, ?_⟩
      · rw [hnorm]
        rcases hn.1 with h | h
        · exact .inl h
        · right
          rw [← normSq_zero_iff, hnorm, normSq_zero_iff]
          exact h
      · rw [hnorm]
        intro h
        rw [hn.2 h]
        show f (fun x => _ * φ x) = fun x => _ * f φ x
        rw [hsm, hnorm]
    obtain ⟨P, p1, p2, p3⟩ := ih (fun o ho => hops o (by simp [ho])) (f φ) (f ψ) hn'
    refine ⟨P, ?_, fun p hp => ⟨(p2 p hp).1.trans (by simp [measuredQubits]), (p2 p hp).2⟩, fun u k hu => ?_⟩
    · rw [List.forall₂_map_left_iff]
      simpa only [Function.comp, hnorm] using p1
    · obtain ⟨p, e1, e2⟩ := p3 u k hu
      exact ⟨p, e1, .cons (.gate hb ht hf) e2⟩
  | @measure op ops bits ts L hb hk ht hL ih =>
    intro φ ψ hn
    have hlen : op.qubits.length = ts.length := by rw [ht]; simp
    have ih' : ∀ ms, ∃ P : List (Way c.qubits.length), ms.length = ts.length →
        List.Forall₂ (fun b (p : Way c.qubits.length) => Norms (b.act (restrict ts ms φ)) p.ψ ∧
          Spec.normSq (b.act (restrict ts ms φ)) = Spec.normSq (restrict ts ms φ) * size p.box ∧
          p.bits = writeBits (writeBits bits ((op.bits.getD []).zip ms)) b.writes) (L ms) P ∧
        (∀ p ∈ P, p.box.length ≤ measuredQubits ops ∧ ∀ i ∈ p.box, 0 ≤ i.1 ∧ i.1 ≤ i.2 ∧ i.2 ≤ 1) ∧
        ∀ (u : Nat → ℝ) (k : Nat), (∀ k, 0 ≤ u k ∧ u k < 1) →
          ∃ p, (P.filter fun p => InBox u k p.box) = [p] ∧
            Exec c u ops ⟨collapse ts ms ψ, writeBits bits ((op.bits.getD []).zip ms), k⟩ ⟨p.ψ, p.bits, k + p.box.length⟩ := by
      intro ms
      by_cases hms : ms.length = ts.length
      · obtain ⟨P, hP⟩ := ih ms hms (fun o ho => hops o (by simp [ho])) _ _ (hn.measure hms).1
        exact ⟨P, fun _ => hP⟩
      · exact ⟨[], fun h => absurd h hms⟩
    choose P hP using ih'
    refine ⟨(allRows ts.length).flatMap fun ms => (P ms).map fun p => ⟨box ts ms ψ ++ p.box, p.ψ, p.bits⟩, ?_, ?_, ?_⟩
    · refine forall₂_flatMap fun ms hms => ?_
      rw [mem_allRows] at hms
      rw [List.forall₂_map_left_iff, List.forall₂_map_right_iff]
      refine (hP ms hms).1.imp fun b p hp => ⟨hp.1, ?_, ?_⟩
      · rw [size_append, ← mul_assoc, ← (hn.measure hms).2]
        exact hp.2.1
      · rw [hp.2.2, writeBits_append]
    · intro p hp
      obtain ⟨ms, hms, hp⟩ := List.mem_flatMap.1 hp
      obtain ⟨p, hp', rfl⟩ := List.mem_map.1 hp
      rw [mem_allRows] at hms
      obtain ⟨h1, h2⟩ := (hP ms hms).2.1 p hp'
      refine ⟨?_, fun i hi => ?_⟩
      · simp only [List.length_append, box_length ts ms ψ hms, measuredQubits, List.map_cons, List.sum_cons, hk, hlen] at h1 ⊢
        omega
      · rcases List.mem_append.1 hi with hi | hi
        · exact box_unit ts ms ψ hn.1 i hi
        · exact h2 i hi
    · intro u k hu
      set ms := (measureAll u ts k ψ).1 with hms
      have hml : ms.length = ts.length := measureAll_length u ts k ψ
      obtain ⟨p, e1, e2⟩ := (hP ms hml).2.2 u (k + ts.length) hu
      refine ⟨⟨box ts ms ψ ++ p.box, p.ψ, p.bits⟩, ?_, ?_⟩
      · rw [List.filter_flatMap, flatMap_one (nodup_allRows _) (mem_allRows.2 hml)]
        · rw [List.filter_map]
          have : (P ms).filter ((fun p : Way c.qubits.length => decide (InBox u k p.box)) ∘ fun p => ⟨box ts ms ψ ++ p.box, p.ψ, p.bits⟩) =
              (P ms).filter fun p => InBox u (k + ts.length) p.box := by
            apply List.filter_congr
            intro q _
            simp only [Function.comp, inBox_append, box_length ts ms ψ hml]
            have := (measureAll_iff u hu ts ms k ψ hml).1 hms.symm
            simp [this]
          rw [this, e1]
          rfl
        · intro ms' hm' hne
          rw [mem_allRows] at hm'
          rw [List.filter_eq_nil_iff]
          intro q hq
          obtain ⟨q, -, rfl⟩ := List.mem_map.1 hq
          simp only [inBox_append, decide_eq_true_eq, not_and]
          intro h
          exact absurd ((measureAll_iff u hu ts ms' k ψ hm').2 h).symm (by rw [← hms]; exact hne)
      · refine .cons (.measure hb hk ht) ?_
        rw [measureAll_collapse, ← hms]
        dsimp only
        rw [List.length_append, box_length ts ms ψ hml, ← Nat.add_assoc]
        exact e2

/-! ## The distribution -/

/-- A box with intervals for all random numbers. -/
def padded (N : Nat) (B : List (ℝ × ℝ)) : List (ℝ × ℝ) := B ++ List.replicate (N - B.length) (0, 1)

theorem padded_iff (N : Nat) (B : List (ℝ × ℝ)) {u : Nat → ℝ} (hu : ∀ k, 0 ≤ u k ∧ u k < 1) : InBox u 0 (padded N B) ↔ InBox u 0 B := by
  simp [padded, inBox_append, inBox_replicate u hu]

open Classical in
theorem chance_way {N : Nat} {B : List (ℝ × ℝ)} (hB : B.length ≤ N) (h0 : ∀ i ∈ B, 0 ≤ i.1 ∧ i.1 ≤ i.2 ∧ i.2 ≤ 1) :
    MeasurableSet {v : Fin N → ℝ | v ∈ cube N ∧ InBox (stream v) 0 B} ∧ volume {v : Fin N → ℝ | v ∈ cube N ∧ InBox (stream v) 0 B} = ENNReal.ofReal (size B) := by
  have hl : (padded N B).length = N := by simp [padded]; omega
  have h1 : ∀ i ∈ padded N B, 0 ≤ i.1 ∧ i.1 ≤ i.2 ∧ i.2 ≤ 1 := by
    intro i hi
    rcases List.mem_append.1 hi with hi | hi
    · exact h0 i hi
    · rw [(List.mem_replicate.1 hi).2]
      norm_num
  have h2 : ∀ u : Nat → ℝ, (∀ k, 0 ≤ u k ∧ u k < 1) → (InBox u 0 B ↔ InBox u 0 (padded N B)) := fun u hu => (padded_iff N B hu).symm
  refine ⟨event_measurable hl h1 h2, ?_⟩
  have := chance_box hl h1 h2
  rw [chance] at this
  rw [this]
  congr 1
  simp [padded, size]

open Classical in
/-- The probability of an event that is decided by which of the ways is taken. -/
theorem volume_ways {N : Nat} (Q : Way n → Prop) : ∀ (P : List (Way n)),
    (∀ p ∈ P, p.box.length ≤ N ∧ ∀ i ∈ p.box, 0 ≤ i.1 ∧ i.1 ≤ i.2 ∧ i.2 ≤ 1) →
    (∀ v ∈ cube N, (P.filter fun p => InBox (stream v) 0 p.box).length ≤ 1) →
    MeasurableSet {v : Fin N → ℝ | v ∈ cube N ∧ ∃ p ∈ P, InBox (stream v) 0 p.box ∧ Q p} ∧
    volume {v : Fin N → ℝ | v ∈ cube N ∧ ∃ p ∈ P, InBox (stream v) 0 p.box ∧ Q p} = ENNReal.ofReal ((P.map fun p => if Q p then size p.box else 0).sum)
  | [], _, _ => by simp
  | p :: P, h0, h1 => by
    have hsz : ∀ q ∈ p :: P, 0 ≤ size q.box := by
      intro q hq
      apply List.prod_nonneg
      intro a ha
      obtain ⟨i, hi, rfl⟩ := List.mem_map.1 ha
      have := (h0 q hq).2 i hi
      linarith
    obtain ⟨i1, i2⟩ := volume_ways Q P (fun q hq => h0 q (by simp [hq])) fun v hv =>
      (((List.sublist_cons_self p P).filter _).length_le).trans (h1 v hv)
    obtain ⟨w1, w2⟩ := chance_way (h0 p (by simp)).1 (h0 p (by simp)).2
    rw [List.map_cons, List.sum_cons]
    by_cases hQ : Q p
    · have hset : {v : Fin N → ℝ | v ∈ cube N ∧ ∃ q ∈ p :: P, InBox (stream v) 0 q.box ∧ Q q} =
          {v : Fin N → ℝ | v ∈ cube N ∧ InBox (stream v) 0 p.box} ∪ {v : Fin N → ℝ | v ∈ cube N ∧ ∃ p ∈ P, InBox (stream v) 0 p.box ∧ Q p} := by
        ext v
        simp only [Set.mem_ofPred_eq, Set.mem_union, List.mem_cons, exists_eq_or_imp, hQ, and_true]
        tauto
      have hdis : Disjoint {v : Fin N → ℝ | v ∈ cube N ∧ InBox (stream v) 0 p.box} {v : Fin N → ℝ | v ∈ cube N ∧ ∃ p ∈ P, InBox (stream v) 0 p.box ∧ Q p} := by
        rw [Set.disjoint_left]
        rintro v ⟨hv, a1⟩ ⟨-, q, a2, a3, -⟩
        have := h1 v hv
        rw [List.filter_cons, if_pos (by simpa using a1), List.length_cons] at this
        have hq : q ∈ P.filter fun p => InBox (stream v) 0 p.box := List.mem_filter.2 ⟨a2, by simpa using a3⟩
        have := List.length_pos_of_mem hq
        omega
      rw [hset, if_pos hQ, ENNReal.ofReal_add (hsz p (by simp)) (List.sum_nonneg ?_)]
      · exact ⟨w1.union i1, by rw [measure_union hdis i1, w2, i2]⟩
      · intro a ha
        obtain ⟨q, hq, rfl⟩ := List.mem_map.1 ha
        split
        · exact hsz q (by simp [hq])
        · exact le_rfl
    · have hset : {v : Fin N → ℝ | v ∈ cube N ∧ ∃ q ∈ p :: P, InBox (stream v) 0 q.box ∧ Q q} =
          {v : Fin N → ℝ | v ∈ cube N ∧ ∃ p ∈ P, InBox (stream v) 0 p.box ∧ Q p} := by
        ext v
        simp only [Set.mem_ofPred_eq, List.mem_cons, exists_eq_or_imp, hQ, and_false, false_or]
      rw [hset, if_neg hQ, zero_add]
      exact ⟨i1, i2⟩

/-- The distribution of the state and the bits after operations. -/
theorem exec_distribution {c : SCircuit} (hnd : c.qubits.Nodup) {ops : List SOp} (hops : ∀ op ∈ ops, GateOp c op ∨ MeasureOp c op) {bits : Nat → Option Bool}
    {L : List (Branch c.qubits.length)} (h : Branches c ops bits L) {ψ : State c.qubits.length ℂ} (h1 : Spec.normSq ψ = 1) {N : Nat}
    (hN : measuredQubits ops ≤ N) (Q : State c.qubits.length ℂ → (Nat → Option Bool) → Prop) :
    chance N (fun u => ∃ s, Exec c u ops ⟨ψ, bits, 0⟩ s ∧ Q s.ψ s.bits) = ENNReal.ofReal (bornSum L ψ bits Q) := by
  classical
  obtain ⟨P, p1, p2, p3⟩ := branches_ways h hops ψ ψ ⟨.inl h1, fun _ => (normalised_one h1).symm⟩
  have hv := (volume_ways (N := N) (fun p => Q p.ψ p.bits) P (fun p hp => ⟨(p2 p hp).1.trans hN, (p2 p hp).2⟩) (by
    intro v hv
    obtain ⟨p, e1, -⟩ := p3 (stream v) 0 (uniform_stream hv)
    have := congrArg List.length e1
    simp only [List.length_singleton] at this
    exact this.le)).2
  have hset : {v : Fin N → ℝ | v ∈ cube N ∧ ∃ s, Exec c (stream v) ops ⟨ψ, bits, 0⟩ s ∧ Q s.ψ s.bits} =
      {v : Fin N → ℝ | v ∈ cube N ∧ ∃ p ∈ P, InBox (stream v) 0 p.box ∧ Q p.ψ p.bits} := by
    ext v
    simp only [Set.mem_ofPred_eq]
    refine and_congr_right fun hv => ?_
    obtain ⟨p, e1, e2⟩ := p3 (stream v) 0 (uniform_stream hv)
    constructor
    · rintro ⟨s, g1, g2⟩
      have := exec_det hnd g1 e2
      subst this
      have hp : p ∈ P.filter fun p => InBox (stream v) 0 p.box := by rw [e1]; simp
      rw [List.mem_filter] at hp
      exact ⟨p, hp.1, by simpa using hp.2, g2⟩
    · rintro ⟨q, g1, g2, g3⟩
      have hq : q ∈ P.filter fun p => InBox (stream v) 0 p.box := List.mem_filter.2 ⟨g1, by simpa using g2⟩
      rw [e1, List.mem_singleton] at hq
      subst hq
      exact ⟨_, e2, g3⟩
  unfold chance
  rw [hset, hv]
  congr 1
  unfold bornSum
  clear hset hv p2 p3 h
  induction p1 with
  | nil => rfl
  | @cons b p L P hb _ ih =>
    rw [List.map_cons, List.sum_cons, List.map_cons, List.sum_cons, ih]
    congr 1
    rw [h1, one_mul] at hb
    by_cases h0 : Spec.normSq (b.act ψ) = 0
    · rw [← hb.2.1, h0]
      simp
    · rw [hb.1.2 h0, hb.2.2, hb.2.1]

/-- Every circuit of gates and measurements has branches. -/
theorem branches_exist {c : SCircuit} : ∀ {ops : List SOp}, (∀ op ∈ ops, GateOp c op ∨ MeasureOp c op) → ∀ bits, ∃ L, Branches c ops bits L
  | [], _, bits => ⟨_, .nil⟩
  | op :: ops, hops, bits => by
    have ih := fun bits => branches_exist (c := c) (fun o ho => hops o (by simp [ho]) : ∀ o ∈ ops, _) bits
    by_cases hb : Blocked op bits
    · obtain ⟨L, hL⟩ := ih bits
      exact ⟨L, .blocked hb hL⟩
    · rcases hops op (by simp) with h | h
      · obtain ⟨ts, f, e1, e2⟩ := gateAct_exists h
        obtain ⟨L, hL⟩ := ih bits
        exact ⟨_, .gate hb e1 e2 hL⟩
      · obtain ⟨ts, e1⟩ := exists_targets c op.qubits h.2
        choose L hL using ih
        exact ⟨_, .measure (L := fun ms => L _) hb h.1 e1 fun ms _ => hL _⟩

end DG
