import Verif.Spec.Register
import Verif.Proofs.PyDict

namespace DG
open PyDict

/-- No object currently compares equal to an integer. -/
def Inert (ev : EqEnv) : Prop := ∀ k, ev k = none

theorem pyEq_inert {ev : EqEnv} (h : Inert ev) (a b : Lbl) : pyEq ev a b = decide (a = b) := by
  rw [Bool.eq_iff_iff]; cases a <;> cases b <;> simp [pyEq, h _]

@[simp] theorem Lbl.int_nat_inj (a b : Nat) : (Lbl.int (a : Int) = Lbl.int (b : Int)) ↔ a = b := by
  rw [Lbl.int.injEq]; omega

namespace CyReg

/-- The register `r` represents the duplicate-free list `L`. -/
structure Rep (r : CyReg) (L : List Lbl) : Prop where
  stop : r.stop = L.length
  nodup : L.Nodup
  nd : r.i2l.keys.Nodup
  i2l : ∀ k w, r.i2l.get? k = some w ↔ ∃ i : Nat, k = .int i ∧ L[i]? = some w ∧ w ≠ .int i
  l2i : ∀ v w, r.l2i.get? v = some w ↔ ∃ i : Nat, w = .int i ∧ L[i]? = some v ∧ v ≠ .int i

theorem rep_empty : Rep {} [] := ⟨rfl, List.nodup_nil, List.nodup_nil, by simp, by simp⟩

section
variable {r : CyReg} {L : List Lbl} (h : Rep r L)
include h

theorem Rep.isRange_iff : r.isRange = true ↔ ∀ i : Nat, i < L.length → L[i]? = some (.int i) := by
  constructor
  · intro hr i hi
    have h0 : r.l2i = [] := by simpa [isRange] using hr
    obtain ⟨x, hx⟩ : ∃ x, L[i]? = some x := ⟨L[i], by simp [hi]⟩
    by_contra hne
    have := (h.l2i x (.int i)).2 ⟨i, rfl, hx, by rintro rfl; exact hne hx⟩
    simp [h0] at this
  · intro hr
    have : ∀ v, r.l2i.get? v = none := by
      intro v
      cases hv : r.l2i.get? v with
      | none => rfl
      | some w =>
        obtain ⟨i, rfl, hi, hne⟩ := (h.l2i _ _).1 hv
        have hlt : i < L.length := by
          rcases Nat.lt_or_ge i L.length with h' | h'
          · exact h'
          · simp [List.getElem?_eq_none h'] at hi
        rw [hr i hlt] at hi; cases hi; exact absurd rfl hne
    simp only [isRange, beq_iff_eq, List.length_eq_zero_iff]
    cases hl : r.l2i with
    | nil => rfl
    | cons p d =>
      have := this p.1; rw [hl] at this; simp [get?] at this

theorem Rep.getElem?_int (i : Nat) (hi : i < L.length) :
    L[i]? = some ((r.i2l.get? (.int i)).getD (.int i)) := by
  obtain ⟨x, hx⟩ : ∃ x, L[i]? = some x := ⟨L[i], by simp [hi]⟩
  by_cases hne : x = .int i
  · subst hne
    cases hg : r.i2l.get? (.int i) with
    | none => simpa using hx
    | some w =>
      obtain ⟨j, hj, hw, hne⟩ := (h.i2l _ _).1 hg
      have : j = i := ((Lbl.int_nat_inj _ _).1 hj).symm
      subst this; simpa using hw
  · have := (h.i2l (.int i) x).2 ⟨i, rfl, hx, hne⟩
    simp [this, hx]

theorem Rep.i2l_none_of_ge (i : Nat) (hi : L.length ≤ i) : r.i2l.get? (.int i) = none := by
  cases hg : r.i2l.get? (.int i) with
  | none => rfl
  | some w =>
    obtain ⟨j, hj, hw, hne⟩ := (h.i2l _ _).1 hg
    have : j = i := ((Lbl.int_nat_inj _ _).1 hj).symm
    subst this; simp [List.getElem?_eq_none hi] at hw

theorem Rep.count_eq (v : Lbl) : r.count v = decide (v ∈ L) := by
  have key : ∀ v, (r.l2i.get? v).isSome = true ↔ ∃ i : Nat, L[i]? = some v ∧ v ≠ .int i := by
    intro v
    rw [Option.isSome_iff_exists]
    constructor
    · rintro ⟨w, hw⟩; obtain ⟨i, _, a, b⟩ := (h.l2i _ _).1 hw; exact ⟨i, a, b⟩
    · rintro ⟨i, a, b⟩; exact ⟨_, (h.l2i _ _).2 ⟨i, rfl, a, b⟩⟩
  rw [Bool.eq_iff_iff, decide_eq_true_iff, List.mem_iff_getElem?]
  cases v with
  | obj k =>
    simp only [count, contains, key]
    simp
  | int n =>
    simp only [count, countInt]
    by_cases hr : r.isRange = true
    · have hr' := h.isRange_iff.1 hr
      simp only [hr, if_true, Bool.and_eq_true, decide_eq_true_eq, h.stop]
      constructor
      · rintro ⟨h0, h1⟩
        obtain ⟨m, rfl⟩ := Int.eq_ofNat_of_zero_le h0
        exact ⟨m, hr' m (by omega)⟩
      · rintro ⟨i, hi⟩
        have hlt : i < L.length := (List.getElem?_eq_some_iff.1 hi).1
        rw [hr' i hlt] at hi
        simp at hi; omega
    · simp only [hr, Bool.false_eq_true, if_false, contains, Bool.or_eq_true, key, Bool.and_eq_true,
        decide_eq_true_eq, h.stop, Bool.not_eq_true', Option.isSome_eq_false_iff, Option.isNone_iff_eq_none]
      constructor
      · rintro (⟨⟨h0, h1⟩, h2⟩ | ⟨i, hi, _⟩)
        · obtain ⟨m, rfl⟩ := Int.eq_ofNat_of_zero_le h0
          have := h.getElem?_int m (by omega)
          rw [h2] at this; exact ⟨m, this⟩
        · exact ⟨i, hi⟩
      · rintro ⟨i, hi⟩
        have hlt : i < L.length := (List.getElem?_eq_some_iff.1 hi).1
        by_cases hne : n = i
        · subst hne
          refine Or.inl ⟨⟨by omega, by omega⟩, ?_⟩
          cases hg : r.i2l.get? (.int (i : Int)) with
          | none => rfl
          | some w =>
            obtain ⟨j, hj, hw, hne⟩ := (h.i2l _ _).1 hg
            have : j = i := ((Lbl.int_nat_inj _ _).1 hj).symm
            subst this; rw [hi] at hw; cases hw; exact absurd rfl hne
        · exact Or.inr ⟨i, hi, by simpa using hne⟩

theorem Rep.count_iff (v : Lbl) : r.count v = true ↔ v ∈ L := by simp [h.count_eq]

theorem Rep.at_eq (i : Int) : r.at i = Spec.getItem L i := by
  have key : ∀ m : Nat, m < L.length → r.isRange = false →
      (match r.i2l.get? (.int (m : Int)) with
        | none => (Except.ok (.int (m : Int)) : Except Err Lbl)
        | some v => .ok v) = match L[m]? with
          | some x => .ok x
          | none => .error .indexError := by
    intro m hm _
    rw [h.getElem?_int m hm]
    cases r.i2l.get? (.int (m : Int)) <;> rfl
  have main : ∀ m : Nat, m < L.length →
      (if r.isRange = true then Except.ok (.int (m : Int))
       else match r.i2l.get? (.int (m : Int)) with
        | none => (Except.ok (.int (m : Int)) : Except Err Lbl)
        | some v => .ok v) = match L[m]? with
          | some x => .ok x
          | none => .error .indexError := by
    intro m hm
    by_cases hr : r.isRange = true
    · rw [h.isRange_iff.1 hr m hm]; simp [hr]
    · rw [if_neg hr]; exact key m hm (by simpa using hr)
  unfold «at» Spec.getItem
  simp only [h.stop]
  by_cases h0 : 0 ≤ i
  · obtain ⟨m, rfl⟩ := Int.eq_ofNat_of_zero_le h0
    have h0' : ¬ ((m : Int) < 0) := by omega
    simp only [h0', if_false, h0, if_true, Int.toNat_natCast, true_and]
    by_cases hm : m < L.length
    · have : ¬ ¬ ((m : Int) < L.length) := by omega
      rw [if_neg this]; exact main m hm
    · have : ¬ ((m : Int) < L.length) := by omega
      rw [if_pos this, List.getElem?_eq_none (by omega)]
  · have h0' : i < 0 := by omega
    simp only [h0', if_true, h0, if_false]
    by_cases hl : -(L.length : Int) ≤ i
    · obtain ⟨m, hm⟩ := Int.eq_ofNat_of_zero_le (a := (L.length : Int) + i) (by omega)
      have hlt : m < L.length := by omega
      rw [hm]
      have : ¬ ¬ (0 ≤ (m : Int) ∧ (m : Int) < L.length) := by omega
      rw [if_neg this, if_pos hl]
      exact main m hlt
    · rw [if_neg hl, if_pos (by omega)]

theorem Rep.at_nat (i : Nat) (hi : i < L.length) : r.at i = .ok L[i] := by
  rw [h.at_eq]; simp [Spec.getItem, hi]

theorem Rep.index_eq (v : Lbl) :
    r.index v = if v ∈ L then .ok (L.idxOf v : Int) else .error .valueError := by
  unfold index
  rw [h.count_eq]
  by_cases hv : v ∈ L
  swap
  · simp [hv]
  have hlt : L.idxOf v < L.length := List.idxOf_lt_length_of_mem hv
  have hg : L[L.idxOf v]? = some v := by simp [hlt]
  have uniq : ∀ i : Nat, L[i]? = some v → i = L.idxOf v := by
    intro i hi
    obtain ⟨hi1, hi2⟩ := List.getElem?_eq_some_iff.1 hi
    have := h.nodup.getElem_inj_iff (i := i) (j := L.idxOf v) (hi := hi1) (hj := hlt)
    rw [← this, hi2]; simp
  simp only [hv, decide_true, Bool.not_true, Bool.false_eq_true, if_false, if_true]
  by_cases hr : r.isRange = true
  · have := h.isRange_iff.1 hr _ hlt
    rw [hg] at this
    cases this' : v with
    | obj k => simp [this'] at this
    | int n => rw [this'] at this; simp [hr]; simpa using this
  · simp only [hr, if_false, Bool.false_eq_true]
    cases hw : r.l2i.get? v with
    | some w =>
      obtain ⟨i, rfl, hi, hne⟩ := (h.l2i _ _).1 hw
      rw [uniq i hi]
    | none =>
      have : v = .int (L.idxOf v : Nat) := by
        by_contra hne
        have := (h.l2i v _).2 ⟨_, rfl, hg, hne⟩
        rw [hw] at this; cases this
      cases this' : v with
      | obj k => rw [this'] at this; cases this
      | int n =>
        rw [this'] at this
        have := Lbl.int.inj this
        simp only [Except.ok.injEq]
        exact this

theorem Rep.iter_eq : r.iter = .ok L := by
  unfold iter
  by_cases hr : r.isRange = true
  · simp only [hr, if_true, h.stop]
    congr 1
    apply List.ext_getElem?
    intro i
    rcases Nat.lt_or_ge i L.length with hi | hi
    · rw [h.isRange_iff.1 hr i hi]; simp [hi]
    · simp [hi]
  · simp only [hr, Bool.false_eq_true, if_false, h.stop]
    have : ∀ k, k ≤ L.length →
        (List.range k).mapM (fun (i : Nat) => r.at (i : Int)) = Except.ok (L.take k) := by
      intro k hk
      induction k with
      | zero => rfl
      | succ k ih =>
        rw [List.range_succ, List.mapM_append, ih (by omega)]
        simp only [List.mapM_cons, List.mapM_nil, h.at_nat k (by omega)]
        have : L.take (k + 1) = L.take k ++ [L[k]] := by
          rw [List.take_add_one]; simp [show k < L.length by omega]
        rw [this]; rfl
    have := this L.length le_rfl
    simpa using this

end

/-! ### append -/

theorem rep_push {ev : EqEnv} {r : CyReg} {L : List Lbl} (h : Rep r L) {v : Lbl} (hv : v ∉ L)
    (hev : pyEq ev (.int r.stop) v = decide (v = .int r.stop)) : Rep (r.push ev v) (L ++ [v]) := by
  have hnd : (L ++ [v]).Nodup := by
    rw [List.nodup_append]
    refine ⟨h.nodup, by simp, ?_⟩
    intro a ha b hb; simp at hb; subst hb; rintro rfl; exact hv ha
  have hl : r.l2i.get? v = none := by
    cases hg : r.l2i.get? v with
    | none => rfl
    | some w =>
      obtain ⟨i, _, hi, _⟩ := (h.l2i _ _).1 hg
      exact absurd (List.mem_of_getElem? hi) hv
  have getA : ∀ (i : Nat) (x : Lbl), (L ++ [v])[i]? = some x ↔ L[i]? = some x ∨ (i = L.length ∧ x = v) := by
    intro i x
    rcases Nat.lt_trichotomy i L.length with hi | hi | hi
    · rw [List.getElem?_append_left hi]; simp; omega
    · subst hi; simp [eq_comm]
    · rw [List.getElem?_eq_none (by simp; omega)]
      simp [List.getElem?_eq_none (Nat.le_of_lt hi)]; omega
  unfold push
  simp only [hev]
  by_cases hvi : v = .int r.stop
  · simp only [hvi, decide_true, Bool.not_true, Bool.false_eq_true, if_false]
    rw [← hvi]
    refine ⟨by simp [h.stop], hnd, h.nd, ?_, ?_⟩
    · intro k w
      rw [h.i2l]
      constructor
      · rintro ⟨i, hk, hi, hne⟩; exact ⟨i, hk, (getA _ _).2 (Or.inl hi), hne⟩
      · rintro ⟨i, hk, hi, hne⟩
        rcases (getA _ _).1 hi with hi | ⟨rfl, rfl⟩
        · exact ⟨i, hk, hi, hne⟩
        · exact absurd (by rw [hvi, h.stop]) hne
    · intro k w
      rw [h.l2i]
      constructor
      · rintro ⟨i, hk, hi, hne⟩; exact ⟨i, hk, (getA _ _).2 (Or.inl hi), hne⟩
      · rintro ⟨i, hk, hi, hne⟩
        rcases (getA _ _).1 hi with hi | ⟨rfl, rfl⟩
        · exact ⟨i, hk, hi, hne⟩
        · exact absurd (by rw [hvi, h.stop]) hne
  · simp only [hvi, decide_false, Bool.not_false, if_true]
    refine ⟨by simp [h.stop], hnd, nodup_keys_set _ _ h.nd, ?_, ?_⟩
    · intro k w
      rw [get?_set]
      by_cases hk : Lbl.int (r.stop : Int) = k
      · rw [if_pos hk]
        constructor
        · rintro ⟨⟩
          exact ⟨L.length, by rw [← hk, h.stop], (getA _ _).2 (Or.inr ⟨rfl, rfl⟩), by rwa [← h.stop]⟩
        · rintro ⟨i, hk', hi, hne⟩
          have : i = L.length := by
            rw [hk', h.stop] at hk; exact ((Lbl.int_nat_inj _ _).1 hk).symm
          subst this
          rcases (getA _ _).1 hi with hi | ⟨_, rfl⟩
          · simp at hi
          · rfl
      · rw [if_neg hk, h.i2l]
        constructor
        · rintro ⟨i, hk, hi, hne⟩; exact ⟨i, hk, (getA _ _).2 (Or.inl hi), hne⟩
        · rintro ⟨i, hk', hi, hne⟩
          rcases (getA _ _).1 hi with hi | ⟨rfl, rfl⟩
          · exact ⟨i, hk', hi, hne⟩
          · exact absurd (by rw [hk', h.stop]) hk
    · intro k w
      rw [get?_set]
      by_cases hk : v = k
      · subst hk
        rw [if_pos rfl]
        constructor
        · rintro ⟨⟩
          exact ⟨L.length, by rw [h.stop], (getA _ _).2 (Or.inr ⟨rfl, rfl⟩), by rwa [← h.stop]⟩
        · rintro ⟨i, hk', hi, hne⟩
          rcases (getA _ _).1 hi with hi | ⟨rfl, _⟩
          · exact absurd (List.mem_of_getElem? hi) hv
          · rw [hk', h.stop]
      · rw [if_neg hk, h.l2i]
        constructor
        · rintro ⟨i, hk, hi, hne⟩; exact ⟨i, hk, (getA _ _).2 (Or.inl hi), hne⟩
        · rintro ⟨i, hk', hi, hne⟩
          rcases (getA _ _).1 hi with hi | ⟨rfl, rfl⟩
          · exact ⟨i, hk', hi, hne⟩
          · exact absurd rfl hk

theorem nodup_intRange (c n : Nat) : ((List.range' c n).map fun (i : Nat) => Lbl.int (i : Int)).Nodup := by
  refine (List.nodup_range' (step := 1)).map ?_
  intro a b hab
  exact (Lbl.int_nat_inj _ _).1 hab

/-- Pigeonhole: the search stops within `fuel` steps if fewer than `fuel` labels are in the way. -/
theorem search_ok {bad : Lbl → Bool} {S : List Lbl} (hbad : ∀ l, bad l = true → l ∈ S) :
    ∀ fuel c, (∀ i, i < fuel → bad (.int ((c + i : Nat) : Int)) = true) → fuel ≤ S.length := by
  intro fuel c hall
  have hsub : ((List.range' c fuel).map fun (i : Nat) => Lbl.int (i : Int)) ⊆ S := by
    intro l hl
    simp only [List.mem_map, List.mem_range'_1] at hl
    obtain ⟨i, ⟨h1, h2⟩, rfl⟩ := hl
    have := hall (i - c) (by omega)
    rw [show c + (i - c) = i by omega] at this
    exact hbad _ this
  have := (List.subperm_of_subset (nodup_intRange c fuel) hsub).length_le
  simpa using this

theorem nextLabel_none {bad : Lbl → Bool} : ∀ fuel c, nextLabel bad fuel c = none →
    ∀ i, i < fuel → bad (.int ((c + i : Nat) : Int)) = true := by
  intro fuel
  induction fuel with
  | zero => intro c _ i hi; omega
  | succ n ih =>
    intro c h i hi
    unfold nextLabel at h
    by_cases hb : bad (.int c) = true
    · rw [if_pos hb] at h
      rcases Nat.eq_zero_or_pos i with rfl | hi0
      · simpa using hb
      · have := ih (c + 1) h (i - 1) (by omega)
        rwa [show c + 1 + (i - 1) = c + i by omega] at this
    · rw [if_neg hb] at h; cases h

theorem nextLabel_some {bad : Lbl → Bool} : ∀ fuel c l, nextLabel bad fuel c = some l →
    c ≤ l ∧ bad (.int l) = false ∧ ∀ i, c ≤ i → i < l → bad (.int i) = true := by
  intro fuel
  induction fuel with
  | zero => intro c l h; cases h
  | succ n ih =>
    intro c l h
    unfold nextLabel at h
    by_cases hb : bad (.int c) = true
    · rw [if_pos hb] at h
      obtain ⟨h1, h2, h3⟩ := ih _ _ h
      refine ⟨by omega, h2, fun i h4 h5 => ?_⟩
      rcases Nat.eq_or_lt_of_le h4 with rfl | h4
      · exact hb
      · exact h3 i h4 h5
    · rw [if_neg hb] at h; cases h
      exact ⟨le_rfl, by simpa using hb, by intros; omega⟩

theorem firstFree_eq (r : CyReg) : ∀ fuel v, r.firstFree fuel v = nextLabel r.count fuel v := by
  intro fuel
  induction fuel with
  | zero => intro v; rfl
  | succ n ih => intro v; simp only [firstFree, nextLabel, ih]

theorem append_eq {ev : EqEnv} {r : CyReg} {L : List Lbl} (h : Rep r L) (v : Option Lbl) (p : Bool)
    (hev : ∀ w, v = some w → pyEq ev (.int r.stop) w = decide (w = .int r.stop)) :
    (r.append ev v p).1 = (Spec.append L v p).1 ∧ Rep (r.append ev v p).2 (Spec.append L v p).2 := by
  have hint : ∀ n : Nat, pyEq ev (.int r.stop) (.int n) = decide (Lbl.int n = .int r.stop) := by
    intro n; rw [Bool.eq_iff_iff]; simp [pyEq]; omega
  cases v with
  | some v =>
    unfold append Spec.append
    simp only [h.count_eq, decide_eq_true_eq]
    by_cases hv : v ∈ L
    · cases p <;> simp [hv, h]
    · simp only [hv, if_false]
      exact ⟨trivial, rep_push h hv (hev v rfl)⟩
  | none =>
    unfold append Spec.append
    simp only
    by_cases hc : Lbl.int L.length ∈ L
    · have hnr : r.isRange = false := by
        by_contra hr
        have hr := h.isRange_iff.1 (by simpa using hr)
        obtain ⟨i, hi⟩ := List.mem_iff_getElem?.1 hc
        have hlt : i < L.length := (List.getElem?_eq_some_iff.1 hi).1
        rw [hr i hlt] at hi
        simp at hi; omega
      have hcnt : r.count (.int r.stop) = true := by rw [h.count_iff, h.stop]; exact hc
      simp only [hnr, hcnt, Bool.not_false, Bool.and_self, if_true, firstFree_eq]
      cases hf : nextLabel r.count (r.stop + 1) 0 with
      | none =>
        have := search_ok (S := L) (fun l hl => (h.count_iff l).1 hl) _ _ (nextLabel_none _ _ hf)
        rw [h.stop] at this; omega
      | some w =>
        obtain ⟨_, h2, h3⟩ := nextLabel_some _ _ _ hf
        have hw : Lbl.int w ∉ L := by rw [← h.count_iff]; simp [h2]
        have : Spec.autoLabel L = .int w := by
          unfold Spec.autoLabel
          rw [if_pos hc]
          congr 2
          apply le_antisymm
          · exact Nat.sInf_le hw
          · apply le_csInf ⟨w, hw⟩
            intro b hb
            by_contra hlt
            exact hb ((h.count_iff _).1 (h3 b (by omega) (by omega)))
        rw [this]
        exact ⟨rfl, rep_push h hw (hint w)⟩
    · have hcnt : r.count (.int r.stop) = false := by
        rw [h.count_eq, h.stop]; simpa using hc
      have : Spec.autoLabel L = .int r.stop := by
        unfold Spec.autoLabel; rw [if_neg hc, h.stop]
      simp only [hcnt, Bool.and_false, Bool.false_eq_true, if_false, this]
      exact ⟨trivial, rep_push h (by rwa [h.stop]) (hint _)⟩

theorem extend_eq {ev : EqEnv} (hev : Inert ev) (p : Bool) (vs : List Lbl) :
    ∀ {r : CyReg} {L : List Lbl}, Rep r L →
    (r.extend ev vs p).1 = (Spec.extend L vs p).1 ∧ Rep (r.extend ev vs p).2 (Spec.extend L vs p).2 := by
  induction vs with
  | nil => intro r L h; exact ⟨rfl, h⟩
  | cons v vs ih =>
    intro r L h
    have := append_eq (ev := ev) h (some v) p (by intro w _; rw [pyEq_inert hev]; simp [eq_comm])
    unfold extend Spec.extend
    generalize hra : r.append ev (some v) p = ra at this ⊢
    obtain ⟨res, r'⟩ := ra
    simp only [Spec.append] at this
    by_cases hv : v ∈ L
    · cases p <;> simp only [hv, if_true, Bool.false_eq_true, if_false] at this ⊢
      · obtain ⟨h1, h2⟩ := this; subst h1; exact ⟨rfl, h2⟩
      · obtain ⟨h1, h2⟩ := this; subst h1; exact ih h2
    · simp only [hv, if_false] at this ⊢
      obtain ⟨h1, h2⟩ := this; subst h1; exact ih h2

/-! ### pop -/

theorem pop_eq {r : CyReg} {L : List Lbl} (h : Rep r L) :
    (r.pop).1 = (match L.getLast? with | none => .error .indexError | some x => .ok x) ∧
    Rep (r.pop).2 L.dropLast := by
  unfold pop
  rcases List.eq_nil_or_concat L with rfl | ⟨L', x, rfl⟩
  · have : r.stop = 0 := h.stop
    simp only [this, if_true]
    exact ⟨rfl, h⟩
  · simp only [List.concat_eq_append] at *
    have hs : r.stop = L'.length + 1 := by simpa using h.stop
    have hne : ¬ r.stop = 0 := by omega
    rw [if_neg hne]
    simp only [hs, Nat.add_sub_cancel]
    have hlab := h.getElem?_int L'.length (by simp)
    simp at hlab
    rw [← hlab]
    have hx : x ∉ L' := by
      have := h.nodup; rw [List.nodup_append] at this
      intro hc; exact this.2.2 x hc x (by simp) rfl
    have hnd : L'.Nodup := by
      have := h.nodup; rw [List.nodup_append] at this; exact this.1
    have getA : ∀ (i : Nat) (y : Lbl), (L' ++ [x])[i]? = some y ↔ L'[i]? = some y ∨ (i = L'.length ∧ y = x) := by
      intro i y
      rcases Nat.lt_trichotomy i L'.length with hi | hi | hi
      · rw [List.getElem?_append_left hi]; simp; omega
      · subst hi; simp [eq_comm]
      · rw [List.getElem?_eq_none (by simp; omega)]
        simp [List.getElem?_eq_none (Nat.le_of_lt hi)]; omega
    refine ⟨by simp, ⟨by simp, by simpa using hnd, nodup_keys_erase _ h.nd, ?_, ?_⟩⟩
    · intro k w
      rw [get?_erase]
      simp only [List.dropLast_concat]
      by_cases hk : Lbl.int (L'.length : Int) = k
      · rw [if_pos hk]
        constructor
        · rintro ⟨⟩
        · rintro ⟨i, hi, hi', _⟩
          have : i = L'.length := by rw [hi] at hk; exact ((Lbl.int_nat_inj _ _).1 hk).symm
          subst this; simp at hi'
      · rw [if_neg hk, h.i2l]
        constructor
        · rintro ⟨i, hki, hi, hn⟩
          rcases (getA _ _).1 hi with hi | ⟨rfl, rfl⟩
          · exact ⟨i, hki, hi, hn⟩
          · exact absurd hki.symm hk
        · rintro ⟨i, hki, hi, hn⟩; exact ⟨i, hki, (getA _ _).2 (Or.inl hi), hn⟩
    · intro k w
      rw [get?_erase]
      simp only [List.dropLast_concat]
      by_cases hk : x = k
      · subst hk
        rw [if_pos rfl]
        constructor
        · rintro ⟨⟩
        · rintro ⟨i, _, hi', _⟩; exact absurd (List.mem_of_getElem? hi') hx
      · rw [if_neg hk, h.l2i]
        constructor
        · rintro ⟨i, hki, hi, hn⟩
          rcases (getA _ _).1 hi with hi | ⟨rfl, rfl⟩
          · exact ⟨i, hki, hi, hn⟩
          · exact absurd rfl hk
        · rintro ⟨i, hki, hi, hn⟩; exact ⟨i, hki, (getA _ _).2 (Or.inl hi), hn⟩

end CyReg
end DG
