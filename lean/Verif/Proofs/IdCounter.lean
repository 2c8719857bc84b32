import Verif.Model.IdCounter
import Mathlib.Data.List.Nodup
import Mathlib.Data.List.Perm.Basic
import Mathlib.Data.Nat.Choose.Sum
import Mathlib.Tactic.Linarith

namespace DG

theorem mem_combinations {α : Type} (l : List α) : ∀ (r : Nat) (x : List α),
    x ∈ combinations l r ↔ x.Sublist l ∧ x.length = r := by
  induction l with
  | nil =>
    intro r x
    cases r with
    | zero =>
      simp only [combinations, List.mem_singleton]
      constructor
      · rintro rfl; simp
      · rintro ⟨h, _⟩; simpa using h
    | succ r =>
      simp only [combinations, List.not_mem_nil, false_iff, not_and]
      intro h; simp at h; subst h; simp
  | cons a l ih =>
    intro r x
    cases r with
    | zero =>
      simp only [combinations, List.mem_singleton]
      constructor
      · rintro rfl; simp
      · rintro ⟨_, h⟩; simpa using h
    | succ r =>
      simp only [combinations, List.mem_append, List.mem_map, ih]
      constructor
      · rintro (⟨y, ⟨h1, h2⟩, rfl⟩ | ⟨h1, h2⟩)
        · exact ⟨h1.cons_cons a, by simp [h2]⟩
        · exact ⟨h1.cons a, h2⟩
      · rintro ⟨h1, h2⟩
        cases h1 with
        | cons _ h => exact Or.inr ⟨h, h2⟩
        | cons_cons _ h => exact Or.inl ⟨_, ⟨h, by simpa using h2⟩, rfl⟩

theorem nodup_combinations {α : Type} {l : List α} (h : l.Nodup) : ∀ r, (combinations l r).Nodup := by
  induction l with
  | nil => intro r; cases r <;> simp [combinations]
  | cons a l ih =>
    intro r
    rw [List.nodup_cons] at h
    cases r with
    | zero => simp [combinations]
    | succ r =>
      simp only [combinations]
      rw [List.nodup_append]
      refine ⟨(ih h.2 r).map (fun x y hxy => by simpa using hxy), ih h.2 (r + 1), ?_⟩
      rintro x hx y hy rfl
      obtain ⟨z, _, rfl⟩ := List.mem_map.1 hx
      have := ((mem_combinations l _ _).1 hy).1
      exact h.1 (this.subset (by simp))

theorem length_combinations {α : Type} (l : List α) : ∀ r, (combinations l r).length = l.length.choose r := by
  induction l with
  | nil => intro r; cases r <;> simp [combinations]
  | cons a l ih =>
    intro r
    cases r with
    | zero => simp [combinations]
    | succ r => simp [combinations, ih, Nat.choose_succ_succ]

theorem combinations_ne_nil {α : Type} {l : List α} {r : Nat} (h : r ≤ l.length) : combinations l r ≠ [] := by
  intro hc
  have := length_combinations l r
  rw [hc] at this
  have := Nat.choose_pos h
  simp at *; omega

namespace IdCounter

/-- All ids of lengths `a, a+1, ..., a+k-1`. -/
def idsFrom (alpha : List Char) (a k : Nat) : List (List Char) :=
  (List.range' a k).flatMap (combinations alpha)

/-- All ids of length at least `a`. -/
def allIds (alpha : List Char) (a : Nat) : List (List Char) := idsFrom alpha a (alpha.length + 1 - a)

theorem mem_allIds {alpha : List Char} {a : Nat} {x : List Char} :
    x ∈ allIds alpha a ↔ x.Sublist alpha ∧ a ≤ x.length := by
  simp only [allIds, idsFrom, List.mem_flatMap, List.mem_range'_1, mem_combinations]
  constructor
  · rintro ⟨k, ⟨h1, _⟩, h2, rfl⟩; exact ⟨h2, h1⟩
  · rintro ⟨h1, h2⟩
    have := h1.length_le
    exact ⟨x.length, ⟨h2, by omega⟩, h1, rfl⟩

theorem nodup_allIds {alpha : List Char} (h : alpha.Nodup) (a : Nat) : (allIds alpha a).Nodup := by
  unfold allIds idsFrom
  rw [List.nodup_flatMap]
  refine ⟨fun k _ => nodup_combinations h k, ?_⟩
  have : (List.range' a (alpha.length + 1 - a)).Nodup := List.nodup_range' (step := 1)
  refine List.Pairwise.imp ?_ this
  intro x y hxy
  show List.Disjoint _ _
  intro z hz hz'
  exact hxy (((mem_combinations _ _ _).1 hz).2.symm.trans ((mem_combinations _ _ _).1 hz').2)

theorem allIds_succ (alpha : List Char) (a : Nat) (h : a ≤ alpha.length) :
    allIds alpha a = combinations alpha a ++ allIds alpha (a + 1) := by
  unfold allIds idsFrom
  rw [show alpha.length + 1 - a = (alpha.length + 1 - (a + 1)) + 1 by omega, List.range'_succ]
  rfl

theorem allIds_nil (alpha : List Char) (a : Nat) (h : alpha.length < a) : allIds alpha a = [] := by
  unfold allIds idsFrom
  rw [show alpha.length + 1 - a = 0 by omega]; rfl

/-- Invariant: ids handed out, ids in the set, rest of the generator and ids of greater length make up all ids. -/
structure Inv (alpha : List Char) (L : Nat) (emitted : List (List Char)) (s : IdCounter) : Prop where
  perm : (emitted ++ s.idSet ++ s.gen ++ allIds alpha (s.length + 1)).Perm (allIds alpha L)
  short : ∀ x ∈ emitted ++ s.idSet, x.length ≤ s.length
  genLen : ∀ x ∈ s.gen, x.length = s.length

theorem setAdd_new {s : List (List Char)} {x : List Char} (h : x ∉ s) : setAdd s x = s ++ [x] := by
  simp [setAdd, h]

theorem Inv.nodup {alpha : List Char} (ha : alpha.Nodup) {L emitted s} (h : Inv alpha L emitted s) :
    (emitted ++ s.idSet ++ s.gen ++ allIds alpha (s.length + 1)).Nodup :=
  h.perm.nodup_iff.2 (nodup_allIds ha L)

/-- One successful `next` of the generator. -/
theorem Inv.take {alpha : List Char} (ha : alpha.Nodup) {L emitted s} {id rest} (hg : s.gen = id :: rest)
    (h : Inv alpha L emitted s) : Inv alpha L emitted { s with gen := rest, idSet := setAdd s.idSet id } := by
  have hnd := h.nodup ha
  rw [hg] at hnd
  have hid : id ∉ s.idSet := by
    intro hc
    simp only [List.append_assoc, List.nodup_append] at hnd
    exact hnd.2.1.2.2 id hc id (by simp) rfl
  rw [setAdd_new hid]
  refine ⟨?_, ?_, ?_⟩
  · have := h.perm
    rw [hg] at this
    simpa using this
  · intro x hx
    simp only [List.mem_append, List.mem_singleton] at hx
    rcases hx with hx | hx | hx
    · exact h.short x (by simp [hx])
    · exact h.short x (by simp [hx])
    · subst hx; exact (h.genLen x (by simp [hg])).le
  · intro x hx; exact h.genLen x (by simp [hg, hx])

/-- Moving to the next length when the generator is exhausted. -/
theorem Inv.grow {alpha : List Char} {L emitted s} (hg : s.gen = [])
    (h : Inv alpha L emitted s) (hlen : s.length + 1 ≤ alpha.length) :
    Inv alpha L emitted { s with length := s.length + 1, gen := combinations alpha (s.length + 1) } := by
  refine ⟨?_, ?_, ?_⟩
  · have := h.perm
    rw [hg, allIds_succ _ _ hlen] at this
    simpa using this
  · intro x hx; exact Nat.le_succ_of_le (h.short x hx)
  · intro x hx; exact ((mem_combinations _ _ _).1 hx).2

theorem Inv.stop {alpha : List Char} {L emitted s} (hg : s.gen = [])
    (h : Inv alpha L emitted s) (hlen : alpha.length < s.length + 1) :
    Inv alpha L emitted { s with length := s.length + 1 } := by
  refine ⟨?_, ?_, ?_⟩
  · have := h.perm
    rw [allIds_nil _ _ hlen] at this
    simp only [allIds_nil _ _ (show alpha.length < s.length + 1 + 1 by omega)]
    exact this
  · intro x hx; exact Nat.le_succ_of_le (h.short x hx)
  · intro x hx; simp [hg] at hx

theorem refreshLoop_inv {alpha : List Char} (ha : alpha.Nodup) {L : Nat} {emitted : List (List Char)} (n : Nat) :
    ∀ s, Inv alpha L emitted s →
    Inv alpha L emitted (refreshLoop alpha n s).2 ∧ (refreshLoop alpha n s).2.batch = s.batch ∧
    s.length ≤ (refreshLoop alpha n s).2.length ∧
    (s.idSet ≠ [] → (refreshLoop alpha n s).2.idSet ≠ [] ∧ (refreshLoop alpha n s).1 = .ok ()) ∧
    (0 < n → emitted.length < (allIds alpha L).length → (refreshLoop alpha n s).2.idSet ≠ [] ∧
      (refreshLoop alpha n s).1 = .ok ()) ∧
    (0 < n → s.idSet = [] → emitted.length = (allIds alpha L).length →
      (refreshLoop alpha n s).1 = .error .valueError ∧ (refreshLoop alpha n s).2.idSet = []) := by
  induction n with
  | zero => intro s h; simp [refreshLoop, h]
  | succ n ih =>
    intro s h
    unfold refreshLoop
    cases hg : s.gen with
    | cons id rest =>
      simp only
      have h' := h.take ha hg
      obtain ⟨i1, i2, i3, i4, i5, i6⟩ := ih _ h'
      have hne : setAdd s.idSet id ≠ [] := by
        unfold setAdd; split
        · rintro hc; simp_all
        · simp
      refine ⟨i1, i2, i3, fun _ => i4 hne, fun _ _ => i4 hne, fun _ h0 hl => ?_⟩
      exfalso
      have := h.perm.length_eq
      simp [hg] at this; omega
    | nil =>
      simp only
      by_cases hlen : s.length + 1 > alpha.length
      · rw [if_pos hlen]
        have h' := h.stop hg hlen
        rw [hg] at h'
        by_cases hs : s.idSet = []
        · simp only [hs, List.isEmpty_nil, if_true]
          rw [hs] at h'
          refine ⟨h', by simp, by simp, fun hc => absurd rfl hc, fun _ hlt => ?_, fun _ _ _ => ⟨by simp, by simp⟩⟩
          exfalso
          have := h.perm.length_eq
          rw [hg, hs, allIds_nil _ _ hlen] at this
          simp at this; omega
        · have : s.idSet.isEmpty = false := by simpa using hs
          simp only [this, Bool.false_eq_true, if_false]
          exact ⟨h', by simp, by simp, fun _ => ⟨hs, by simp⟩, fun _ _ => ⟨hs, by simp⟩, fun _ h0 => absurd h0 hs⟩
      · rw [if_neg hlen]
        have hle : s.length + 1 ≤ alpha.length := by omega
        have h' := h.grow hg hle
        cases hc : combinations alpha (s.length + 1) with
        | nil => exact absurd hc (combinations_ne_nil hle)
        | cons id rest =>
          simp only
          rw [hc] at h'
          have h'' := h'.take ha (id := id) (rest := rest) rfl
          obtain ⟨i1, i2, i3, i4, i5, i6⟩ := ih _ h''
          have hne : setAdd s.idSet id ≠ [] := by
            unfold setAdd; split
            · rintro hc; simp_all
            · simp
          refine ⟨i1, i2, by simp only at i3; omega, fun _ => i4 hne, fun _ _ => i4 hne, fun _ h0 hl => ?_⟩
          exfalso
          have := h'.perm.length_eq
          simp at this; omega

theorem popAny_inv {alpha : List Char} {L emitted s} (h : Inv alpha L emitted s) (pick : Nat) (hne : s.idSet ≠ []) :
    ∃ id, (popAny pick s).1 = .ok id ∧ id ∈ s.idSet ∧ Inv alpha L (emitted ++ [id]) (popAny pick s).2 ∧
      (popAny pick s).2.batch = s.batch ∧ (popAny pick s).2.length = s.length := by
  have hpos : 0 < s.idSet.length := List.length_pos_iff.2 hne
  have hlt : pick % s.idSet.length < s.idSet.length := Nat.mod_lt _ hpos
  unfold popAny
  rw [List.getElem?_eq_getElem hlt]
  refine ⟨_, rfl, List.getElem_mem _, ⟨?_, ?_, ?_⟩, rfl, rfl⟩
  · refine List.Perm.trans ?_ h.perm
    have := List.getElem_cons_eraseIdx_perm hlt
    simp only [List.append_assoc]
    apply List.Perm.append_left
    rw [← List.append_assoc, ← List.append_assoc, List.append_assoc]
    apply List.Perm.append_right
    simpa using this
  · intro x hx
    simp only [List.mem_append, List.mem_singleton] at hx
    rcases hx with (hx | hx) | hx
    · exact h.short x (by simp [hx])
    · subst hx; exact h.short _ (by simp)
    · exact h.short x (by simp [List.mem_of_mem_eraseIdx hx])
  · exact h.genLen

theorem next_inv {alpha : List Char} (ha : alpha.Nodup) {L emitted s} (h : Inv alpha L emitted s) (hb : 0 < s.batch)
    (pick : Nat) :
    (next alpha pick s).2.batch = s.batch ∧ s.length ≤ (next alpha pick s).2.length ∧
    ((∃ id, (next alpha pick s).1 = .ok id ∧ emitted.length < (allIds alpha L).length ∧
        (s.idSet = [] → ∀ x ∈ emitted, x.length ≤ id.length) ∧
        Inv alpha L (emitted ++ [id]) (next alpha pick s).2) ∨
     ((next alpha pick s).1 = .error .valueError ∧ emitted.length = (allIds alpha L).length ∧
        Inv alpha L emitted (next alpha pick s).2)) := by
  have hle : emitted.length ≤ (allIds alpha L).length := by
    have := h.perm.length_eq; simp at this; omega
  unfold next
  by_cases hs : s.idSet = []
  · simp only [hs, List.isEmpty_nil, if_true, refresh]
    obtain ⟨i1, i2, i3, i4, i5, i6⟩ := refreshLoop_inv ha s.batch s h
    rcases Nat.lt_or_ge emitted.length (allIds alpha L).length with hlt | hge
    · obtain ⟨j1, j2⟩ := i5 hb hlt
      generalize hgen : refreshLoop alpha s.batch s = res at *
      obtain ⟨res, s'⟩ := res
      simp only at j1 j2 i1 i2 i3
      subst j2
      simp only
      obtain ⟨id, k1, k2, k3, k4, k5⟩ := popAny_inv i1 pick j1
      refine ⟨k4.trans i2, by omega, Or.inl ⟨id, k1, hlt, ?_, k3⟩⟩
      intro _ x hx
      -- every id in the refilled set has length at least the old current length
      have hx' : x.length ≤ s.length := h.short x (by simp [hx])
      have hmem : id ∈ s.gen ++ allIds alpha (s.length + 1) := by
        have hp := (i1.perm.trans h.perm.symm)
        have : id ∈ emitted ++ s'.idSet ++ s'.gen ++ allIds alpha (s'.length + 1) := by simp [k2]
        have h2 := hp.subset this
        rw [hs] at h2
        simp only [List.append_nil, List.append_assoc, List.mem_append] at h2
        rcases h2 with h2 | h2
        · exfalso
          have := i1.nodup ha
          simp only [List.append_assoc, List.nodup_append] at this
          exact this.2.2 id h2 id (by simp [k2]) rfl
        · simpa using h2
      rw [List.mem_append] at hmem
      rcases hmem with hm | hm
      · rw [h.genLen id hm]; exact hx'
      · have := (mem_allIds.1 hm).2; omega
    · have heq : emitted.length = (allIds alpha L).length := by omega
      obtain ⟨j1, j2⟩ := i6 hb hs heq
      generalize hgen : refreshLoop alpha s.batch s = res at *
      obtain ⟨res, s'⟩ := res
      simp only at j1 j2 i1 i2 i3
      subst j1
      exact ⟨i2, i3, Or.inr ⟨rfl, heq, i1⟩⟩
  · have : s.idSet.isEmpty = false := by simpa using hs
    simp only [this, Bool.false_eq_true, if_false]
    obtain ⟨id, k1, k2, k3, k4, k5⟩ := popAny_inv h pick hs
    refine ⟨k4, by omega, Or.inl ⟨id, k1, ?_, fun hc => absurd hc hs, k3⟩⟩
    have := h.perm.length_eq
    have hpos : 0 < s.idSet.length := List.length_pos_iff.2 hs
    simp at this; omega

/-- The ids actually returned. -/
def oks : List (Except Err (List Char)) → List (List Char)
  | [] => []
  | .ok x :: rest => x :: oks rest
  | .error _ :: rest => oks rest

theorem draws_inv {alpha : List Char} (ha : alpha.Nodup) {L : Nat} (picks : List Nat) :
    ∀ {emitted s}, Inv alpha L emitted s → 0 < s.batch →
    Inv alpha L (emitted ++ oks (draws alpha picks s).1) (draws alpha picks s).2 ∧
    (draws alpha picks s).2.batch = s.batch ∧
    (∀ i r, (draws alpha picks s).1[i]? = some r →
      ((∃ x, r = .ok x) ∧ emitted.length + i < (allIds alpha L).length) ∨
      (r = .error .valueError ∧ (allIds alpha L).length ≤ emitted.length + i)) := by
  induction picks with
  | nil => intro emitted s h hb; simp [draws, oks, h]
  | cons p ps ih =>
    intro emitted s h hb
    obtain ⟨h1, h2, h3⟩ := next_inv ha h hb p
    simp only [draws]
    rcases h3 with ⟨id, g1, g2, _, g4⟩ | ⟨g1, g2, g3⟩
    · obtain ⟨i1, i2, i3⟩ := ih g4 (by omega)
      refine ⟨?_, i2.trans h1, ?_⟩
      · rw [g1]; simpa [oks] using i1
      · intro i r hr
        cases i with
        | zero =>
          simp only [List.getElem?_cons_zero, Option.some.injEq] at hr
          left; exact ⟨⟨id, by rw [← hr, g1]⟩, by omega⟩
        | succ i =>
          have := i3 i r (by simpa using hr)
          simp only [List.length_append, List.length_cons, List.length_nil] at this
          rcases this with ⟨a, b⟩ | ⟨a, b⟩
          · left; exact ⟨a, by omega⟩
          · right; exact ⟨a, by omega⟩
    · obtain ⟨i1, i2, i3⟩ := ih g3 (by omega)
      refine ⟨?_, i2.trans h1, ?_⟩
      · rw [g1]; simpa [oks] using i1
      · intro i r hr
        right
        cases i with
        | zero =>
          simp only [List.getElem?_cons_zero, Option.some.injEq] at hr
          exact ⟨by rw [← hr, g1], by omega⟩
        | succ i =>
          rcases i3 i r (by simpa using hr) with ⟨_, b⟩ | ⟨a, b⟩
          · omega
          · exact ⟨a, by omega⟩

theorem reset_inv (alpha : List Char) (length batch : Option Nat) :
    Inv alpha (reset alpha length batch).length [] (reset alpha length batch) ∧
    0 < (reset alpha length batch).batch := by
  constructor
  · refine ⟨?_, by simp [reset], ?_⟩
    · generalize hs : reset alpha length batch = s
      have hg : s.gen = combinations alpha s.length := by subst hs; rfl
      have hi : s.idSet = [] := by subst hs; rfl
      rw [hg, hi]
      by_cases hle : s.length ≤ alpha.length
      · rw [allIds_succ _ _ hle]; simp
      · rw [allIds_nil _ _ (by omega), allIds_nil _ _ (by omega)]
        have : combinations alpha s.length = [] := by
          have := length_combinations alpha s.length
          rw [Nat.choose_eq_zero_of_lt (by omega)] at this
          simpa using this
        simp [this]
    · intro x hx; exact ((mem_combinations _ _ _).1 hx).2
  · unfold reset
    cases batch with
    | none => simp
    | some n => cases n <;> simp

theorem length_allIds (alpha : List Char) (a : Nat) :
    (allIds alpha a).length = ((List.range' a (alpha.length + 1 - a)).map fun k => alpha.length.choose k).sum := by
  unfold allIds idsFrom
  rw [List.length_flatMap]
  congr 1
  apply List.map_congr_left
  intro k _
  exact length_combinations alpha k

end IdCounter
end DG
