import Verif.Model.IdThreads
import Verif.Proofs.IdCounter

/-!
# Lemmas for C91
-/

namespace DG.Proofs
open IdThreads

/-- The ids that were returned. -/
def returned (s : Sys) : List (List Char) := s.outs.filterMap fun p => p.2.toOption

/-- Thread between reading the length that it increments and assigning the new generator. -/
def PC.lengthens : PC → Bool
  | .grow _ _ | .compare _ | .size _ | .assign _ _ => true
  | _ => false

/-- The id that was drawn and is not in the set yet. -/
def PC.holds : PC → Option (List Char)
  | .add _ x => some x
  | _ => none

def Used (s : Sys) (x : List Char) : Prop := x ∈ returned s ∨ x ∈ s.idSet ∨ ∃ i, PC.holds (s.pc i) = some x

structure IdInv (s : Sys) : Prop where
  outs : (returned s).Nodup
  set : s.idSet.Nodup
  sep : ∀ x ∈ returned s, x ∉ s.idSet
  held : ∀ i x, PC.holds (s.pc i) = some x → x ∉ returned s ∧ x ∉ s.idSet ∧ ∀ j, PC.holds (s.pc j) = some x → j = i
  sorted : (s.gens.map Prod.fst).Pairwise (· < ·)
  rest : ∀ g ∈ s.gens, g.2.Nodup ∧ ∀ x ∈ g.2, x.length = g.1 ∧ ¬ Used s x
  seen : ∀ x, Used s x → x.length ∈ s.gens.map Prod.fst

structure LenInv (s : Sys) : Prop where
  le : ∀ r ∈ s.gens.map Prod.fst, r ≤ s.length
  grow : ∀ i k n, s.pc i = .grow k n → n = s.length
  lt : ∀ i k, s.pc i = .compare k ∨ s.pc i = .size k → ∀ r ∈ s.gens.map Prod.fst, r < s.length
  assign : ∀ i k n, s.pc i = .assign k n → n = s.length ∧ ∀ r ∈ s.gens.map Prod.fst, r < s.length

theorem goto_same (s : Sys) (i : Nat) (p : PC) : (s.goto i p).pc i = p := by simp [Sys.goto]

theorem goto_ne (s : Sys) {i j : Nat} (p : PC) (h : j ≠ i) : (s.goto i p).pc j = s.pc j := by simp [Sys.goto, h]

theorem holds_goto {s : Sys} {i : Nat} {p : PC} (h : PC.holds (s.pc i) = PC.holds p) (j : Nat) : PC.holds ((s.goto i p).pc j) = PC.holds (s.pc j) := by
  by_cases e : j = i
  · subst e; rw [goto_same, h]
  · rw [goto_ne _ _ e]

/-- Nothing happens to ids. -/
theorem IdInv.same {s t : Sys} (h : IdInv s) (h1 : returned t = returned s) (h2 : t.idSet = s.idSet) (h3 : ∀ j, PC.holds (t.pc j) = PC.holds (s.pc j))
    (h4 : t.gens = s.gens) : IdInv t := by
  have hu : ∀ x, Used t x ↔ Used s x := fun x => by simp [Used, h1, h2, h3]
  refine ⟨by rw [h1]; exact h.outs, by rw [h2]; exact h.set, by rw [h1, h2]; exact h.sep, ?_, by rw [h4]; exact h.sorted, ?_, ?_⟩
  · intro i x; simp only [h1, h2, h3]; exact h.held i x
  · rw [h4]; intro g hg; simp only [hu]; exact h.rest g hg
  · rw [h4]; intro x; rw [hu]; exact h.seen x

theorem IdInv.goto {s : Sys} (h : IdInv s) {i : Nat} {p : PC} (e : PC.holds (s.pc i) = PC.holds p) : IdInv (s.goto i p) :=
  h.same rfl rfl (holds_goto e) rfl

theorem IdInv.fail {s : Sys} (h : IdInv s) {i : Nat} (e : PC.holds (s.pc i) = none) (er : Err) : IdInv (s.finish i (.error er)) := by
  refine h.same ?_ rfl (fun j => ?_) rfl
  · simp [returned, Sys.finish, Except.toOption]
  · exact holds_goto (p := .idle) e j

/-- An id is drawn. -/
theorem IdInv.draw {s : Sys} (h : IdInv s) {i g r : Nat} {x : List Char} {rest : List (List Char)} (hg : s.gens[g]? = some (r, x :: rest))
    (e : PC.holds (s.pc i) = none) (k : Nat) : IdInv { s.goto i (.add k x) with gens := s.gens.set g (r, rest) } := by
  set t : Sys := { s.goto i (.add k x) with gens := s.gens.set g (r, rest) } with ht
  have hm := List.mem_of_getElem? hg
  obtain ⟨r1, r2⟩ := h.rest _ hm
  have hx := (r2 x (by simp)).2
  have hmap : t.gens.map Prod.fst = s.gens.map Prod.fst := by
    rw [ht]
    apply List.ext_getElem?
    intro n
    simp only [List.getElem?_map, List.getElem?_set]
    by_cases hn : g = n
    · subst hn
      rw [if_pos rfl, if_pos (List.getElem?_eq_some_iff.1 hg).1, hg]; rfl
    · rw [if_neg hn]
  have hpc : ∀ j, PC.holds (t.pc j) = if j = i then some x else PC.holds (s.pc j) := by
    intro j
    show PC.holds ((s.goto i (.add k x)).pc j) = _
    by_cases e : j = i
    · subst e; rw [goto_same, if_pos rfl]; rfl
    · rw [goto_ne _ _ e, if_neg e]
  have hu : ∀ y, Used t y ↔ Used s y ∨ y = x := by
    intro y
    unfold Used
    simp only [hpc]
    show (y ∈ returned s ∨ y ∈ s.idSet ∨ _) ↔ _
    constructor
    · rintro (h | h | ⟨j, h⟩)
      · exact .inl (.inl h)
      · exact .inl (.inr (.inl h))
      · split at h
        · exact .inr (Option.some.inj h).symm
        · exact .inl (.inr (.inr ⟨j, h⟩))
    · rintro ((h | h | ⟨j, h⟩) | rfl)
      · exact .inl h
      · exact .inr (.inl h)
      · refine .inr (.inr ⟨j, ?_⟩)
        have : j ≠ i := by rintro rfl; rw [e] at h; cases h
        rw [if_neg this]; exact h
      · exact .inr (.inr ⟨i, by rw [if_pos rfl]⟩)
  refine ⟨h.outs, h.set, h.sep, ?_, by rw [hmap]; exact h.sorted, ?_, ?_⟩
  · intro j y hj
    show y ∉ returned s ∧ y ∉ s.idSet ∧ _
    rw [hpc] at hj
    by_cases e' : j = i
    · rw [if_pos e'] at hj
      cases hj
      refine ⟨fun h => hx (.inl h), fun h => hx (.inr (.inl h)), fun j' hj' => ?_⟩
      rw [hpc] at hj'
      by_cases e2 : j' = i
      · omega
      · rw [if_neg e2] at hj'
        exact absurd (.inr (.inr ⟨j', hj'⟩)) hx
    · rw [if_neg e'] at hj
      obtain ⟨a, b, c⟩ := h.held j y hj
      refine ⟨a, b, fun j' hj' => ?_⟩
      rw [hpc] at hj'
      by_cases e2 : j' = i
      · rw [if_pos e2] at hj'
        cases hj'
        exact absurd (.inr (.inr ⟨j, hj⟩)) hx
      · rw [if_neg e2] at hj'
        exact c j' hj'
  · intro g' hg'
    obtain ⟨n, hn⟩ := List.getElem?_of_mem hg'
    have hn' : (s.gens.set g (r, rest))[n]? = some g' := hn
    rw [List.getElem?_set] at hn'
    by_cases e' : g = n
    · subst e'
      rw [if_pos rfl, if_pos (List.getElem?_eq_some_iff.1 hg).1] at hn'
      cases hn'
      have := List.nodup_cons.1 r1
      refine ⟨this.2, fun y hy => ⟨(r2 y (by simp [show y ∈ rest from hy])).1, ?_⟩⟩
      rw [hu]
      rintro (h | rfl)
      · exact (r2 y (by simp [show y ∈ rest from hy])).2 h
      · exact this.1 hy
    · rw [if_neg e'] at hn'
      obtain ⟨a, b⟩ := h.rest g' (List.mem_of_getElem? hn')
      refine ⟨a, fun y hy => ⟨(b y hy).1, ?_⟩⟩
      rw [hu]
      rintro (h' | rfl)
      · exact (b y hy).2 h'
      · have l1 := (b y hy).1
        have l2 := (r2 y (by simp)).1
        have p := h.sorted
        rw [List.pairwise_iff_getElem] at p
        obtain ⟨q1, q2⟩ := List.getElem?_eq_some_iff.1 hg
        obtain ⟨q3, q4⟩ := List.getElem?_eq_some_iff.1 hn'
        rcases Nat.lt_or_gt_of_ne e' with lt | lt
        · have := p g n (by simpa using q1) (by simpa using q3) lt
          simp only [List.getElem_map, q2, q4] at this
          omega
        · have := p n g (by simpa using q3) (by simpa using q1) lt
          simp only [List.getElem_map, q2, q4] at this
          omega
  · intro y
    rw [hu, hmap]
    rintro (h' | rfl)
    · exact h.seen y h'
    · rw [(r2 y (by simp)).1]
      exact List.mem_map.2 ⟨_, hm, rfl⟩

/-- An id is put into the set. -/
theorem IdInv.add {s : Sys} (h : IdInv s) {i k : Nat} {x : List Char} (e : s.pc i = .add k x) :
    IdInv { s.goto i (.loop k) with idSet := IdCounter.setAdd s.idSet x } := by
  have hh : PC.holds (s.pc i) = some x := by rw [e]; rfl
  obtain ⟨h1, h2, h3⟩ := h.held i x hh
  rw [IdCounter.setAdd_new h2]
  set t : Sys := { s.goto i (.loop k) with idSet := s.idSet ++ [x] } with ht
  have hpc : ∀ j, PC.holds (t.pc j) = if j = i then none else PC.holds (s.pc j) := by
    intro j
    show PC.holds ((s.goto i (.loop k)).pc j) = _
    by_cases e : j = i
    · subst e; rw [goto_same, if_pos rfl]; rfl
    · rw [goto_ne _ _ e, if_neg e]
  have hset : t.idSet = s.idSet ++ [x] := rfl
  have hu : ∀ y, Used t y ↔ Used s y := by
    intro y
    unfold Used
    simp only [hpc, hset]
    show (y ∈ returned s ∨ _) ↔ _
    constructor
    · rintro (h | h | ⟨j, h⟩)
      · exact .inl h
      · rcases List.mem_append.1 h with h | h
        · exact .inr (.inl h)
        · rw [List.mem_singleton] at h; subst h
          exact .inr (.inr ⟨i, hh⟩)
      · split at h
        · cases h
        · exact .inr (.inr ⟨j, h⟩)
    · rintro (h | h | ⟨j, h⟩)
      · exact .inl h
      · exact .inr (.inl (by simp [h]))
      · by_cases ej : j = i
        · subst ej; rw [hh] at h; cases h
          exact .inr (.inl (by simp))
        · exact .inr (.inr ⟨j, by rw [if_neg ej]; exact h⟩)
  refine ⟨h.outs, ?_, ?_, ?_, h.sorted, ?_, ?_⟩
  · rw [hset, List.nodup_append]
    refine ⟨h.set, by simp, fun a ha b hb => ?_⟩
    rw [List.mem_singleton] at hb; subst hb
    rintro rfl; exact h2 ha
  · intro y hy
    rw [hset]
    intro hc
    rcases List.mem_append.1 hc with hc | hc
    · exact h.sep y hy hc
    · rw [List.mem_singleton] at hc; subst hc; exact h1 hy
  · intro j y hj
    rw [hpc] at hj
    split at hj
    · cases hj
    · rename_i ej
      obtain ⟨a, b, c⟩ := h.held j y hj
      refine ⟨a, ?_, fun j' hj' => ?_⟩
      · rw [hset]
        intro hc
        rcases List.mem_append.1 hc with hc | hc
        · exact b hc
        · rw [List.mem_singleton] at hc; subst hc; exact ej (h3 j hj)
      · rw [hpc] at hj'
        split at hj'
        · cases hj'
        · exact c j' hj'
  · intro g hg
    obtain ⟨a, b⟩ := h.rest g hg
    exact ⟨a, fun y hy => ⟨(b y hy).1, by rw [hu]; exact (b y hy).2⟩⟩
  · intro y; rw [hu]; exact h.seen y

/-- An id is returned. -/
theorem IdInv.pop {s : Sys} (h : IdInv s) {i n : Nat} {x : List Char} (e : PC.holds (s.pc i) = none) (hx : s.idSet[n]? = some x) :
    IdInv { s.finish i (.ok x) with idSet := s.idSet.eraseIdx n } := by
  set t : Sys := { s.finish i (.ok x) with idSet := s.idSet.eraseIdx n } with ht
  have hm := List.mem_of_getElem? hx
  have hpc : ∀ j, PC.holds (t.pc j) = PC.holds (s.pc j) := fun j => holds_goto (p := .idle) e j
  have hret : returned t = returned s ++ [x] := by simp [returned, ht, Sys.finish, Except.toOption]
  have hset : t.idSet = s.idSet.eraseIdx n := rfl
  have hsub : ∀ y, y ∈ s.idSet.eraseIdx n → y ∈ s.idSet ∧ y ≠ x := by
    intro y hy
    refine ⟨List.mem_of_mem_eraseIdx hy, ?_⟩
    rintro rfl
    obtain ⟨m, hm1, hm2⟩ := List.mem_eraseIdx_iff_getElem?.1 hy
    obtain ⟨q1, q2⟩ := List.getElem?_eq_some_iff.1 hx
    obtain ⟨q3, q4⟩ := List.getElem?_eq_some_iff.1 hm2
    exact hm1 ((List.Nodup.getElem_inj_iff h.set).1 (q4.trans q2.symm))
  have hu : ∀ y, Used t y → Used s y := by
    intro y
    unfold Used
    simp only [hpc, hret, hset]
    rintro (h | h | h)
    · rcases List.mem_append.1 h with h | h
      · exact .inl h
      · rw [List.mem_singleton] at h; subst h; exact .inr (.inl hm)
    · exact .inr (.inl (hsub y h).1)
    · exact .inr (.inr h)
  refine ⟨?_, ?_, ?_, ?_, h.sorted, ?_, ?_⟩
  · rw [hret, List.nodup_append]
    refine ⟨h.outs, by simp, fun a ha b hb => ?_⟩
    rw [List.mem_singleton] at hb; subst hb
    rintro rfl; exact h.sep a ha hm
  · rw [hset]; exact h.set.sublist (List.eraseIdx_sublist _ _)
  · intro y hy hc
    rw [hset] at hc
    rw [hret] at hy
    rcases List.mem_append.1 hy with hy | hy
    · exact h.sep y hy (hsub y hc).1
    · rw [List.mem_singleton] at hy; exact (hsub y hc).2 hy
  · intro j y hj
    rw [hpc] at hj
    obtain ⟨a, b, c⟩ := h.held j y hj
    refine ⟨?_, fun hc => b (hsub y hc).1, fun j' hj' => c j' (by rw [← hpc]; exact hj')⟩
    rw [hret]
    intro hc
    rcases List.mem_append.1 hc with hc | hc
    · exact a hc
    · rw [List.mem_singleton] at hc; subst hc; exact b hm
  · intro g hg
    obtain ⟨a, b⟩ := h.rest g hg
    exact ⟨a, fun y hy => ⟨(b y hy).1, fun hc => (b y hy).2 (hu y hc)⟩⟩
  · intro y hy; exact h.seen y (hu y hy)

/-- A new generator. -/
theorem IdInv.assign {alpha : List Char} (ha : alpha.Nodup) {s : Sys} (h : IdInv s) {i r : Nat} (e : PC.holds (s.pc i) = none)
    (hr : ∀ r' ∈ s.gens.map Prod.fst, r' < r) (k : Nat) :
    IdInv { s.goto i (.again k) with gens := s.gens ++ [(r, combinations alpha r)], cur := s.gens.length } := by
  set t : Sys := { s.goto i (.again k) with gens := s.gens ++ [(r, combinations alpha r)], cur := s.gens.length } with ht
  have hpc : ∀ j, PC.holds (t.pc j) = PC.holds (s.pc j) := fun j => holds_goto (p := .again k) e j
  have hgens : t.gens = s.gens ++ [(r, combinations alpha r)] := rfl
  have hu : ∀ y, Used t y ↔ Used s y := fun y => by
    unfold Used; simp only [hpc]; rfl
  refine ⟨h.outs, h.set, h.sep, ?_, ?_, ?_, ?_⟩
  · intro j y; simp only [hpc]; exact h.held j y
  · rw [hgens, List.map_append, List.pairwise_append]
    exact ⟨h.sorted, by simp, fun a hb b hc => by simp at hc; subst hc; exact hr a hb⟩
  · rw [hgens]
    intro g hg
    rcases List.mem_append.1 hg with hg | hg
    · obtain ⟨a, b⟩ := h.rest g hg
      exact ⟨a, fun y hy => ⟨(b y hy).1, by rw [hu]; exact (b y hy).2⟩⟩
    · rw [List.mem_singleton] at hg; subst hg
      refine ⟨nodup_combinations ha r, fun y hy => ?_⟩
      have hl : y.length = r := ((mem_combinations alpha r y).1 hy).2
      refine ⟨hl, ?_⟩
      rw [hu]
      intro hc
      have := hr _ (h.seen y hc)
      omega
  · intro y; rw [hu, hgens, List.map_append]
    intro hy
    exact List.mem_append_left _ (h.seen y hy)

/-- At most one thread is making the ids longer. -/
def Alone (s : Sys) : Prop := ∀ i j, PC.lengthens (s.pc i) = true → PC.lengthens (s.pc j) = true → i = j

/-- The threads that lengthen ids are those that did, and have the same lengths. -/
theorem LenInv.fewer {s t : Sys} (h : LenInv s) (h1 : t.length = s.length) (h2 : t.gens.map Prod.fst = s.gens.map Prod.fst)
    (h3 : ∀ j, PC.lengthens (t.pc j) = true → t.pc j = s.pc j) : LenInv t := by
  refine ⟨by rw [h1, h2]; exact h.le, ?_, ?_, ?_⟩
  · intro i k n e
    rw [h1]
    exact h.grow i k n (by rw [← h3 i (by rw [e]; rfl)]; exact e)
  · intro i k e
    rw [h1, h2]
    have : PC.lengthens (t.pc i) = true := by rcases e with e | e <;> (rw [e]; rfl)
    rw [h3 i this] at e
    exact h.lt i k e
  · intro i k n e
    rw [h1, h2]
    exact h.assign i k n (by rw [← h3 i (by rw [e]; rfl)]; exact e)

theorem LenInv.quiet {s t : Sys} (h : LenInv s) {i : Nat} {p : PC} (hp : PC.lengthens p = false) (h1 : t.length = s.length)
    (h2 : t.gens.map Prod.fst = s.gens.map Prod.fst) (h3 : t.pc = (s.goto i p).pc) : LenInv t := by
  refine h.fewer h1 h2 fun j hj => ?_
  rw [h3] at hj ⊢
  by_cases e : j = i
  · subst e; rw [goto_same, hp] at hj; cases hj
  · rw [goto_ne _ _ e]

theorem map_fst_set {l : List (Nat × List (List Char))} {g r : Nat} {xs ys : List (List Char)} (h : l[g]? = some (r, xs)) :
    (l.set g (r, ys)).map Prod.fst = l.map Prod.fst := by
  apply List.ext_getElem?
  intro n
  simp only [List.getElem?_map, List.getElem?_set]
  by_cases hn : g = n
  · subst hn
    rw [if_pos rfl, if_pos (List.getElem?_eq_some_iff.1 h).1, h]; rfl
  · rw [if_neg hn]

theorem lengthens_of {p : PC} (h : (∃ k n, p = .grow k n) ∨ (∃ k, p = .compare k ∨ p = .size k) ∨ ∃ k n, p = .assign k n) : PC.lengthens p = true := by
  rcases h with ⟨_, _, rfl⟩ | ⟨_, rfl | rfl⟩ | ⟨_, _, rfl⟩ <;> rfl

/-- What the only thread that lengthens ids does. -/
theorem LenInv.alone {t : Sys} {i : Nat} (h1 : ∀ j, j ≠ i → PC.lengthens (t.pc j) = false) (hle : ∀ r ∈ t.gens.map Prod.fst, r ≤ t.length)
    (hg : ∀ k n, t.pc i = .grow k n → n = t.length) (hc : ∀ k, t.pc i = .compare k ∨ t.pc i = .size k → ∀ r ∈ t.gens.map Prod.fst, r < t.length)
    (ha : ∀ k n, t.pc i = .assign k n → n = t.length ∧ ∀ r ∈ t.gens.map Prod.fst, r < t.length) : LenInv t := by
  have key : ∀ j, PC.lengthens (t.pc j) = true → j = i := by
    intro j hj
    by_contra hne
    rw [h1 j hne] at hj; cases hj
  refine ⟨hle, fun j k n e => ?_, fun j k e => ?_, fun j k n e => ?_⟩
  · have := key j (lengthens_of (.inl ⟨k, n, e⟩)); subst this; exact hg k n e
  · have := key j (lengthens_of (.inr (.inl ⟨k, e⟩))); subst this; exact hc k e
  · have := key j (lengthens_of (.inr (.inr ⟨k, n, e⟩))); subst this; exact ha k n e

theorem step_inv {alpha : List Char} (ha : alpha.Nodup) {s : Sys} (h : IdInv s) (hl : LenInv s) (hal : Alone s) (i pick : Nat) :
    IdInv (step alpha i pick s) ∧ LenInv (step alpha i pick s) := by
  have others : PC.lengthens (s.pc i) = true → ∀ j, j ≠ i → PC.lengthens (s.pc j) = false := by
    intro hi j hj
    cases e : PC.lengthens (s.pc j) with
    | false => rfl
    | true => exact absurd (hal j i e hi) hj
  unfold step
  cases e : s.pc i with
  | idle =>
    dsimp only
    split
    · exact ⟨h.goto (by rw [e]; rfl), hl.quiet (i := i) (p := .loop s.batch) rfl rfl rfl rfl⟩
    · exact ⟨h.goto (by rw [e]; rfl), hl.quiet (i := i) (p := .pop) rfl rfl rfl rfl⟩
  | loop k =>
    cases k with
    | zero => exact ⟨h.goto (by rw [e]; rfl), hl.quiet (i := i) (p := .pop) rfl rfl rfl rfl⟩
    | succ k => exact ⟨h.goto (by rw [e]; rfl), hl.quiet (i := i) (p := .draw k s.cur) rfl rfl rfl rfl⟩
  | draw k g =>
    dsimp only
    split
    · rename_i r x rest hg
      exact ⟨h.draw hg (by rw [e]; rfl) k, hl.quiet (i := i) (p := .add k x) rfl rfl (map_fst_set hg) rfl⟩
    · exact ⟨h.goto (by rw [e]; rfl), hl.quiet (i := i) (p := .caught k) rfl rfl rfl rfl⟩
  | add k x => exact ⟨h.add e, hl.quiet (i := i) (p := .loop k) rfl rfl rfl rfl⟩
  | caught k =>
    refine ⟨h.goto (by rw [e]; rfl), ?_⟩
    refine ⟨hl.le, fun j k' n hj => ?_, fun j k' hj => ?_, fun j k' n hj => ?_⟩
    all_goals by_cases ej : j = i
    · subst ej; rw [goto_same] at hj; cases hj; rfl
    · rw [goto_ne _ _ ej] at hj; exact hl.grow j k' n hj
    · subst ej; rw [goto_same] at hj; rcases hj with hj | hj <;> cases hj
    · rw [goto_ne _ _ ej] at hj; exact hl.lt j k' hj
    · subst ej; rw [goto_same] at hj; cases hj
    · rw [goto_ne _ _ ej] at hj; exact hl.assign j k' n hj
  | grow k n =>
    have hn := hl.grow i k n e
    have ho := others (by rw [e]; rfl)
    refine ⟨(h.goto (p := .compare k) (by rw [e]; rfl)).same rfl rfl (fun _ => rfl) rfl, ?_⟩
    have hlt : ∀ r ∈ s.gens.map Prod.fst, r < n + 1 := fun r hr => by have := hl.le r hr; omega
    refine LenInv.alone (i := i) (fun j hj => ?_) (fun r hr => Nat.le_of_lt (hlt r hr)) (fun k' n' e' => ?_) (fun k' _ => hlt) (fun k' n' e' => ?_)
    · show PC.lengthens ((s.goto i (.compare k)).pc j) = _
      rw [goto_ne _ _ hj]; exact ho j hj
    · exact absurd ((goto_same s i (.compare k)).symm.trans e') (by simp)
    · exact absurd ((goto_same s i (.compare k)).symm.trans e') (by simp)
  | compare k =>
    have hlt := hl.lt i k (.inl e)
    have ho := others (by rw [e]; rfl)
    dsimp only
    split
    · exact ⟨h.goto (by rw [e]; rfl), hl.quiet (i := i) (p := .last) rfl rfl rfl rfl⟩
    · refine ⟨h.goto (by rw [e]; rfl), LenInv.alone (i := i) (fun j hj => ?_) hl.le (fun k' n' e' => ?_) (fun k' _ => hlt) (fun k' n' e' => ?_)⟩
      · rw [goto_ne _ _ hj]; exact ho j hj
      · exact absurd ((goto_same s i (.size k)).symm.trans e') (by simp)
      · exact absurd ((goto_same s i (.size k)).symm.trans e') (by simp)
  | last =>
    dsimp only
    split
    · exact ⟨h.fail (by rw [e]; rfl) _, hl.quiet (i := i) (p := .idle) rfl rfl rfl rfl⟩
    · exact ⟨h.goto (by rw [e]; rfl), hl.quiet (i := i) (p := .pop) rfl rfl rfl rfl⟩
  | size k =>
    have hlt := hl.lt i k (.inr e)
    have ho := others (by rw [e]; rfl)
    refine ⟨h.goto (by rw [e]; rfl), LenInv.alone (i := i) (fun j hj => ?_) hl.le (fun k' n' e' => ?_) (fun k' _ => hlt) (fun k' n' e' => ?_)⟩
    · rw [goto_ne _ _ hj]; exact ho j hj
    · exact absurd ((goto_same s i (.assign k s.length)).symm.trans e') (by simp)
    · have := (goto_same s i (.assign k s.length)).symm.trans e'
      cases this
      exact ⟨rfl, hlt⟩
  | assign k r =>
    obtain ⟨hr, hlt⟩ := hl.assign i k r e
    have ho := others (by rw [e]; rfl)
    refine ⟨h.assign ha (by rw [e]; rfl) (by rw [hr]; exact hlt) k, ?_⟩
    refine LenInv.alone (i := i) (fun j hj => ?_) (fun r' hr' => ?_) (fun k' n' e' => ?_) (fun k' e' => ?_) (fun k' n' e' => ?_)
    · show PC.lengthens ((s.goto i (.again k)).pc j) = _
      rw [goto_ne _ _ hj]; exact ho j hj
    · show r' ≤ s.length
      have hr2 : r' ∈ (s.gens ++ [(r, combinations alpha r)]).map Prod.fst := hr'
      rw [List.map_append] at hr2
      rcases List.mem_append.1 hr2 with hr2 | hr2
      · exact hl.le r' hr2
      · simp at hr2; omega
    · exact absurd ((goto_same s i (.again k)).symm.trans e') (by simp)
    · rcases e' with e' | e' <;> exact absurd ((goto_same s i (.again k)).symm.trans e') (by simp)
    · exact absurd ((goto_same s i (.again k)).symm.trans e') (by simp)
  | again k => exact ⟨h.goto (by rw [e]; rfl), hl.quiet (i := i) (p := .draw' k s.cur) rfl rfl rfl rfl⟩
  | draw' k g =>
    dsimp only
    split
    · rename_i r x rest hg
      exact ⟨h.draw hg (by rw [e]; rfl) k, hl.quiet (i := i) (p := .add k x) rfl rfl (map_fst_set hg) rfl⟩
    · exact ⟨h.fail (by rw [e]; rfl) _, hl.quiet (i := i) (p := .idle) rfl rfl rfl rfl⟩
  | pop =>
    dsimp only
    split
    · exact ⟨h.fail (by rw [e]; rfl) _, hl.quiet (i := i) (p := .idle) rfl rfl rfl rfl⟩
    · rename_i x hx
      exact ⟨h.pop (by rw [e]; rfl) hx, hl.quiet (i := i) (p := .idle) rfl rfl rfl rfl⟩

theorem run_append (alpha : List Char) (l m : List (Nat × Nat)) : ∀ s, run alpha (l ++ m) s = run alpha m (run alpha l s) := by
  induction l with
  | nil => intro s; rfl
  | cons a l ih => intro s; exact ih _

theorem run_inv {alpha : List Char} (ha : alpha.Nodup) : ∀ (l : List (Nat × Nat)) {s : Sys}, IdInv s → LenInv s →
    (∀ k < l.length, Alone (run alpha (l.take k) s)) → IdInv (run alpha l s) ∧ LenInv (run alpha l s)
  | [], _, h, hl, _ => ⟨h, hl⟩
  | (i, pick) :: l, s, h, hl, hal => by
    obtain ⟨h1, h2⟩ := step_inv ha h hl (hal 0 (by simp)) i pick
    exact run_inv ha l h1 h2 fun k hk => hal (k + 1) (by simpa using hk)

theorem start_inv {alpha : List Char} (ha : alpha.Nodup) (length batch : Option Nat) : IdInv (start alpha length batch) ∧ LenInv (start alpha length batch) := by
  have hu : ∀ x, ¬ Used (start alpha length batch) x := by
    rintro x (h | h | ⟨i, h⟩)
    · cases h
    · cases h
    · cases h
  refine ⟨⟨List.nodup_nil, List.nodup_nil, fun x h => (by cases h), fun i x h => (by cases h), by simp [start], ?_, fun x h => absurd h (hu x)⟩,
    ⟨by simp [start], fun i k n h => (by cases h), fun i k h => (by rcases h with h | h <;> cases h), fun i k n h => (by cases h)⟩⟩
  intro g hg
  simp only [start, List.mem_singleton] at hg
  subst hg
  exact ⟨nodup_combinations ha _, fun x hx => ⟨((mem_combinations alpha _ x).1 hx).2, hu x⟩⟩

end DG.Proofs
