import Verif.Proofs.IdCalls
import Verif.Props.Ids

/-!
# C120 — the id counter with all its calls

A user may call `next`, `refresh` and `reset` in any order; `set.pop` may choose any element.  After a reset with non-negative arguments, from whatever state, no id
is returned twice, refreshes included.  It fails across resets, and with negative arguments.
-/

namespace DG.Props
open DG.IdCounter

/-- After `reset(l, b)`, in any state, every sequence of calls of `next` and `refresh`:  an id is returned at most once; it is a string of different characters of the
alphabet, in the alphabet's order, of at least the length asked for; `next` returns an id and `refresh` returns nothing, unless all such ids were returned before, and only
then `ValueError` can be raised.  Missing: resets in between, and negative arguments, see below. -/
theorem C120_calls_partial (s : IdState) (l b : Option Int) (hl : ∀ x ∈ l, 0 ≤ x) (hb : ∀ x ∈ b, 0 ≤ x) (calls : List IdCall)
    (hc : ∀ c ∈ calls, c = .refresh ∨ ∃ pick, c = .next pick) :
    ∃ outs : List (Except Err (Option (List Char))), (runZ alphanum (.reset l b :: calls) s).1 = .ok none :: outs ∧
    (∀ (i j : Nat) (x : List Char), outs[i]? = some (.ok (some x)) → outs[j]? = some (.ok (some x)) → i = j) ∧
    (∀ (i : Nat) (x : List Char), outs[i]? = some (.ok (some x)) → x.Sublist alphanum ∧ orDefault l 4 ≤ x.length) ∧
    ∀ (i : Nat) (c : IdCall), calls[i]? = some c →
      (outs[i]? = some (.error .valueError) ∧
        ∀ x : List Char, x.Sublist alphanum → orDefault l 4 ≤ x.length → ∃ j, j < i ∧ outs[j]? = some (.ok (some x))) ∨
      (c = .refresh ∧ outs[i]? = some (.ok none)) ∨
      ((∃ pick, c = .next pick) ∧ ∃ x, outs[i]? = some (.ok (some x))) := by
  obtain ⟨s0, e0, hi, hb0⟩ := resetZ_eq alphanum l b hl hb s
  obtain ⟨s', -, h2, h3⟩ := runZ_inv alphanum_nodup.1 calls
    (fun c h => by rcases hc c h with rfl | ⟨p, rfl⟩ <;> exact trivial) hi hb0
  have erun : (runZ alphanum (.reset l b :: calls) s).1 = .ok none :: (runZ alphanum calls (toZ s0)).1 := by
    simp only [runZ, callZ, e0, Except.map]
  generalize (runZ alphanum calls (toZ s0)).1 = outs at erun h2 h3
  have hnd := h2.nodup alphanum_nodup.1
  simp only [List.nil_append] at h2 h3 hnd
  refine ⟨outs, erun, fun i j x a b => idsOf_inj (List.nodup_append.1 (List.nodup_append.1 (List.nodup_append.1 hnd).1).1).1 a b, ?_, ?_⟩
  · intro i x hx
    have hm : x ∈ allIds alphanum (orDefault l 4).toNat := by
      refine h2.perm.mem_iff.1 ?_
      simp [mem_idsOf.2 ⟨i, hx⟩]
    have := mem_allIds.1 hm
    exact ⟨this.1, by have := this.2; omega⟩
  · intro i c hic
    rcases h3 i c hic with ⟨k1, k2⟩ | k | k
    · refine .inl ⟨k1, fun x a b => ?_⟩
      obtain ⟨j, hj⟩ := mem_idsOf.1 (k2 x a (by omega))
      rw [List.getElem?_take] at hj
      by_cases hlt : j < i
      · rw [if_pos hlt] at hj
        exact ⟨j, hlt, hj⟩
      · rw [if_neg hlt] at hj
        cases hj
    · exact .inr (.inl k)
    · exact .inr (.inr k)

/-- A reset that does not raise forgets the history: what later calls return does not depend on the state before. -/
theorem C120_reset (s s' : IdState) (l b : Option Int) (calls : List IdCall) (hl : ∀ x ∈ l, 0 ≤ x) :
    runZ alphanum (.reset l b :: calls) s = runZ alphanum (.reset l b :: calls) s' ∧ (runZ alphanum (.reset l b :: calls) s).1.head? = some (.ok none) := by
  have k : 0 ≤ orDefault l 4 := by
    cases l with
    | none => simp [orDefault]
    | some x =>
      have := hl x rfl
      simp only [orDefault]
      split <;> omega
  have hc : combinationsZ alphanum (orDefault l 4) = .ok (combinations alphanum (orDefault l 4).toNat) := by
    unfold combinationsZ
    rw [if_neg (by omega)]
  simp only [runZ, callZ, resetZ, hc]
  exact ⟨trivial, rfl⟩

/-- A reset with a batch size of one and a length that exists makes the counter repeat its ids, whatever was returned before and whatever `set.pop` chooses. -/
theorem C120_reuse_violated (s : IdState) (l : Nat) (h1 : 0 < l) (h2 : l ≤ 36) (p q : Nat) :
    ∃ x, (runZ alphanum [.reset (some l) (some 1), .next p, .reset (some l) (some 1), .next q] s).1 =
      [.ok none, .ok (some x), .ok none, .ok (some x)] := by
  have hne : combinations alphanum l ≠ [] := combinations_ne_nil (by rw [alphanum_nodup.2]; exact h2)
  obtain ⟨x, rest, hx⟩ := List.exists_cons_of_ne_nil hne
  have hd : orDefault (some (l : Int)) 4 = l := by
    simp only [orDefault]
    rw [if_neg (by omega)]
  have hd1 : orDefault (some 1) 1000 = 1 := rfl
  have hc : combinationsZ alphanum (l : Int) = .ok (x :: rest) := by
    unfold combinationsZ
    rw [if_neg (by omega), Int.toNat_natCast, hx]
  have hr : ∀ s, resetZ alphanum (some (l : Int)) (some 1) s = (.ok (), ⟨l, 1, x :: rest, []⟩) := by
    intro s
    simp only [resetZ, hd, hd1, hc]
  have hn : ∀ p, (nextZ alphanum p ⟨l, 1, x :: rest, []⟩).1 = .ok x := by
    intro p
    simp [nextZ, refreshZ, refreshLoopZ, popAnyZ, setAdd, Nat.mod_one]
  refine ⟨x, ?_⟩
  simp only [runZ, callZ, hr, hn, Except.map]

/-- A negative length is refused with `ValueError`, but length and batch size are already changed; the ids that are still to come are not. -/
theorem C120_negative_length_violated (s : IdState) (l : Int) (b : Option Int) (h : l < 0) :
    runZ alphanum [.reset (some l) b] s = ([.error .valueError], { s with length := l, batch := orDefault b 1000 }) := by
  have hd : orDefault (some l) 4 = l := by
    simp only [orDefault]
    rw [if_neg (by omega)]
  simp only [runZ, callZ, resetZ, hd, combinationsZ, if_pos h, Except.map]

/-- A counter that has returned all ids then returns the empty id. -/
theorem C120_empty_id_violated (s : IdState) (p q : Nat) :
    (runZ alphanum [.reset (some 36) (some 1), .next p, .reset (some (-1)) (some 1), .next q] s).1 =
      [.ok none, .ok (some alphanum), .error .valueError, .ok (some [])] := by
  have hc : combinations alphanum 36 = [alphanum] := by decide +kernel
  have hr : resetZ alphanum (some 36) (some 1) s = (.ok (), ⟨36, 1, [alphanum], []⟩) := by
    simp [resetZ, orDefault, combinationsZ, hc]
  have hn : nextZ alphanum p ⟨36, 1, [alphanum], []⟩ = (.ok alphanum, ⟨36, 1, [], []⟩) := by
    simp [nextZ, refreshZ, refreshLoopZ, popAnyZ, setAdd, Nat.mod_one]
  have hr2 : resetZ alphanum (some (-1)) (some 1) ⟨36, 1, [], []⟩ = (.error .valueError, ⟨-1, 1, [], []⟩) := by
    simp [resetZ, orDefault, combinationsZ]
  have hc0 : combinationsZ alphanum 0 = .ok [[]] := by
    simp [combinationsZ, combinations]
  have hn2 : (nextZ alphanum q ⟨-1, 1, [], []⟩).1 = .ok [] := by
    have : ¬ ((alphanum.length : Int) < 0) := by omega
    simp [nextZ, refreshZ, refreshLoopZ, popAnyZ, setAdd, hc0, this, Nat.mod_one]
  simp only [runZ, callZ, hr, hn, hr2, hn2, Except.map]

/-- A negative batch size is accepted, and afterwards every call of `next` raises `KeyError`, while `refresh` does nothing. -/
theorem C120_negative_batch_violated (s : IdState) (l : Option Int) (b : Int) (hl : ∀ x ∈ l, 0 ≤ x) (hb : b < 0) (picks : List Nat) :
    (runZ alphanum (.reset l (some b) :: picks.flatMap fun p => [.refresh, .next p]) s).1 =
      .ok none :: picks.flatMap fun _ => [.ok none, .error .keyError] := by
  have hd : orDefault (some b) 1000 = b := by
    simp only [orDefault]
    rw [if_neg (by omega)]
  have k : 0 ≤ orDefault l 4 := by
    cases l with
    | none => simp [orDefault]
    | some x =>
      have := hl x rfl
      simp only [orDefault]
      split <;> omega
  have hc : combinationsZ alphanum (orDefault l 4) = .ok (combinations alphanum (orDefault l 4).toNat) := by
    unfold combinationsZ
    rw [if_neg (by omega)]
  have hb0 : b.toNat = 0 := by omega
  have key : ∀ (n : Int) (g : List (List Char)) (picks : List Nat),
      (runZ alphanum (picks.flatMap fun p => [.refresh, .next p]) ⟨n, b, g, []⟩).1 = picks.flatMap fun _ => [.ok none, .error .keyError] := by
    intro n g picks
    induction picks with
    | nil => rfl
    | cons p ps ih =>
      simp only [List.flatMap_cons, List.cons_append, List.nil_append, runZ, callZ, refreshZ, nextZ, hb0, refreshLoopZ, List.isEmpty_nil, if_true, popAnyZ,
        List.getElem?_nil, Except.map, ih]
  simp only [runZ, callZ, resetZ, hd, hc, Except.map, key]

/-- Not vacuous: with a length of 36 there is one id; a refresh in between changes nothing, and the second `next` raises. -/
example (s : IdState) : (runZ alphanum [.reset (some 36) (some 5), .refresh, .next 3, .next 8] s).1 =
    [.ok none, .ok none, .ok (some alphanum), .error .valueError] := by
  have hc : combinations alphanum 36 = [alphanum] := by decide +kernel
  have hr : resetZ alphanum (some 36) (some 5) s = (.ok (), ⟨36, 5, [alphanum], []⟩) := by
    simp [resetZ, orDefault, combinationsZ, hc]
  have : (runZ alphanum [.refresh, .next 3, .next 8] ⟨36, 5, [alphanum], []⟩).1 = [.ok none, .ok (some alphanum), .error .valueError] := by decide +kernel
  rw [← this]
  simp only [runZ, callZ, hr, Except.map]

end DG.Props
