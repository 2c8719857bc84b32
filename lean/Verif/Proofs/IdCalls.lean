import Verif.Model.IdCalls
import Verif.Proofs.IdCounter

/-! Lemmas for C120: the counter with all calls. -/

namespace DG.IdCounter

/-- The states with natural numbers. -/
def toZ (s : IdCounter) : IdState := { length := s.length, batch := s.batch, gen := s.gen, idSet := s.idSet }

theorem refreshLoopZ_eq (alpha : List Char) (n : Nat) : ∀ s : IdCounter,
    refreshLoopZ alpha n (toZ s) = ((refreshLoop alpha n s).1, toZ (refreshLoop alpha n s).2) := by
  induction n with
  | zero => intro s; rfl
  | succ n ih =>
    intro s
    obtain ⟨len, batch, gen, ids⟩ := s
    cases gen with
    | cons id rest => exact ih ⟨len, batch, rest, setAdd ids id⟩
    | nil =>
      by_cases h : len + 1 > alpha.length
      · have h' : ((len : Int) + 1 > (alpha.length : Int)) := by omega
        by_cases h2 : ids.isEmpty = true
        · simp [refreshLoopZ, refreshLoop, toZ, h, h', h2]
        · simp [refreshLoopZ, refreshLoop, toZ, h, h', h2]
      · have h' : ¬ ((len : Int) + 1 > (alpha.length : Int)) := by omega
        have e : combinationsZ alpha ((len : Int) + 1) = .ok (combinations alpha (len + 1)) := by
          unfold combinationsZ
          rw [if_neg (by omega)]
          rfl
        cases hc : combinations alpha (len + 1) with
        | nil =>
          rw [hc] at e
          simp [refreshLoopZ, refreshLoop, toZ, h, h', e, hc]
        | cons id rest =>
          rw [hc] at e
          have := ih ⟨len + 1, batch, rest, setAdd ids id⟩
          simpa [refreshLoopZ, refreshLoop, toZ, h, h', e, hc] using this

theorem nextZ_eq (alpha : List Char) (pick : Nat) (s : IdCounter) : nextZ alpha pick (toZ s) = ((next alpha pick s).1, toZ (next alpha pick s).2) := by
  have hp : ∀ s : IdCounter, popAnyZ pick (toZ s) = ((popAny pick s).1, toZ (popAny pick s).2) := by
    intro s
    unfold popAnyZ popAny
    simp only [toZ]
    cases s.idSet[pick % s.idSet.length]? <;> rfl
  have hr : refreshZ alpha (toZ s) = ((refresh alpha s).1, toZ (refresh alpha s).2) := refreshLoopZ_eq alpha s.batch s
  unfold nextZ next
  by_cases h : s.idSet.isEmpty = true
  · rw [if_pos h, if_pos (show (toZ s).idSet.isEmpty = true from h), hr]
    rcases e : refresh alpha s with ⟨e1 | x, s'⟩
    · rfl
    · exact hp s'
  · rw [if_neg h, if_neg (show ¬ (toZ s).idSet.isEmpty = true from h)]
    exact hp s

/-- The ids that were returned. -/
def idsOf : List (Except Err (Option (List Char))) → List (List Char)
  | [] => []
  | .ok (some x) :: rest => x :: idsOf rest
  | _ :: rest => idsOf rest

/-- All ids were returned. -/
theorem Inv.all {alpha : List Char} {L : Nat} {emitted : List (List Char)} {s : IdCounter} (h : Inv alpha L emitted s)
    (hl : emitted.length = (allIds alpha L).length) {x : List Char} (h1 : x.Sublist alpha) (h2 : L ≤ x.length) : x ∈ emitted := by
  have e := h.perm.length_eq
  simp only [List.length_append] at e
  have hx := h.perm.mem_iff.2 (mem_allIds.2 ⟨h1, h2⟩)
  have z1 : s.idSet = [] := List.length_eq_zero_iff.1 (by omega)
  have z2 : s.gen = [] := List.length_eq_zero_iff.1 (by omega)
  have z3 : allIds alpha (s.length + 1) = [] := List.length_eq_zero_iff.1 (by omega)
  rw [z1, z2, z3] at hx
  simpa using hx

/-- A call of `next` or `refresh`. -/
def NoReset : IdCall → Prop
  | .reset _ _ => False
  | _ => True

theorem runZ_inv {alpha : List Char} (ha : alpha.Nodup) {L : Nat} (calls : List IdCall) : (∀ c ∈ calls, NoReset c) →
    ∀ {emitted : List (List Char)} {s : IdCounter}, Inv alpha L emitted s → 0 < s.batch →
    ∃ s', (runZ alpha calls (toZ s)).2 = toZ s' ∧ Inv alpha L (emitted ++ idsOf (runZ alpha calls (toZ s)).1) s' ∧
      ∀ i c, calls[i]? = some c →
        ((runZ alpha calls (toZ s)).1[i]? = some (.error .valueError) ∧
          ∀ x : List Char, x.Sublist alpha → L ≤ x.length → x ∈ emitted ++ idsOf ((runZ alpha calls (toZ s)).1.take i)) ∨
        (c = .refresh ∧ (runZ alpha calls (toZ s)).1[i]? = some (.ok none)) ∨
        ((∃ pick, c = .next pick) ∧ ∃ x, (runZ alpha calls (toZ s)).1[i]? = some (.ok (some x))) := by
  induction calls with
  | nil => intro _ emitted s h hb; exact ⟨s, rfl, by simpa [runZ, idsOf] using h, fun i c hc => by simp at hc⟩
  | cons c cs ih =>
    intro hc emitted s h hb
    have hcs := fun c' h' => hc c' (List.mem_cons_of_mem _ h')
    have key : ∃ r s1, callZ alpha (toZ s) c = (r, toZ s1) ∧ 0 < s1.batch ∧ Inv alpha L (emitted ++ idsOf [r]) s1 ∧
        ((r = .error .valueError ∧ ∀ x : List Char, x.Sublist alpha → L ≤ x.length → x ∈ emitted) ∨ (c = .refresh ∧ r = .ok none) ∨
          ((∃ pick, c = .next pick) ∧ ∃ x, r = .ok (some x))) := by
      cases c with
      | next pick =>
        obtain ⟨n1, n2, n3⟩ := next_inv ha h hb pick
        have e : callZ alpha (toZ s) (.next pick) = ((next alpha pick s).1.map some, toZ (next alpha pick s).2) := by
          simp only [callZ, nextZ_eq]
        rcases n3 with ⟨id, k1, -, -, k4⟩ | ⟨k1, k2, k3⟩
        · rw [k1] at e
          exact ⟨_, _, e, by rw [n1]; exact hb, k4, .inr (.inr ⟨⟨pick, rfl⟩, id, rfl⟩)⟩
        · rw [k1] at e
          exact ⟨_, _, e, by rw [n1]; exact hb, by simpa [idsOf, Except.map] using k3, .inl ⟨rfl, fun x h1 h2 => h.all k2 h1 h2⟩⟩
      | refresh =>
        obtain ⟨i1, i2, i3, i4, i5, i6⟩ := refreshLoop_inv ha s.batch s h
        have e : callZ alpha (toZ s) .refresh = ((refreshLoop alpha s.batch s).1.map fun _ => none, toZ (refreshLoop alpha s.batch s).2) := by
          have := refreshLoopZ_eq alpha s.batch s
          simp only [callZ, refreshZ]
          rw [show (toZ s).batch.toNat = s.batch from rfl, this]
        by_cases hs : s.idSet = []
        · have hle : emitted.length ≤ (allIds alpha L).length := by
            have := h.perm.length_eq
            simp at this
            omega
          rcases Nat.lt_or_ge emitted.length (allIds alpha L).length with hlt | hge
          · rw [(i5 hb hlt).2] at e
            exact ⟨_, _, e, by rw [i2]; exact hb, by simpa [idsOf, Except.map] using i1, .inr (.inl ⟨rfl, rfl⟩)⟩
          · have heq : emitted.length = (allIds alpha L).length := by omega
            rw [(i6 hb hs heq).1] at e
            exact ⟨_, _, e, by rw [i2]; exact hb, by simpa [idsOf, Except.map] using i1, .inl ⟨rfl, fun x h1 h2 => h.all heq h1 h2⟩⟩
        · rw [(i4 hs).2] at e
          exact ⟨_, _, e, by rw [i2]; exact hb, by simpa [idsOf, Except.map] using i1, .inr (.inl ⟨rfl, rfl⟩)⟩
      | reset l b => exact absurd (hc _ (List.mem_cons_self ..)) (fun h => h)
    obtain ⟨r, s1, e, hb1, hi1, hr⟩ := key
    obtain ⟨s', j1, j2, j3⟩ := ih hcs hi1 hb1
    have erun : runZ alpha (c :: cs) (toZ s) = (r :: (runZ alpha cs (toZ s1)).1, (runZ alpha cs (toZ s1)).2) := by
      simp only [runZ, e]
    have eids : ∀ l, idsOf (r :: l) = idsOf [r] ++ idsOf l := by
      intro l
      rcases r with e | (_ | x) <;> rfl
    rw [erun]
    refine ⟨s', j1, by rw [eids, ← List.append_assoc]; exact j2, ?_⟩
    intro i c' hi
    cases i with
    | zero =>
      simp only [List.getElem?_cons_zero, Option.some.injEq] at hi
      subst hi
      simpa [idsOf] using hr
    | succ i =>
      simp only [List.getElem?_cons_succ] at hi ⊢
      rcases j3 i c' hi with ⟨k1, k2⟩ | k | k
      · refine .inl ⟨k1, fun x h1 h2 => ?_⟩
        rw [List.take_succ_cons, eids, ← List.append_assoc]
        exact k2 x h1 h2
      · exact .inr (.inl k)
      · exact .inr (.inr k)

end DG.IdCounter

namespace DG.IdCounter

theorem mem_idsOf {x : List Char} : ∀ {outs : List (Except Err (Option (List Char)))}, x ∈ idsOf outs ↔ ∃ j : Nat, outs[j]? = some (.ok (some x))
  | [] => by simp [idsOf]
  | o :: outs => by
    have e : idsOf (o :: outs) = idsOf [o] ++ idsOf outs := by rcases o with e | (_ | x) <;> rfl
    rw [e, List.mem_append, mem_idsOf (outs := outs)]
    constructor
    · rintro (h | ⟨j, h⟩)
      · refine ⟨0, ?_⟩
        rcases o with e | (_ | y)
        · cases h
        · cases h
        · rw [show x = y by simpa [idsOf] using h]; rfl
      · exact ⟨j + 1, h⟩
    · rintro ⟨j, h⟩
      cases j with
      | zero =>
        have : o = .ok (some x) := by simpa using h
        subst this
        exact .inl (by simp [idsOf])
      | succ j => exact .inr ⟨j, h⟩

theorem idsOf_inj {x : List Char} : ∀ {outs : List (Except Err (Option (List Char)))}, (idsOf outs).Nodup → ∀ {i j : Nat},
    outs[i]? = some (.ok (some x)) → outs[j]? = some (.ok (some x)) → i = j
  | [], _, i, j, h, _ => by simp at h
  | o :: outs, hn, i, j, hi, hj => by
    have e : idsOf (o :: outs) = idsOf [o] ++ idsOf outs := by rcases o with e | (_ | x) <;> rfl
    rw [e] at hn
    have hd : ∀ k : Nat, outs[k]? = some (.ok (some x)) → o ≠ .ok (some x) := by
      rintro k hk rfl
      exact (List.nodup_append.1 hn).2.2 x (by simp [idsOf]) x (mem_idsOf.2 ⟨k, hk⟩) rfl
    cases i with
    | zero =>
      cases j with
      | zero => rfl
      | succ j => exact absurd (by simpa using hi) (hd j hj)
    | succ i =>
      cases j with
      | zero => exact absurd (by simpa using hj) (hd i hi)
      | succ j => exact congrArg (· + 1) (idsOf_inj (List.nodup_append.1 hn).2.1 (show outs[i]? = _ from hi) hj)

/-- A reset with non-negative arguments. -/
theorem resetZ_eq (alpha : List Char) (l b : Option Int) (hl : ∀ x ∈ l, 0 ≤ x) (hb : ∀ x ∈ b, 0 ≤ x) (s : IdState) :
    ∃ s0, resetZ alpha l b s = (.ok (), toZ s0) ∧ Inv alpha (orDefault l 4).toNat [] s0 ∧ 0 < s0.batch := by
  have key : ∀ (o : Option Int) (d : Nat), (∀ x ∈ o, 0 ≤ x) → 0 < d → 0 < orDefault o d := by
    intro o d ho hd
    cases o with
    | none => simpa [orDefault] using hd
    | some x =>
      have := ho x rfl
      simp only [orDefault]
      split <;> omega
  have k1 := key l 4 hl (by omega)
  have k2 := key b 1000 hb (by omega)
  simp only [Nat.cast_ofNat] at k1 k2
  have e : ∀ n : Nat, 0 < n → ∀ d, (match some n with | none | some 0 => d | some n => n) = n := by
    intro n hn d; cases n <;> simp_all
  have hr : reset alpha (some (orDefault l 4).toNat) (some (orDefault b 1000).toNat) =
      ⟨(orDefault l 4).toNat, (orDefault b 1000).toNat, combinations alpha (orDefault l 4).toNat, []⟩ := by
    have h1 : 0 < (orDefault l 4).toNat := by omega
    have h2 : 0 < (orDefault b 1000).toNat := by omega
    unfold reset
    generalize (orDefault l 4).toNat = n1 at *
    generalize (orDefault b 1000).toNat = n2 at *
    cases n1 with
    | zero => omega
    | succ n1 => cases n2 with
      | zero => omega
      | succ n2 => rfl
  have hi := reset_inv alpha (some (orDefault l 4).toNat) (some (orDefault b 1000).toNat)
  rw [hr] at hi
  refine ⟨_, ?_, hi.1, hi.2⟩
  have hc : combinationsZ alpha (orDefault l 4) = .ok (combinations alpha (orDefault l 4).toNat) := by
    unfold combinationsZ
    rw [if_neg (by omega)]
  simp only [resetZ, hc, toZ]
  rw [Int.toNat_of_nonneg (by omega), Int.toNat_of_nonneg (by omega)]

end DG.IdCounter
