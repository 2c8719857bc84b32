import Verif.Proofs.IdCounter
import Verif.Model.Primitives
import Mathlib.Tactic.NormNum

/-!
# Properties of identifiers, primitives: C13–C17
-/

namespace DG.Props
open IdCounter

/-- The alphabet of the code has 36 distinct characters. -/
theorem alphanum_nodup : alphanum.Nodup ∧ alphanum.length = 36 := by decide +kernel

/-- **C13.** However many ids are drawn after a reset (or from class creation), with whatever batch size, starting
length, and choices made by `set.pop`, no id is drawn twice: the draws at two different positions differ. -/
theorem C13_ids_never_reused (length batch : Option Nat) (picks : List Nat) (i j : Nat) (x y : List Char) :
    let out := (draws alphanum picks (reset alphanum length batch)).1
    out[i]? = some (.ok x) → out[j]? = some (.ok y) → i ≠ j → x ≠ y := by
  intro out hi hj hij
  obtain ⟨h1, h2⟩ := reset_inv alphanum length batch
  have hnd := (draws_inv alphanum_nodup.1 picks h1 h2).1.nodup alphanum_nodup.1
  rw [List.nil_append] at hnd
  have hok : (oks out).Nodup := by
    simp only [List.append_assoc] at hnd
    exact (List.nodup_append.1 hnd).1
  clear_value out
  clear hnd h1 h2
  induction out generalizing i j with
  | nil => simp at hi
  | cons a l ih =>
    have memoks : ∀ (k : Nat) (z : List Char), l[k]? = some (Except.ok z) → z ∈ oks l := by
      clear ih hi hj hok
      induction l with
      | nil => intro k z h; simp at h
      | cons b l ih2 =>
        intro k z h
        cases k with
        | zero => simp at h; subst h; simp [oks]
        | succ k =>
          have := ih2 k z (by simpa using h)
          cases b <;> simp [oks, this]
    cases i with
    | zero =>
      simp at hi; subst hi
      cases j with
      | zero => exact absurd rfl hij
      | succ j =>
        have := memoks j y (by simpa using hj)
        simp only [oks, List.nodup_cons] at hok
        rintro rfl; exact hok.1 this
    | succ i =>
      cases j with
      | zero =>
        simp at hj; subst hj
        have := memoks i x (by simpa using hi)
        simp only [oks, List.nodup_cons] at hok
        rintro rfl; exact hok.1 this
      | succ j =>
        refine ih i j (by simpa using hi) (by simpa using hj) (by omega) ?_
        cases a with
        | ok a => simp only [oks, List.nodup_cons] at hok; exact hok.2
        | error a => simpa only [oks] using hok

/-- Non-vacuity: with batch size 2 starting at length 35 (36 ids of length 35 and one of length 36), draws number 0 and
36 both succeed, the latter after the length has grown. -/
example :
    let out := (draws alphanum (List.replicate 37 1) (reset alphanum (some 35) (some 2))).1
    (out[0]?.bind Except.toOption).map List.length = some 35 ∧
    (out[36]?.bind Except.toOption).map List.length = some 36 := by decide +kernel

/-- **C14.** Let `N` be the number of strings of characters of the alphabet, in alphabet order, of length at least `L`
(`L` being the starting length). The first `N` calls of `next` succeed, every later call raises `ValueError`; and if at
least `N` calls are made every such string has been handed out. -/
theorem C14_exhaustive_then_valueError (length batch : Option Nat) (picks : List Nat) :
    let L := (reset alphanum length batch).length
    let N := ((List.range' L (37 - L)).map fun k => Nat.choose 36 k).sum
    let out := (draws alphanum picks (reset alphanum length batch)).1
    out.length = picks.length ∧
    (∀ i r, out[i]? = some r → (i < N → ∃ x, r = .ok x) ∧ (N ≤ i → r = .error .valueError)) ∧
    (N ≤ picks.length → ∀ x : List Char, x.Sublist alphanum → L ≤ x.length → Except.ok x ∈ out) := by
  intro L N out
  obtain ⟨h1, h2⟩ := reset_inv alphanum length batch
  obtain ⟨i1, _, i3⟩ := draws_inv alphanum_nodup.1 picks h1 h2
  have hN : (allIds alphanum L).length = N := by rw [length_allIds, alphanum_nodup.2]
  rw [List.nil_append] at i1
  have hlen : out.length = picks.length := by
    have : ∀ (ps : List Nat) (s : IdCounter), (draws alphanum ps s).1.length = ps.length := by
      intro ps
      induction ps with
      | nil => intro s; simp [draws]
      | cons p ps ih => intro s; simp [draws, ih]
    exact this picks _
  refine ⟨hlen, ?_, ?_⟩
  · intro i r hr
    have := i3 i r hr
    change _ ∧ _ < (allIds alphanum L).length ∨ _ ∧ (allIds alphanum L).length ≤ _ at this
    rw [hN] at this
    simp only [List.length_nil, Nat.zero_add] at this
    rcases this with ⟨a, b⟩ | ⟨a, b⟩
    · exact ⟨fun _ => a, fun h => by omega⟩
    · exact ⟨fun h => by omega, fun _ => a⟩
  · intro hle x hx hxl
    have hmem : ∀ (l : List (Except Err (List Char))) (z : List Char), z ∈ oks l ↔ Except.ok z ∈ l := by
      intro l z
      induction l with
      | nil => simp [oks]
      | cons a l ih => cases a <;> simp [oks, ih]
    have hcount : ∀ (l : List (Except Err (List Char))) (n : Nat), n ≤ l.length →
        (∀ i r, l[i]? = some r → i < n → ∃ x, r = .ok x) → n ≤ (oks l).length := by
      intro l
      induction l with
      | nil => intro n hn _; simpa [oks] using hn
      | cons a l ih =>
        intro n hn h
        cases n with
        | zero => omega
        | succ n =>
          obtain ⟨x, rfl⟩ := h 0 a (by simp) (by omega)
          have := ih n (by simpa using hn) (fun i r hr hi => h (i + 1) r (by simpa using hr) (by omega))
          simp [oks]; omega
    have hge : N ≤ (oks out).length := by
      refine hcount out N (by omega) ?_
      intro i r hr hi
      have := i3 i r hr
      change _ ∧ _ < (allIds alphanum L).length ∨ _ ∧ (allIds alphanum L).length ≤ _ at this
      rw [hN] at this
      simp only [List.length_nil, Nat.zero_add] at this
      rcases this with ⟨a, b⟩ | ⟨a, b⟩
      · exact a
      · omega
    have hperm := i1.perm
    have hl := hperm.length_eq
    change _ = (allIds alphanum L).length at hl
    rw [hN] at hl
    simp only [List.length_append] at hl
    change (oks out).length + _ + _ + _ = N at hl
    have hx' : x ∈ allIds alphanum L := mem_allIds.2 ⟨hx, hxl⟩
    have hx2 := hperm.symm.subset hx'
    have e1 := List.length_eq_zero_iff.1 (show (draws alphanum picks (reset alphanum length batch)).2.idSet.length = 0 by omega)
    have e2 := List.length_eq_zero_iff.1 (show (draws alphanum picks (reset alphanum length batch)).2.gen.length = 0 by omega)
    have e3 := List.length_eq_zero_iff.1 (show (allIds alphanum ((draws alphanum picks (reset alphanum length batch)).2.length + 1)).length = 0 by omega)
    rw [e1, e2, e3] at hx2
    simp only [List.append_nil] at hx2
    exact (hmem _ _).1 hx2

/-- With the defaults `N = 68 719 468 929`. -/
theorem C14_default_count :
    (reset alphanum none none).length = 4 ∧
    ((List.range' 4 (37 - 4)).map fun k => Nat.choose 36 k).sum = 68719468929 := by
  refine ⟨rfl, ?_⟩
  have aux : ∀ (f : Nat → Nat) (n : Nat), ((List.range n).map f).sum = ∑ k ∈ Finset.range n, f k := by
    intro f n
    induction n with
    | zero => simp
    | succ n ih => rw [List.range_succ, Finset.sum_range_succ, List.map_append, List.sum_append, ih]; simp
  have h := (aux (Nat.choose 36) 37).trans (Nat.sum_range_choose 36)
  have h2 : List.range 37 = List.range 4 ++ List.range' 4 (37 - 4) := by decide
  have h3 : ((List.range 4).map (Nat.choose 36)).sum = 7807 := by decide +kernel
  rw [h2, List.map_append, List.sum_append, h3] at h
  exact Nat.add_left_cancel (h.trans (by norm_num : 2 ^ 36 = 7807 + 68719468929))

/-- Non-vacuity of the exhausted case: 37 ids of length at least 35; the 38th and 39th calls fail. -/
example :
    let out := (draws alphanum (List.replicate 39 5) (reset alphanum (some 35) (some 10))).1
    (out[36]?.map fun r => r.toOption.isSome) = some true ∧
    out[37]? = some (.error .valueError) ∧ out[38]? = some (.error .valueError) := by decide +kernel

/-- **C15.** Every id is a subsequence of the alphabet (distinct characters in alphabet order) and at least as long as
the configured length; and once the set of prepared ids is empty (so that the next call refills it), no later id is
shorter than an id handed out before. -/
theorem C15_id_shape_and_monotone (length batch : Option Nat) (picks₁ picks₂ : List Nat) :
    let s₀ := reset alphanum length batch
    let r₁ := draws alphanum picks₁ s₀
    let r₂ := draws alphanum picks₂ r₁.2
    (∀ x, Except.ok x ∈ r₁.1 → x.Sublist alphanum ∧ s₀.length ≤ x.length) ∧
    (r₁.2.idSet = [] → ∀ x y, Except.ok x ∈ r₁.1 → Except.ok y ∈ r₂.1 → x.length ≤ y.length) := by
  intro s₀ r₁ r₂
  obtain ⟨h1, h2⟩ := reset_inv alphanum length batch
  obtain ⟨i1, i2, _⟩ := draws_inv alphanum_nodup.1 picks₁ h1 h2
  rw [List.nil_append] at i1
  have hmem : ∀ (l : List (Except Err (List Char))) (z : List Char), z ∈ oks l ↔ Except.ok z ∈ l := by
    intro l z
    induction l with
    | nil => simp [oks]
    | cons a l ih => cases a <;> simp [oks, ih]
  refine ⟨?_, ?_⟩
  · intro x hx
    have hx' := (hmem _ _).2 hx
    exact mem_allIds.1 (i1.perm.subset (by simp only [List.append_assoc, List.mem_append]; exact Or.inl hx'))
  · intro he x y hx hy
    have hx' := (hmem _ _).2 hx
    have hy' := (hmem _ _).2 hy
    have hshort : x.length ≤ r₁.2.length := i1.short x (by simp only [List.mem_append]; exact Or.inl hx')
    obtain ⟨j1, _, _⟩ := draws_inv alphanum_nodup.1 picks₂ i1 (by omega)
    have hp := j1.perm.trans i1.perm.symm
    have hnd := j1.nodup alphanum_nodup.1
    have hymem : y ∈ oks r₁.1 ++ r₁.2.idSet ++ r₁.2.gen ++ allIds alphanum (r₁.2.length + 1) := by
      refine hp.subset ?_
      simp only [List.append_assoc, List.mem_append]
      exact Or.inr (Or.inl hy')
    rw [he] at hymem
    simp only [List.append_nil, List.mem_append] at hymem
    rcases hymem with (hm | hm) | hm
    · exfalso
      simp only [List.append_assoc, List.nodup_append] at hnd
      exact hnd.2.2 y hm y (by simp only [List.mem_append]; exact Or.inl hy') rfl
    · rw [i1.genLen y hm]; exact hshort
    · have := (mem_allIds.1 hm).2; omega

/-- Non-vacuity: with batch size 12, after 36 draws the set is empty and the 37th id is longer. -/
example :
    let r₁ := draws alphanum (List.replicate 36 0) (reset alphanum (some 35) (some 12))
    r₁.2.idSet = [] ∧ (((draws alphanum [0] r₁.2).1[0]?).bind Except.toOption).map List.length = some 36 := by
  decide +kernel

/-! ## C16 -/

section C16
variable {K : Type} [DecidableEq K] [Zero K]

/-- **C16 (proved part).** `==` is reflexive and symmetric on all objects. -/
theorem C16_eq_refl_symm_partial (a b : PyVal K) : PyVal.eq a a = true ∧ PyVal.eq a b = PyVal.eq b a := by
  refine ⟨by cases a <;> simp [PyVal.eq], ?_⟩
  rcases a with i | ⟨i, _ | v⟩ | ⟨n, _ | v⟩ | x <;> rcases b with j | ⟨j, _ | w⟩ | ⟨m, _ | w⟩ | y <;>
    simp [PyVal.eq, PyVal.varEqNum, PyVal.bitEqNum, eq_comm] <;> grind

/-- A variable without a value, a qubit, or a bit: the objects for which `==` behaves. -/
def IsUnvaluedPrimitive : PyVal K → Prop
  | .qubit _ => True
  | .bit _ _ => True
  | .variable _ v => v = none
  | .num _ => False

/-- **C16 (proved part).** On qubits, bits (with or without value) and variables without value, `==` is transitive and
equal objects have equal hashes, whatever the string hash function. Missing: comparisons involving numbers and variables
that have been given a value, for which the claim is false. -/
theorem C16_eq_trans_hash_partial (hs : String → Int) (hn : K → Int) (a b c : PyVal K)
    (ha : IsUnvaluedPrimitive a) (hb : IsUnvaluedPrimitive b) (hc : IsUnvaluedPrimitive c) :
    (PyVal.eq a b = true → PyVal.eq b c = true → PyVal.eq a c = true) ∧
    (PyVal.eq a b = true → PyVal.hash hs hn a = PyVal.hash hs hn b) := by
  rcases a with i | ⟨i, _ | v⟩ | ⟨n, _ | v⟩ | x <;> rcases b with j | ⟨j, _ | w⟩ | ⟨m, _ | w⟩ | y <;>
    rcases c with k | ⟨k, _ | u⟩ | ⟨l, _ | u⟩ | z <;>
    simp_all [PyVal.eq, IsUnvaluedPrimitive, PyVal.hash, PyVal.varEqNum]

example : IsUnvaluedPrimitive (.bit "a" (some (1 : Int)) : PyVal Int) ∧
    IsUnvaluedPrimitive (.variable "x" none : PyVal Int) := ⟨trivial, rfl⟩

/-- The full C16 fails for every two distinct bits holding the same value: each equals the number, but not the other. -/
theorem C16_transitivity_violated (i j : String) (v : K) (hij : i ≠ j) :
    PyVal.eq (.bit i (some v)) (.num v) = true ∧ PyVal.eq (.num v) (.bit j (some v)) = true ∧
    PyVal.eq (.bit i (some v)) (.bit j (some v)) = false := by
  simp [PyVal.eq, PyVal.bitEqNum, hij]

/-- And a bit equals its value although their hashes differ, unless the string hash happens to collide with it. -/
theorem C16_hash_violated (hs : String → Int) (hn : K → Int) (i : String) (v : K) (hne : hs ("Bit" ++ i) ≠ hn v) :
    PyVal.eq (.bit i (some v)) (.num v) = true ∧
    PyVal.hash hs hn (.bit i (some v)) ≠ PyVal.hash hs hn (.num v) := by
  simp [PyVal.eq, PyVal.bitEqNum, PyVal.hash, hne]

end C16

/-! ## C17 -/

/-- A call on a bit: `set(value, force)` with the outcome of `bool(value)`, or `reset()`. -/
inductive BitOp
  | set (value : Except Err Bool) (force : Bool)
  | reset

/-- A history of calls; errors are caught by the caller. -/
def bitRun : List BitOp → BitState → BitState
  | [], b => b
  | .set v f :: ops, b => bitRun ops (b.set v f).2
  | .reset :: ops, b => bitRun ops b.reset

/-- **C17.** After any history the value is `None`, 0 or 1; `set` without force on a valued bit raises `ValueError` and
keeps the value; otherwise `set` stores the truth value of its argument; the bit is falsy iff its value is 0. -/
theorem C17_bit_values (ops : List BitOp) :
    let b := bitRun ops { value := none }
    (b.value = none ∨ b.value = some 0 ∨ b.value = some 1) ∧
    (∀ x, b.value ≠ none → b.set (.ok x) false = (.error .valueError, b)) ∧
    (∀ x f, (b.value = none ∨ f = true) → b.set (.ok x) f = (.ok (), { value := some (if x then 1 else 0) })) ∧
    (∀ e f, b.set (.error e) f = (.error e, b)) ∧
    (b.bool = false ↔ b.value = some 0) ∧
    b.reset.value = none := by
  intro b
  have hval : ∀ (b₀ : BitState), (b₀.value = none ∨ b₀.value = some 0 ∨ b₀.value = some 1) →
      ((bitRun ops b₀).value = none ∨ (bitRun ops b₀).value = some 0 ∨ (bitRun ops b₀).value = some 1) := by
    clear b
    induction ops with
    | nil => intro b₀ h; exact h
    | cons op ops ih =>
      intro b₀ h
      cases op with
      | reset => exact ih _ (Or.inl rfl)
      | set v f =>
        apply ih
        cases v with
        | error e => exact h
        | ok v =>
          simp only [BitState.set]
          split
          · exact h
          · cases v <;> simp
  have hb := hval { value := none } (Or.inl rfl)
  change (b.value = none ∨ b.value = some 0 ∨ b.value = some 1) at hb
  clear_value b
  refine ⟨hb, ?_, ?_, ?_, ?_, rfl⟩
  · intro x hx
    have : b.value.isSome = true := by rwa [Option.isSome_iff_ne_none]
    simp [BitState.set, this]
  · intro x f h
    rcases h with h | h
    · simp [BitState.set, h]
    · simp [BitState.set, h]
  · intro e f; rfl
  · rcases hb with h | h | h <;> simp [BitState.bool, h]

/-- Non-vacuity: a history after which the bit is valued and a further `set` is rejected. -/
example : (bitRun [.set (.ok true) false, .set (.ok false) false] { value := none }).value = some 1 ∧
    (bitRun [.set (.ok true) false, .set (.ok false) true] { value := none }).bool = false := ⟨rfl, rfl⟩

end DG.Props
