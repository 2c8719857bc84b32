import Verif.Proofs.RegisterExtra
import Verif.Proofs.Slices

/-!
# Properties C01 - C12: registers

`Inert ev` says that no item currently compares equal to an integer (true for qubits, strings, bits and variables
without a value); C12 treats the other case.  `CyReg.Reachable ev r` says that `r` results from some history of
operations on a newly constructed register; `r.iter = .ok L` says that `list(r) == L`.
-/

namespace DG.Props
open CyReg

/-- The environment in which no object equals an integer. -/
def ev0 : EqEnv := fun _ => none

theorem inert_ev0 : Inert ev0 := fun _ => rfl

/-- A concrete register used in the examples: `["a", 2, "b", 0]` built by a history. -/
def exReg : CyReg := (run ev0 [.append (some (.obj 1)) false, .append (some (.int 0)) false]
  (init ev0 (.iter [.obj 0, .int 2, .obj 0]))).2

theorem exReg_reachable : Reachable ev0 exReg :=
  ⟨[.obj 0, .int 2, .obj 0], [.append (some (.obj 1)) false, .append (some (.int 0)) false],
    ⟨trivial, trivial, trivial⟩, rfl⟩

theorem exReg_iter : exReg.iter = .ok [.obj 0, .int 2, .obj 1, .int 0] := by rfl

/-! ## C01 -/

/-- **C01.** After any history of operations on `Register(data)`, every result and every observation is the one
of a duplicate-free list that went through the same history. -/
theorem C01_register_is_ordered_set (ev : EqEnv) (hev : Inert ev) (data : List Lbl) (ops : List Spec.RegOp)
    (hpre : Spec.PreAll ops (Spec.extend [] data true).2) :
    let impl := run ev ops (init ev (.iter data))
    let spec := Spec.run ops (Spec.extend [] data true).2
    impl.1 = spec.1 ∧
    spec.2.Nodup ∧
    impl.2.stop = spec.2.length ∧
    impl.2.iter = .ok spec.2 ∧
    (∀ i, impl.2.at i = Spec.getItem spec.2 i) ∧
    (∀ v, impl.2.index v = if v ∈ spec.2 then .ok (spec.2.idxOf v : Int) else .error .valueError) ∧
    (∀ v, impl.2.count v = decide (v ∈ spec.2)) := by
  obtain ⟨h1, h2⟩ := run_eq hev ops (rep_init hev data) hpre
  exact ⟨h1, h2.nodup, h2.stop, h2.iter_eq, h2.at_eq, h2.index_eq, h2.count_eq⟩

/-- Non-vacuity of C01: a history mixing integers and objects, with a relabelling cycle through integers. -/
example : Spec.PreAll
    [.append none false, .relabel [(.int 0, .int 2), (.int 2, .int 0)], .remove (.int 1), .pop]
    (Spec.extend [] [.obj 7, .int 0, .obj 7] true).2 := by
  have h1 : (Spec.extend [] [Lbl.obj 7, .int 0, .obj 7] true).2 = [Lbl.obj 7, .int 0] := by
    simp [Spec.extend]
  rw [h1]
  have a : Spec.autoLabel [Lbl.obj 7, .int 0] = .int 2 := by simp [Spec.autoLabel]
  refine ⟨trivial, ?_, trivial, trivial, trivial⟩
  simp only [Spec.step, Spec.append, a, Spec.Pre]
  constructor
  · decide
  · simp

/-- The precondition of `_relabel` matters: relabelling an absent item corrupts the register
(`Register(["a"])._relabel({"b": "c"})` leaves a register of length 1 whose item `"c"` has no position). -/
theorem C01_relabel_absent_key_corrupts :
    let r := (relabel ev0 (init ev0 (.iter [.obj 0])) [(.obj 1, .obj 2)]).2
    r.stop = 1 ∧ r.count (.obj 2) = true ∧ r.index (.obj 2) = .error .typeError := by
  decide

/-! ## C02 -/

/-- **C02.** `reg[reg.index(x)] == x`, `reg.index(reg[i])` is position `i` (from the end if negative), positions out of
range raise `IndexError` and absent items raise `ValueError`. -/
theorem C02_index_getitem_inverse (ev : EqEnv) (hev : Inert ev) (r : CyReg) (hr : Reachable ev r) :
    (∀ x, r.count x = true → ∃ i : Nat, i < r.stop ∧ r.index x = .ok i ∧ r.at i = .ok x) ∧
    (∀ x, r.count x = false → r.index x = .error .valueError) ∧
    (∀ i : Nat, i < r.stop → ∃ x, r.at i = .ok x ∧ r.count x = true ∧ r.index x = .ok (i : Int)) ∧
    (∀ i : Nat, 0 < i → i ≤ r.stop → r.at (-(i : Int)) = r.at ((r.stop - i : Nat) : Int)) ∧
    (∀ i : Int, (i < -(r.stop : Int) ∨ (r.stop : Int) ≤ i) → r.at i = .error .indexError) := by
  obtain ⟨L, h⟩ := hr.rep hev
  refine ⟨?_, ?_, ?_, ?_, ?_⟩
  · intro x hx
    have hx := (h.count_iff x).1 hx
    have hlt := List.idxOf_lt_length_of_mem hx
    refine ⟨L.idxOf x, by rw [h.stop]; exact hlt, ?_, ?_⟩
    · rw [h.index_eq, if_pos hx]
    · rw [h.at_nat _ hlt]; simp
  · intro x hx
    have : x ∉ L := by rw [← h.count_iff]; simp [hx]
    rw [h.index_eq, if_neg this]
  · intro i hi
    rw [h.stop] at hi
    refine ⟨L[i], h.at_nat i hi, (h.count_iff _).2 (List.getElem_mem _), ?_⟩
    rw [h.index_eq, if_pos (List.getElem_mem _), h.nodup.idxOf_getElem i hi]
  · intro i h0 hi
    rw [h.stop] at hi ⊢
    rw [h.at_eq, h.at_eq]
    unfold Spec.getItem
    rw [if_neg (by omega), if_pos (by omega), if_pos (by omega)]
    congr 2
    omega
  · intro i hi
    rw [h.stop] at hi
    rw [h.at_eq]
    unfold Spec.getItem
    by_cases h0 : 0 ≤ i
    · rw [if_pos h0, List.getElem?_eq_none (by omega)]
    · rw [if_neg h0, if_neg (by omega)]

example : Reachable ev0 exReg ∧ exReg.count (.int 2) = true ∧ exReg.index (.int 2) = .ok 1 :=
  ⟨exReg_reachable, by decide, by decide⟩

/-! ## C03 -/

/-- **C03.** `add` on an unfrozen register either appends all items in order, or - at the first item `x` that is
already present or repeated - raises `ValueError` having appended exactly the items `P` before it. -/
theorem C03_add (ev : EqEnv) (hev : Inert ev) (r : Reg) (hr : Reachable ev r.cy) (hf : r.frozen = some false)
    (L : List Lbl) (hL : r.cy.iter = .ok L) :
    (∀ data, (L ++ data).Nodup →
      (r.add ev data).1 = .ok () ∧ (r.add ev data).2.cy.iter = .ok (L ++ data)) ∧
    (∀ P x S, (L ++ P).Nodup → x ∈ L ++ P →
      (r.add ev (P ++ x :: S)).1 = .error .valueError ∧ (r.add ev (P ++ x :: S)).2.cy.iter = .ok (L ++ P)) := by
  have h := hr.rep_iter hev hL
  constructor
  · intro data hnd
    obtain ⟨h1, h2⟩ := extend_eq hev false data h
    rw [spec_extend_ok L data hnd] at h1 h2
    simp only [Reg.add, Reg.getFrozen, hf]
    exact ⟨h1, h2.iter_eq⟩
  · intro P x S hnd hx
    obtain ⟨h1, h2⟩ := extend_eq hev false (P ++ x :: S) h
    rw [spec_extend_dup L P S x hnd hx] at h1 h2
    simp only [Reg.add, Reg.getFrozen, hf]
    exact ⟨h1, h2.iter_eq⟩

/-- The two cases of C03 are exhaustive: every `data` is either duplicate-free together with `L` or splits at
a first bad item. -/
theorem C03_cases_exhaustive (L data : List Lbl) (hL : L.Nodup) :
    (L ++ data).Nodup ∨ ∃ P x S, data = P ++ x :: S ∧ (L ++ P).Nodup ∧ x ∈ L ++ P := by
  induction data generalizing L with
  | nil => left; simpa using hL
  | cons v vs ih =>
    by_cases hv : v ∈ L
    · right; exact ⟨[], v, vs, rfl, by simpa using hL, by simpa using hv⟩
    · have hL' : (L ++ [v]).Nodup := by
        rw [List.nodup_append]
        exact ⟨hL, by simp, fun a ha b hb => by simp at hb; subst hb; rintro rfl; exact hv ha⟩
      rcases ih (L ++ [v]) hL' with h | ⟨P, x, S, rfl, h1, h2⟩
      · left; simpa using h
      · right; exact ⟨v :: P, x, S, rfl, by simpa using h1, by simpa using h2⟩

example : ((Reg.mk exReg (some false)).add ev0 [.obj 5, .int 2, .obj 6]).1 = .error .valueError ∧
    ((Reg.mk exReg (some false)).add ev0 [.obj 5, .int 2, .obj 6]).2.cy.iter =
      .ok [.obj 0, .int 2, .obj 1, .int 0, .obj 5] := by
  constructor <;> rfl

/-! ## C04 -/

/-- **C04.** Relabelling with a mapping whose keys are present substitutes simultaneously if the new labels are distinct
and not otherwise in use, and otherwise raises `ValueError` and changes nothing. -/
theorem C04_relabel (ev : EqEnv) (hev : Inert ev) (r : CyReg) (hr : Reachable ev r) (L : List Lbl)
    (hL : r.iter = .ok L) (m : List (Lbl × Lbl)) (hk : (m.map Prod.fst).Nodup)
    (hkL : ∀ k ∈ m.map Prod.fst, k ∈ L) :
    (((m.map Prod.snd).Nodup ∧ ∀ new ∈ m.map Prod.snd, new ∈ L → new ∈ m.map Prod.fst) →
      (r.relabel ev m).1 = .ok () ∧
      ∃ L', (r.relabel ev m).2.iter = .ok L' ∧ L'.length = L.length ∧
        ∀ (i : Nat) (x : Lbl), L[i]? = some x →
          ((∀ new, (x, new) ∈ m → L'[i]? = some new) ∧ (x ∉ m.map Prod.fst → L'[i]? = some x))) ∧
    (¬ ((m.map Prod.snd).Nodup ∧ ∀ new ∈ m.map Prod.snd, new ∈ L → new ∈ m.map Prod.fst) →
      (r.relabel ev m).1 = .error .valueError ∧ (r.relabel ev m).2 = r) := by
  have h := hr.rep_iter hev hL
  obtain ⟨h1, h2⟩ := relabel_eq hev h (m := m) hk hkL
  refine ⟨fun hok => ?_, h2⟩
  obtain ⟨h3, h4⟩ := h1 hok
  refine ⟨h3, _, h4.iter_eq, by simp [Spec.substAll], ?_⟩
  intro i x hi
  rw [substAll_eq]
  simp only [substD, List.getElem?_map, hi, Option.map_some]
  constructor
  · intro new hm
    rw [PyDict.get?_of_mem hk hm]; rfl
  · intro hx
    rw [(PyDict.get?_eq_none_iff _ _).2 hx]; rfl

/-- Non-vacuity: a 3-cycle through integers at foreign positions. -/
example : (exReg.relabel ev0 [(.int 0, .int 2), (.int 2, .obj 0), (.obj 0, .int 0)]).2.iter =
    .ok [.int 0, .obj 0, .obj 1, .int 2] := by rfl

/-! ## C05 -/

/-- **C05.** `_relabel_as_integers` makes the items `0..n-1`, and relabelling with the returned mapping restores the
original items at their positions. -/
theorem C05_relabel_as_integers_roundtrip (ev : EqEnv) (hev : Inert ev) (r : CyReg) (hr : Reachable ev r)
    (L : List Lbl) (hL : r.iter = .ok L) :
    let (mapping, r') := r.relabelAsIntegers
    r'.iter = .ok ((List.range L.length).map fun (i : Nat) => Lbl.int i) ∧
    (r'.relabel ev mapping).1 = .ok () ∧ (r'.relabel ev mapping).2.iter = .ok L := by
  have h := hr.rep_iter hev hL
  exact ⟨(relabelAsIntegers_rep h).iter_eq, (restore hev h).1, (restore hev h).2.iter_eq⟩

example : exReg.relabelAsIntegers.1 ≠ [] ∧ exReg.relabelAsIntegers.2.iter = .ok [.int 0, .int 1, .int 2, .int 3] := by
  constructor
  · decide
  · rfl

/-! ## C06 -/

/-- **C06.** Removing a present item deletes exactly it; an absent one raises `ValueError` without change. -/
theorem C06_remove (ev : EqEnv) (hev : Inert ev) (r : CyReg) (hr : Reachable ev r) :
    (∀ P x S, r.iter = .ok (P ++ x :: S) →
      (r.remove ev x).1 = .ok () ∧ (r.remove ev x).2.iter = .ok (P ++ S)) ∧
    (∀ x, r.count x = false → (r.remove ev x).1 = .error .valueError ∧ (r.remove ev x).2 = r) := by
  constructor
  · intro P x S hL
    have h := hr.rep_iter hev hL
    obtain ⟨h1, h2⟩ := (remove_eq hev h x).1 (by simp)
    refine ⟨h1, ?_⟩
    have hx : x ∉ P := by
      have := h.nodup; rw [List.nodup_append] at this
      intro hc; exact this.2.2 x hc x (by simp) rfl
    rw [h2.iter_eq, List.erase_append_right _ hx, List.erase_cons_head]
  · intro x hx
    obtain ⟨L, h⟩ := hr.rep hev
    exact (remove_eq hev h x).2 (by rw [← h.count_iff]; simp [hx])

example : (exReg.remove ev0 (.int 2)).2.iter = .ok [.obj 0, .obj 1, .int 0] := by rfl

/-! ## C07 -/

/-- **C07.** Appending without a label terminates and adds exactly one new item: the position number if unused,
otherwise the least unused non-negative integer. -/
theorem C07_auto_label (ev : EqEnv) (hev : Inert ev) (r : CyReg) (hr : Reachable ev r) (L : List Lbl)
    (hL : r.iter = .ok L) (p : Bool) :
    ∃ n : Nat, (r.append ev none p).1 = .ok (.int n) ∧ (r.append ev none p).2.iter = .ok (L ++ [.int n]) ∧
      Lbl.int n ∉ L ∧
      (Lbl.int L.length ∉ L → n = L.length) ∧
      (Lbl.int L.length ∈ L → ∀ k : Nat, k < n → Lbl.int k ∈ L) := by
  have h := hr.rep_iter hev hL
  obtain ⟨h1, h2⟩ := append_eq (ev := ev) h none p (by intro w hw; cases hw)
  by_cases hc : Lbl.int L.length ∈ L
  · have ex : ∃ n : Nat, Lbl.int n ∉ L := by
      by_contra hno
      push Not at hno
      have := search_ok (bad := fun l => decide (l ∈ L)) (S := L) (by simp) (L.length + 1) 0 (by
        intro i _; simpa using hno (0 + i))
      omega
    have e : Spec.autoLabel L = .int (sInf {n : Nat | Lbl.int n ∉ L} : Nat) := by
      unfold Spec.autoLabel; rw [if_pos hc]
    simp only [Spec.append, e] at h1 h2
    refine ⟨_, h1, h2.iter_eq, Nat.sInf_mem ex, fun hn => absurd hc hn, fun _ k hk => ?_⟩
    by_contra hno
    exact absurd (Nat.sInf_le (s := {n : Nat | Lbl.int n ∉ L}) hno) (by omega)
  · have e : Spec.autoLabel L = .int L.length := by unfold Spec.autoLabel; rw [if_neg hc]
    simp only [Spec.append, e] at h1 h2
    exact ⟨_, h1, h2.iter_eq, hc, fun _ => rfl, fun hn => absurd hn hc⟩

/-- Non-vacuity: `["a", 2, "b", 0]` has length 4, unused, so 4; and a register holding its own length. -/
example : (exReg.append ev0 none false).1 = .ok (.int 4) ∧
    ((init ev0 (.iter [.int 0, .int 2])).append ev0 none false).1 = .ok (.int 1) := by decide

/-! ## C08 -/

/-- **C08** (partial). `a + b` is a new register holding the items of `a` then those of `b`; all existing registers,
in particular `a` and `b`, are unchanged; a shared item raises `ValueError`.
Missing from the full property: the result is *not* fully usable, see `C08_sum_unusable_violated`. -/
theorem C08_plus_partial (ev : EqEnv) (hev : Inert ev) (h : RegHeap) (a b : Nat) (ra rb : Reg)
    (ha : h[a]? = some ra) (hb : h[b]? = some rb) (hra : Reachable ev ra.cy) (hrb : Reachable ev rb.cy)
    (La Lb : List Lbl) (hLa : ra.cy.iter = .ok La) (hLb : rb.cy.iter = .ok Lb) :
    (∀ i, i < h.length → (h.plus ev a b).2[i]? = h[i]?) ∧
    ((∀ x ∈ La, x ∉ Lb) → ∃ ref s, (h.plus ev a b).1 = .ok ref ∧ h.length ≤ ref ∧
        (h.plus ev a b).2[ref]? = some s ∧ s.cy.iter = .ok (La ++ Lb)) ∧
    (∀ x, x ∈ La → x ∈ Lb → (h.plus ev a b).1 = .error .valueError) := by
  have h1 := hra.rep_iter hev hLa
  have h2 := hrb.rep_iter hev hLb
  have hext := extend_eq hev false Lb (r := ra.cy.copy) (L := La) h1
  unfold RegHeap.plus
  simp only [ha, hb, hLb]
  generalize hgen : ra.cy.copy.extend ev Lb false = res at hext ⊢
  obtain ⟨res, cy⟩ := res
  refine ⟨?_, ?_, ?_⟩
  · intro i hi
    cases res <;> exact List.getElem?_append_left hi
  · intro hdis
    have hnd : (La ++ Lb).Nodup := by
      rw [List.nodup_append]
      exact ⟨h1.nodup, h2.nodup, fun x hx y hy e => hdis x hx (e ▸ hy)⟩
    rw [spec_extend_ok La Lb hnd] at hext
    obtain ⟨e1, e2⟩ := hext
    simp only at e1
    subst e1
    exact ⟨h.length, { cy := cy, frozen := none }, rfl, le_rfl, List.getElem?_concat_length, e2.iter_eq⟩
  · intro x hx hx'
    have hnd : ¬ (La ++ Lb).Nodup := by
      rw [List.nodup_append]; rintro ⟨_, _, hc⟩; exact hc x hx x hx' rfl
    rcases C03_cases_exhaustive La Lb h1.nodup with hc | ⟨P, y, S, rfl, hp, hy⟩
    · exact absurd hc hnd
    · rw [spec_extend_dup La P S y hp hy] at hext
      obtain ⟨e1, _⟩ := hext
      simp only at e1
      subst e1; rfl

/-- The full C08 fails: the sum of *any* two registers lacks the attribute `_frozen`, so reading `frozen` and adding
items raise `AttributeError`. -/
theorem C08_sum_unusable_violated (ev : EqEnv) (h : RegHeap) (a b ref : Nat) (s : Reg)
    (hp : (h.plus ev a b).1 = .ok ref) (hs : (h.plus ev a b).2[ref]? = some s) :
    s.getFrozen = .error .attributeError ∧ ∀ data, (s.add ev data).1 = .error .attributeError := by
  have key : s.frozen = none := by
    unfold RegHeap.plus at hp hs
    cases ha : h[a]? with
    | none => simp [ha] at hp
    | some ra =>
      cases hb : h[b]? with
      | none => simp [ha, hb] at hp
      | some rb =>
        simp only [ha, hb] at hp hs
        cases hi : rb.cy.iter with
        | error e => simp [hi] at hp
        | ok items =>
          simp only [hi] at hp hs
          generalize ra.cy.copy.extend ev items false = res at hp hs
          obtain ⟨res, cy⟩ := res
          cases res with
          | error e => simp at hp
          | ok u =>
            simp only [Except.ok.injEq] at hp
            subst hp
            simp at hs
            rw [← hs]
  constructor
  · simp [Reg.getFrozen, key]
  · intro data; simp [Reg.add, Reg.getFrozen, key]

example : let h : RegHeap := [Reg.new ev0 [.obj 0], Reg.new ev0 [.obj 1, .int 0]]
    (h.plus ev0 0 1).1 = .ok 2 ∧ ((h.plus ev0 0 1).2[2]?.map fun s => s.cy.iter.toOption) =
      some (some [.obj 0, .obj 1, .int 0]) := by
  decide

/-! ## C09 -/

/-- Calls a user can make on a (parameter) register. -/
inductive RegCall
  | add (data : List Lbl)
  | getitem (i : Int)
  | freeze

/-- Effect of one call. -/
def callStep (ev : EqEnv) (r : Reg) : RegCall → Except Err (Option Lbl) × Reg
  | .add data => ((r.add ev data).1.map fun _ => none, (r.add ev data).2)
  | .getitem i => ((r.selfGetItem ev i).1.map some, (r.selfGetItem ev i).2)
  | .freeze => (.ok none, r.freeze)

/-- Results of a sequence of calls and the final register. -/
def callRun (ev : EqEnv) : List RegCall → Reg → List (Except Err (Option Lbl)) × Reg
  | [], r => ([], r)
  | c :: cs, r =>
    let rest := callRun ev cs (callStep ev r c).2
    ((callStep ev r c).1 :: rest.1, rest.2)

/-- **C09.** After `freeze()` no sequence of calls changes the register; every `add` raises `RegisterError` and every
access outside the range raises `IndexError`. (`ev` is arbitrary: bits may hold values.) -/
theorem C09_frozen_is_immutable (ev : EqEnv) (r : Reg) (cs : List RegCall) :
    (callRun ev cs r.freeze).2 = r.freeze ∧
    (∀ (i : Nat) (data : List Lbl), cs[i]? = some (.add data) →
      (callRun ev cs r.freeze).1[i]? = some (.error .registerError)) ∧
    (∀ (i : Nat) (j : Int), cs[i]? = some (.getitem j) → (r.cy.stop : Int) ≤ j → (∃ L, r.cy.iter = .ok L) →
      (callRun ev cs r.freeze).1[i]? = some (.error .indexError)) := by
  have hstep : ∀ c, (callStep ev r.freeze c).2 = r.freeze := by
    intro c
    cases c with
    | add data => simp [callStep, Reg.add_frozen (r := r.freeze) rfl]
    | getitem i => simp [callStep, Reg.selfGetItem_frozen (r := r.freeze) rfl]
    | freeze => rfl
  induction cs with
  | nil => simp [callRun]
  | cons c cs ih =>
    obtain ⟨h1, h2, h3⟩ := ih
    simp only [callRun, hstep]
    refine ⟨h1, ?_, ?_⟩
    · intro i data hi
      cases i with
      | zero =>
        simp at hi; subst hi
        simp [callStep, Reg.add_frozen (r := r.freeze) rfl, Except.map]
      | succ i => simpa using h2 i data (by simpa using hi)
    · intro i j hi hj hL
      cases i with
      | zero =>
        simp at hi; subst hi
        obtain ⟨L, hL⟩ := hL
        have hat : r.cy.at j = .error .indexError := by
          unfold CyReg.at
          simp only [show ¬ j < 0 by omega, if_false]
          rw [if_pos (by omega)]
        have : (r.freeze.selfGetItem ev j).1 = .error .indexError := by
          unfold Reg.selfGetItem
          simp only [Reg.freeze, hL, Reg.getFrozen, hat]
          split <;> rfl
        simp [callStep, this, Except.map]
      | succ i => simpa using h3 i j (by simpa using hi) hj hL

example : (callRun ev0 [.add [.obj 9], .getitem 7, .getitem 0] (Reg.mk exReg (some false)).freeze).1 =
    [.error .registerError, .error .indexError, .ok (some (.obj 0))] := by rfl

/-! ## C10 -/

/-- **C10, what slices do in all cases.** `reg[a:b:s]` visits the positions `a, a + s, a + 2 * s, ...` before `b` as they are written (a negative position
counts from the end, but is not converted first; omitted `a`, `b`, `s` mean `0`, `len(reg)`, `1`). If all items are there and no one comes twice, the slice
holds them in that order. Otherwise, at the first visited position without an item `IndexError` is raised, and at the first item that comes again
`ValueError`. With step 0 `ValueError` is raised. -/
theorem C10_slice_cases (ev : EqEnv) (hev : Inert ev) (r : CyReg) (hr : Reachable ev r) (L : List Lbl) (hL : r.iter = .ok L) (start stop step : Option Int) :
    let a := start.getD 0
    let b := stop.getD L.length
    let s := step.getD 1
    (s = 0 → r.getSlice ev start stop step = .error .valueError) ∧
    ((∀ k, Spec.Visited a b s k → Spec.FreshAt L a s k) → s ≠ 0 → ∃ new M, r.getSlice ev start stop step = .ok new ∧ new.iter = .ok M ∧
      ∀ k, M[k]? = if Spec.Visited a b s k then (Spec.getItem L (a + k * s)).toOption else none) ∧
    (∀ k, Spec.Visited a b s k → (∀ j < k, Spec.FreshAt L a s j) → Spec.getItem L (a + k * s) = .error .indexError →
      r.getSlice ev start stop step = .error .indexError) ∧
    (∀ k v, Spec.Visited a b s k → (∀ j < k, Spec.FreshAt L a s j) → Spec.getItem L (a + k * s) = .ok v → (∃ j < k, Spec.getItem L (a + j * s) = .ok v) →
      r.getSlice ev start stop step = .error .valueError) := by
  intro a b s
  have h := hr.rep_iter hev hL
  have hg : r.getSlice ev start stop step = if s = 0 then .error .valueError else r.sliceLoop ev (pyRange a b s) {} := by
    unfold getSlice
    have : stop.getD (r.stop : Int) = b := by rw [h.stop]
    simp only [this]
    rfl
  have hvis : ∀ k i, (pyRange a b s)[k]? = some i → Spec.Visited a b s k ∧ i = a + k * s := by
    intro k i hk
    rw [pyRange_getElem?] at hk
    split at hk
    · cases hk; exact ⟨by assumption, rfl⟩
    · cases hk
  have hs0 : ∀ k, Spec.Visited a b s k → s ≠ 0 := by rintro k (h | h) <;> omega
  have hdown : ∀ j k, j ≤ k → Spec.Visited a b s k → Spec.Visited a b s j := by
    intro j k hjk hk
    rcases hk with ⟨h1, h2⟩ | ⟨h1, h2⟩
    · refine .inl ⟨h1, lt_of_le_of_lt ?_ h2⟩
      have := Int.mul_le_mul_of_nonneg_right (show (j : Int) ≤ k by omega) (Int.le_of_lt h1)
      omega
    · refine .inr ⟨h1, lt_of_lt_of_le h2 ?_⟩
      have := Int.mul_le_mul_of_nonpos_right (show (j : Int) ≤ k by omega) (Int.le_of_lt h1)
      omega
  have hat : ∀ k, Spec.Visited a b s k → (pyRange a b s)[k]? = some (a + k * s) := by
    intro k hk; rw [pyRange_getElem?, if_pos hk]
  refine ⟨fun h0 => by rw [hg, if_pos h0], fun hf h0 => ?_, fun k hk hf hi => ?_, fun k v hk hf hv hj => ?_⟩
  · obtain ⟨N, e1, e2⟩ := sliceSpec_ok L (pyRange a b s) [] (by
      intro k i hk
      obtain ⟨h1, rfl⟩ := hvis k i hk
      obtain ⟨v, g1, g2⟩ := hf k h1
      refine ⟨v, g1, by simp, fun j i' hj hi' => ?_⟩
      obtain ⟨-, rfl⟩ := hvis j i' hi'
      exact g2 j hj)
    obtain ⟨new, e3, e4⟩ := (sliceLoop_spec hev h (pyRange a b s) rep_empty).1 _ e1
    refine ⟨new, N, ?_, by simpa using e4.iter_eq, fun k => ?_⟩
    · rw [hg, if_neg h0, e3]
    · rw [e2, pyRange_getElem?]
      split <;> rfl
  · rw [hg, if_neg (hs0 k hk)]
    refine (sliceLoop_spec hev h (pyRange a b s) rep_empty).2 _ (sliceSpec_error L _ k _ _ ?_ ⟨_, hat k hk, .inl hi⟩)
    intro j i hj hi'
    obtain ⟨-, rfl⟩ := hvis j i hi'
    obtain ⟨v, g1, g2⟩ := hf j hj
    refine ⟨v, g1, by simp, fun l i' hl hi'' => ?_⟩
    obtain ⟨-, rfl⟩ := hvis l i' hi''
    exact g2 l hl
  · rw [hg, if_neg (hs0 k hk)]
    obtain ⟨j, hj, hv'⟩ := hj
    refine (sliceLoop_spec hev h (pyRange a b s) rep_empty).2 _ (sliceSpec_error L _ k _ _ ?_
      ⟨_, hat k hk, .inr ⟨rfl, v, hv, .inr ⟨j, _, hj, hat j (hdown j k hj.le hk), hv'⟩⟩⟩)
    intro j i hj hi'
    obtain ⟨-, rfl⟩ := hvis j i hi'
    obtain ⟨v, g1, g2⟩ := hf j hj
    refine ⟨v, g1, by simp, fun l i' hl hi'' => ?_⟩
    obtain ⟨-, rfl⟩ := hvis l i' hi''
    exact g2 l hl

/-- The cases of `C10_slice_cases` are exhaustive. -/
theorem C10_cases_exhaustive (L : List Lbl) (a b s : Int) :
    s = 0 ∨ (∀ k, Spec.Visited a b s k → Spec.FreshAt L a s k) ∨ ∃ k, Spec.Visited a b s k ∧ (∀ j < k, Spec.FreshAt L a s j) ∧
      (Spec.getItem L (a + k * s) = .error .indexError ∨ ∃ v, Spec.getItem L (a + k * s) = .ok v ∧ ∃ j < k, Spec.getItem L (a + j * s) = .ok v) := by
  classical
  by_cases h : ∀ k, Spec.Visited a b s k → Spec.FreshAt L a s k
  · exact .inr (.inl h)
  · right; right
    push Not at h
    have hmin := Nat.find_spec h
    set k := Nat.find h with hk
    have hdown : ∀ j ≤ k, Spec.Visited a b s j := by
      intro j hjk
      rcases hmin.1 with ⟨h1, h2⟩ | ⟨h1, h2⟩
      · refine .inl ⟨h1, lt_of_le_of_lt ?_ h2⟩
        have := Int.mul_le_mul_of_nonneg_right (show (j : Int) ≤ k by omega) (Int.le_of_lt h1)
        omega
      · refine .inr ⟨h1, lt_of_lt_of_le h2 ?_⟩
        have := Int.mul_le_mul_of_nonpos_right (show (j : Int) ≤ k by omega) (Int.le_of_lt h1)
        omega
    refine ⟨k, hmin.1, fun j hj => ?_, ?_⟩
    · have := Nat.find_min h hj
      push Not at this
      exact this (hdown j hj.le)
    · cases hg : Spec.getItem L (a + k * s) with
      | error e =>
        left
        unfold Spec.getItem at hg
        split at hg
        · split at hg <;> cases hg; rfl
        · split at hg
          · split at hg <;> cases hg; rfl
          · cases hg; rfl
      | ok v =>
        right
        by_contra hc
        push Not at hc
        exact hmin.2 ⟨v, hg, fun j hj => hc v rfl j hj⟩

/-- **C10** (partial). For `0 ≤ a`, `b ≤ len(reg)` and a positive step `s`, `reg[a:b:s]` holds the items at positions
`a, a+s, a+2s, ... < b`. Missing: negative bounds, negative steps and bounds beyond the end, for which Python
sequences clip or count from the end but registers do not (`C10_slice_violated`). -/
theorem C10_slice_partial (ev : EqEnv) (hev : Inert ev) (r : CyReg) (hr : Reachable ev r) (L : List Lbl)
    (hL : r.iter = .ok L) (a b s : Nat) (hb : b ≤ L.length) (hs : 0 < s) :
    ∃ new M, r.getSlice ev (some a) (some b) (some s) = .ok new ∧ new.iter = .ok M ∧
      ∀ k, M[k]? = if a + k * s < b then L[a + k * s]? else none := by
  obtain ⟨new, M, h1, h2, h3⟩ := getSlice_rep hev (hr.rep_iter hev hL) a b s hb hs
  exact ⟨new, M, h1, h2.iter_eq, h3⟩

/-- **C10** (partial). `reg[a:b]` is `list(reg)[a:b]` for `0 ≤ a` and `b ≤ len(reg)`; omitted bounds mean 0 and the
length. -/
theorem C10_slice_step1_partial (ev : EqEnv) (hev : Inert ev) (r : CyReg) (hr : Reachable ev r) (L : List Lbl)
    (hL : r.iter = .ok L) (start stop : Option Nat) (hb : stop.getD L.length ≤ L.length) :
    ∃ new, r.getSlice ev (start.map (↑)) (stop.map (↑)) none = .ok new ∧
      new.iter = .ok ((L.take (stop.getD L.length)).drop (start.getD 0)) := by
  have h := hr.rep_iter hev hL
  obtain ⟨new, M, h1, h2, h3⟩ := getSlice_rep hev h (start.getD 0) (stop.getD L.length) 1 hb (by omega)
  refine ⟨new, ?_, ?_⟩
  · rw [← h1]
    unfold getSlice
    have e1 : (start.map (fun (n : Nat) => (n : Int))).getD 0 = ((start.getD 0 : Nat) : Int) := by cases start <;> rfl
    have e2 : (stop.map (fun (n : Nat) => (n : Int))).getD (r.stop : Int) = ((stop.getD L.length : Nat) : Int) := by
      cases stop <;> simp [h.stop]
    simp only [Option.getD_none, Option.getD_some, e1, e2]
    rfl
  · rw [h2.iter_eq]
    congr 1
    apply List.ext_getElem?
    intro k
    rw [h3 k, List.getElem?_drop]
    simp only [Nat.mul_one]
    by_cases hk : start.getD 0 + k < stop.getD L.length
    · rw [if_pos hk, List.getElem?_take_of_lt hk]
    · rw [if_neg hk, List.getElem?_eq_none]
      simp; omega

example : ((exReg.getSlice ev0 (some 1) (some 4) (some 2)).map fun r => r.iter.toOption) =
    .ok (some [.int 2, .int 0]) := by rfl

/-- The full C10 fails: on the register `["x", "y"]` the slice `[-1:]` raises `ValueError` (a list gives `["y"]`), `[0:5]`
raises `IndexError` (a list gives both items), and `[::-1]` is empty (a list gives both items reversed). -/
theorem C10_slice_violated :
    let r := init ev0 (.iter [.obj 0, .obj 1])
    r.getSlice ev0 (some (-1)) none none = .error .valueError ∧
    r.getSlice ev0 (some 0) (some 5) none = .error .indexError ∧
    r.getSlice ev0 none none (some (-1)) = .ok {} := by
  decide

/-- Cases of `C10_slice_cases`: on `["x", "y", "z"]` the slice `[2:0:-1]` is `["z", "y"]`, as for a list; `[-3:-1]` is `["x", "y"]`, as for a list;
`[-1:1]` is `["z", "x"]`, where a list gives `[]`; `[-1:]` meets `"z"` again at position 2 and raises `ValueError`. -/
example : let r := init ev0 (.iter [.obj 0, .obj 1, .obj 2])
    (r.getSlice ev0 (some 2) (some 0) (some (-1))).toOption.bind (fun n => n.iter.toOption) = some [.obj 2, .obj 1] ∧
    (r.getSlice ev0 (some (-3)) (some (-1)) none).toOption.bind (fun n => n.iter.toOption) = some [.obj 0, .obj 1] ∧
    (r.getSlice ev0 (some (-1)) (some 1) none).toOption.bind (fun n => n.iter.toOption) = some [.obj 2, .obj 0] ∧
    r.getSlice ev0 (some (-1)) none none = .error .valueError := by
  decide

/-! ## C11 -/

/-- The content of a parameter register of length `n`. -/
def autoVars (n : Nat) : List Lbl := (List.range n).map Reg.autoVar

/-- **C11.** On a parameter register holding the variables `0..n-1` (a new one holds none): indexing at `i ≥ n` while not
frozen appends exactly the variables `n..i` and returns variable `i`; indexing inside the range changes nothing and
returns variable `i`; when frozen, indexing outside raises `IndexError` and changes nothing. -/
theorem C11_getitem (ev : EqEnv) (hev : Inert ev) (r : Reg) (n : Nat) (hr : Reachable ev r.cy)
    (hL : r.cy.iter = .ok (autoVars n)) (i : Nat) :
    (i < n → r.selfGetItem ev i = (.ok (Reg.autoVar i), r)) ∧
    (n ≤ i → r.frozen = some false → (r.selfGetItem ev i).1 = .ok (Reg.autoVar i) ∧
      (r.selfGetItem ev i).2.cy.iter = .ok (autoVars (i + 1)) ∧
      Reachable ev (r.selfGetItem ev i).2.cy ∧ (r.selfGetItem ev i).2.frozen = some false) ∧
    (n ≤ i → r.frozen = some true → r.selfGetItem ev i = (.error .indexError, r)) := by
  have h := hr.rep_iter hev hL
  have hlen : (autoVars n).length = n := by simp [autoVars]
  refine ⟨?_, ?_, ?_⟩
  · intro hi
    unfold Reg.selfGetItem
    simp only [hL, hlen]
    rw [if_neg (by omega), h.at_nat i (by omega)]
    simp [autoVars]
  · intro hi hf
    have hvars : ((List.range ((i : Int) + 1 - (n : Int)).toNat).map fun (j : Nat) => Reg.autoVar (n + j)) =
        (List.range' n (i + 1 - n)).map Reg.autoVar := by
      rw [show ((i : Int) + 1 - (n : Int)).toNat = i + 1 - n by omega, List.range'_eq_map_range, List.map_map]
      rfl
    have happ : autoVars n ++ (List.range' n (i + 1 - n)).map Reg.autoVar = autoVars (i + 1) := by
      unfold autoVars
      rw [← List.map_append, List.range_eq_range', List.range_eq_range']
      congr 1
      have := List.range'_append (s := 0) (m := n) (n := i + 1 - n) (step := 1)
      simp only [Nat.one_mul, Nat.zero_add] at this
      rw [this]; congr 1; omega
    have hnd : (autoVars n ++ (List.range' n (i + 1 - n)).map Reg.autoVar).Nodup := by
      rw [happ]
      exact List.nodup_range.map (fun a b hab => by simpa [Reg.autoVar] using hab)
    obtain ⟨h1, h2⟩ := (C03_add ev hev r hr hf _ hL).1 _ hnd
    have hcy : (r.add ev ((List.range' n (i + 1 - n)).map Reg.autoVar)).2.cy =
        (r.cy.extend ev ((List.range' n (i + 1 - n)).map Reg.autoVar) false).2 := by
      simp [Reg.add, Reg.getFrozen, hf]
    have hfr : (r.add ev ((List.range' n (i + 1 - n)).map Reg.autoVar)).2.frozen = some false := by
      simp [Reg.add, Reg.getFrozen, hf]
    have hre : Reachable ev (r.add ev ((List.range' n (i + 1 - n)).map Reg.autoVar)).2.cy := by
      rw [hcy]; exact hr.extend hev _ _
    have hrep := hre.rep_iter hev h2
    have hgoal : r.selfGetItem ev i =
        (.ok (Reg.autoVar i), (r.add ev ((List.range' n (i + 1 - n)).map Reg.autoVar)).2) := by
      unfold Reg.selfGetItem
      simp only [hL, hlen]
      rw [if_pos (by omega)]
      simp only [Reg.getFrozen, hf, hvars]
      generalize hga : r.add ev ((List.range' n (i + 1 - n)).map Reg.autoVar) = ra at h1 hrep ⊢
      obtain ⟨res, r'⟩ := ra
      simp only at h1
      subst h1
      simp only
      rw [happ] at hrep
      have hi' : i < (autoVars (i + 1)).length := by simp [autoVars]
      rw [hrep.at_nat i hi']
      simp [autoVars]
    rw [hgoal]
    exact ⟨rfl, by rw [h2, happ], hre, hfr⟩
  · intro hi hf
    unfold Reg.selfGetItem
    simp only [hL, hlen]
    rw [if_pos (by omega)]
    simp only [Reg.getFrozen, hf]
    rw [h.at_eq]
    unfold Spec.getItem
    rw [if_pos (by omega), List.getElem?_eq_none (by rw [hlen]; omega)]

/-- **C11**, all histories. After any sequence of index accesses (at non-negative positions) and freezes on a new parameter
register its content is `0..n-1` for some `n` that never decreases, so the variable at a position never changes. -/
theorem C11_history (ev : EqEnv) (hev : Inert ev) (accesses : List (Option Nat)) :
    ∀ (r : Reg) (n : Nat), Reachable ev r.cy → r.cy.iter = .ok (autoVars n) → (∃ b, r.frozen = some b) →
    ∃ n', n ≤ n' ∧
      (callRun ev (accesses.map fun | some i => .getitem i | none => .freeze) r).2.cy.iter = .ok (autoVars n') ∧
      ∀ (k i : Nat) (x : Option Lbl), accesses[k]? = some (some i) →
        (callRun ev (accesses.map fun | some i => .getitem i | none => .freeze) r).1[k]? = some (.ok x) →
        x = some (Reg.autoVar i) := by
  induction accesses with
  | nil => intro r n _ hL _; exact ⟨n, le_rfl, hL, by simp⟩
  | cons a as ih =>
    intro r n hr hL hb
    cases a with
    | none =>
      obtain ⟨n', h1, h2, h3⟩ := ih r.freeze n hr hL ⟨true, rfl⟩
      refine ⟨n', h1, h2, ?_⟩
      intro k i x hk hx
      cases k with
      | zero => simp at hk
      | succ k => exact h3 k i x (by simpa using hk) (by simpa [callRun, callStep] using hx)
    | some i =>
      obtain ⟨g1, g2, g3⟩ := C11_getitem ev hev r n hr hL i
      obtain ⟨b, hb⟩ := hb
      have key : ∃ m, n ≤ m ∧ Reachable ev (r.selfGetItem ev i).2.cy ∧
          (r.selfGetItem ev i).2.cy.iter = .ok (autoVars m) ∧ (∃ b, (r.selfGetItem ev i).2.frozen = some b) ∧
          (∀ y, (r.selfGetItem ev i).1 = .ok y → y = Reg.autoVar i) := by
        by_cases hi : i < n
        · rw [g1 hi]; exact ⟨n, le_rfl, hr, hL, ⟨b, hb⟩, fun y hy => by cases hy; rfl⟩
        · cases b with
          | false =>
            obtain ⟨a1, a2, a3, a4⟩ := g2 (by omega) hb
            exact ⟨i + 1, by omega, a3, a2, ⟨_, a4⟩, fun y hy => by rw [a1] at hy; cases hy; rfl⟩
          | true =>
            rw [g3 (by omega) hb]
            exact ⟨n, le_rfl, hr, hL, ⟨true, hb⟩, fun y hy => by cases hy⟩
      obtain ⟨m, k1, k2, k3, k4, k5⟩ := key
      obtain ⟨n', h1, h2, h3⟩ := ih _ m k2 k3 k4
      refine ⟨n', by omega, h2, ?_⟩
      intro k j x hk hx
      cases k with
      | zero =>
        simp at hk; subst hk
        simp only [callRun, callStep, List.map_cons, List.getElem?_cons_zero, Option.some.injEq] at hx
        cases hg : (r.selfGetItem ev i).1 with
        | error e => rw [hg] at hx; simp [Except.map] at hx
        | ok y => rw [hg] at hx; simp [Except.map] at hx; rw [← hx, k5 y hg]
      | succ k => exact h3 k j x (by simpa using hk) (by simpa [callRun, callStep] using hx)

/-- Non-vacuity: a new parameter register satisfies the hypotheses with `n = 0`. -/
example : Reachable ev0 (Reg.new ev0 []).cy ∧ (Reg.new ev0 []).cy.iter = .ok (autoVars 0) ∧
    ((Reg.new ev0 []).selfGetItem ev0 2).2.cy.iter = .ok [.obj 0, .obj 1, .obj 2] :=
  ⟨reachable_new _ _, rfl, rfl⟩

/-! ## C12 -/

/-- **C12** (partial). A bit is stored at its position if its current value differs from that position's number.
Missing: bits whose value equals the position, which are lost (`C12_valued_bit_lost_violated`). -/
theorem C12_bits_stored_partial (ev : EqEnv) (bits : List Nat) (hnd : bits.Nodup)
    (hval : ∀ (i k : Nat), bits[i]? = some k → ev k ≠ some (i : Int)) :
    let r := (Reg.mk {} (some false)).add ev (bits.map Lbl.obj)
    r.1 = .ok () ∧ r.2.cy.iter = .ok (bits.map Lbl.obj) ∧
      ∀ (i k : Nat), bits[i]? = some k → r.2.cy.at i = .ok (.obj k) ∧ r.2.cy.index (.obj k) = .ok (i : Int) := by
  have hnd' : (bits.map Lbl.obj).Nodup := hnd.map (fun a b hab => by simpa using hab)
  obtain ⟨h1, h2⟩ := extend_eq_values (ev := ev) (bits.map Lbl.obj) rep_empty (by
    intro i k hi
    simp only [List.length_nil, Nat.zero_add]
    apply hval i k
    rw [List.getElem?_map, Option.map_eq_some_iff] at hi
    obtain ⟨a, ha, hk⟩ := hi
    cases hk; exact ha)
  rw [spec_extend_ok [] _ (by simpa using hnd')] at h1 h2
  simp only [List.nil_append] at h2
  simp only [Reg.add, Reg.getFrozen]
  refine ⟨h1, h2.iter_eq, ?_⟩
  intro i k hk
  have hi : i < bits.length := (List.getElem?_eq_some_iff.1 hk).1
  have hg : (bits.map Lbl.obj)[i]'(by simpa using hi) = .obj k := by
    simpa [hi] using hk
  constructor
  · rw [h2.at_nat i (by simpa using hi), hg]
  · have hm : Lbl.obj k ∈ bits.map Lbl.obj := by
      rw [← hg]; exact List.getElem_mem _
    rw [h2.index_eq, if_pos hm]
    congr 2
    have := h2.nodup.idxOf_getElem i (by simpa using hi)
    rwa [hg] at this

/-- Non-vacuity: measured bits with values 1, 0 at positions 0, 1. -/
example : ∀ (i k : Nat), [5, 6][i]? = some k → (fun k => if k = 5 then some 1 else some 0 : EqEnv) k ≠ some (i : Int) := by
  intro i k h
  match i, h with
  | 0, h => simp at h; subst h; decide
  | 1, h => simp at h; subst h; decide
  | n + 2, h => simp at h

/-- C12 in all cases: if different bits are added to an empty register, then the call succeeds, and the register holds at every position the bit, except
where the value of the bit is the number of the position: there it holds this integer. Such a bit is not in the register. -/
theorem C12_cases (ev : EqEnv) (bits : List Nat) (hnd : bits.Nodup) :
    let r := (Reg.mk {} (some false)).add ev (bits.map Lbl.obj)
    r.1 = .ok () ∧ (r.2.cy.iter = .ok (bits.mapIdx fun i k => if ev k = some (i : Int) then .int (i : Int) else .obj k)) ∧
      ∀ (i k : Nat), bits[i]? = some k → r.2.cy.count (.obj k) = decide (ev k ≠ some (i : Int)) ∧
        r.2.cy.at i = .ok (if ev k = some (i : Int) then .int i else .obj k) := by
  obtain ⟨h1, h2⟩ := extend_values (ev := ev) bits rep_empty hnd (by simp) (by simp)
  simp only [List.nil_append, List.length_nil, Nat.zero_add] at h2
  simp only [Reg.add, Reg.getFrozen]
  refine ⟨h1, h2.iter_eq, fun i k hk => ?_⟩
  have hi : i < bits.length := (List.getElem?_eq_some_iff.1 hk).1
  have hg : bits[i] = k := (List.getElem?_eq_some_iff.1 hk).2
  refine ⟨?_, ?_⟩
  · rw [h2.count_eq, Bool.eq_iff_iff, decide_eq_true_iff, decide_eq_true_iff, List.mem_mapIdx]
    constructor
    · rintro ⟨j, hj, he⟩
      split at he
      · cases he
      · next hne =>
        cases he
        have : j = i := (List.Nodup.getElem_inj_iff hnd).1 hg.symm
        subst this; exact hne
    · intro hne
      exact ⟨i, hi, by rw [hg]; simp [hne]⟩
  · rw [h2.at_nat i (by simpa using hi), List.getElem_mapIdx, hg]

/-- The full C12 fails for *every* bit whose value equals the position at which it is added: the register afterwards
holds an integer instead of the bit. -/
theorem C12_valued_bit_lost_violated (ev : EqEnv) (k : Nat) (hv : ev k = some 0) :
    let r := (Reg.mk {} (some false)).add ev [.obj k]
    r.1 = .ok () ∧ r.2.cy.iter = .ok [.int 0] ∧ r.2.cy.count (.obj k) = false := by
  simp only [Reg.add, Reg.getFrozen]
  have : (CyReg.extend ev {} [.obj k] false) = (.ok (), { stop := 1 }) := by
    simp [CyReg.extend, CyReg.append, CyReg.count, PyDict.contains, PyDict.get?, CyReg.push, pyEq, hv]
  rw [this]
  exact ⟨rfl, rfl, rfl⟩

end DG.Props
