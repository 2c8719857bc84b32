import Verif.Spec.Matrix
import Verif.Proofs.KernelSpec
import Verif.Proofs.GateAct

/-!
# Lemmas for build_controlled_unitary and build_unitary
-/

namespace DG.Unitary
open Complex Spec Kernel

/-! ## Bit strings -/

theorem mem_product {k : Nat} : ∀ {l : List Bool}, l ∈ product k ↔ l.length = k := by
  induction k with
  | zero => intro l; simp [product, List.length_eq_zero_iff]
  | succ k ih =>
    intro l
    cases l with
    | nil => simp [product]
    | cons b l =>
      cases b <;> simp [product, ih]

theorem product_nodup : ∀ k, (product k).Nodup
  | 0 => by simp [product]
  | k + 1 => by
    unfold product
    rw [List.nodup_append]
    refine ⟨(product_nodup k).map (fun a b h => (List.cons.inj h).2), (product_nodup k).map (fun a b h => (List.cons.inj h).2), ?_⟩
    intro a ha b hb h
    obtain ⟨x, _, rfl⟩ := List.mem_map.1 ha
    obtain ⟨y, _, rfl⟩ := List.mem_map.1 hb
    cases h

theorem toInt_concat (l : List Bool) (b : Bool) : toInt (l ++ [b]) = 2 * toInt l + b.toNat := by
  simp [toInt, List.foldl_append]

theorem index_succ {n : Nat} (x : Basis (n + 1)) :
    index false x = 2 * index false (fun i : Fin n => x i.castSucc) + (x (Fin.last n)).toNat := by
  unfold index
  rw [Nat.ofBits_succ]
  congr 2
  congr 1
  funext i
  simp [Fin.rev_succ]

theorem toInt_ofFn : ∀ {n : Nat} (x : Basis n), toInt (List.ofFn x) = index false x
  | 0, x => by simp [toInt, index]
  | n + 1, x => by
    rw [List.ofFn_succ', List.concat_eq_append, toInt_concat, toInt_ofFn, index_succ]

/-! ## Inserting -/

/-- Insertion at a position in range. -/
def ins (l : List Bool) (p : Nat) (a : Bool) : List Bool := l.take p ++ a :: l.drop p
/-- Removal of a position. -/
def rm (l : List Bool) (p : Nat) : List Bool := l.take p ++ l.drop (p + 1)

theorem pyInsert_eq (l : List Bool) (p : Nat) (a : Bool) (h : p ≤ l.length) : pyInsert l (p : Int) a = ins l p a := by
  unfold pyInsert ins
  have h1 : ¬ ((p : Int) < 0) := by omega
  simp only [h1, if_false, Int.toNat_natCast]
  rw [if_neg (by omega)]

theorem ins_length (l : List Bool) (p : Nat) (a : Bool) (h : p ≤ l.length) : (ins l p a).length = l.length + 1 := by
  simp [ins]; omega

theorem ins_get_lt (l : List Bool) (p : Nat) (a : Bool) (h : p ≤ l.length) {i : Nat} (hi : i < p) : (ins l p a)[i]? = l[i]? := by
  unfold ins
  rw [List.getElem?_append_left (by simp; omega), List.getElem?_take_of_lt hi]

theorem ins_get_eq (l : List Bool) (p : Nat) (a : Bool) (h : p ≤ l.length) : (ins l p a)[p]? = some a := by
  unfold ins
  rw [List.getElem?_append_right (by simp)]
  simp [Nat.min_eq_left h]

theorem ins_get_gt (l : List Bool) (p : Nat) (a : Bool) (h : p ≤ l.length) {i : Nat} (hi : p < i) : (ins l p a)[i]? = l[i - 1]? := by
  unfold ins
  rw [List.getElem?_append_right (by simp; omega)]
  simp only [List.length_take, Nat.min_eq_left h]
  obtain ⟨j, rfl⟩ : ∃ j, i = p + 1 + j := ⟨i - p - 1, by omega⟩
  rw [show p + 1 + j - p = j + 1 from by omega, List.getElem?_cons_succ, List.getElem?_drop]
  congr 1
  omega

theorem rm_ins (l : List Bool) (p : Nat) (a : Bool) (h : p ≤ l.length) : rm (ins l p a) p = l := by
  unfold rm ins
  rw [List.take_append_of_le_length (by simp [h]), List.take_take, Nat.min_self,
    List.drop_append, List.drop_of_length_le (by simp)]
  simp [Nat.min_eq_left h]

theorem ins_rm (l : List Bool) (p : Nat) (a : Bool) (h : l[p]? = some a) : ins (rm l p) p a = l := by
  obtain ⟨hp, rfl⟩ := List.getElem?_eq_some_iff.1 h
  unfold ins rm
  rw [List.take_append_of_le_length (by simp; omega), List.take_take, Nat.min_self, List.drop_append,
    List.drop_of_length_le (by simp)]
  simp only [List.length_take, Nat.min_eq_left hp.le, Nat.sub_self, List.drop_zero, List.nil_append]
  rw [List.getElem_cons_drop, List.take_append_drop]

theorem rm_length (l : List Bool) (p : Nat) (h : p < l.length) : (rm l p).length = l.length - 1 := by
  simp [rm]; omega

theorem rm_get_lt (l : List Bool) (p : Nat) (h : p < l.length) {i : Nat} (hi : i < p) : (rm l p)[i]? = l[i]? := by
  unfold rm
  rw [List.getElem?_append_left (by simp; omega), List.getElem?_take_of_lt hi]

/-- Inserting at several positions. -/
def insAll (ps : List Nat) (v : Nat → Bool) (b : List Bool) : List Bool := ps.foldl (fun l p => ins l p (v p)) b

theorem insAll_concat (ps : List Nat) (p : Nat) (v : Nat → Bool) (b : List Bool) :
    insAll (ps ++ [p]) v b = ins (insAll ps v b) p (v p) := by simp [insAll, List.foldl_append]

/-- Positions are ascending and in range for a string of `k` given bits. -/
def Fits (ps : List Nat) (k : Nat) : Prop := ps.Pairwise (· < ·) ∧ ∀ p ∈ ps, p < k + ps.length

theorem fits_init {ps : List Nat} {p k : Nat} (h : Fits (ps ++ [p]) k) : Fits ps k ∧ (∀ q ∈ ps, q < p) ∧ p ≤ k + ps.length := by
  obtain ⟨h1, h2⟩ := h
  rw [List.pairwise_append] at h1
  have h3 : ∀ q ∈ ps, q < p := fun q hq => h1.2.2 q hq p (by simp)
  have h4 := h2 p (by simp)
  simp only [List.length_append, List.length_singleton] at h4
  exact ⟨⟨h1.1, fun q hq => by have := h3 q hq; omega⟩, h3, by omega⟩

theorem insAll_length (ps : List Nat) (k : Nat) : Fits ps k → ∀ v b, b.length = k → (insAll ps v b).length = k + ps.length := by
  induction ps using List.reverseRecOn with
  | nil => intro _ v b hb; simpa [insAll] using hb
  | append_singleton ps p ih =>
    intro h v b hb
    obtain ⟨h1, h2, h3⟩ := fits_init h
    have hl := ih h1 v b hb
    rw [insAll_concat, ins_length _ _ _ (by omega), hl]
    simp; omega

theorem insAll_get (ps : List Nat) (k : Nat) : Fits ps k → ∀ v b, b.length = k → ∀ p ∈ ps, (insAll ps v b)[p]? = some (v p) := by
  induction ps using List.reverseRecOn with
  | nil => intro _ v b hb p hp; simp at hp
  | append_singleton ps q ih =>
    intro h v b hb p hp
    obtain ⟨h1, h2, h3⟩ := fits_init h
    have hl := insAll_length ps k h1 v b hb
    rw [insAll_concat]
    rcases List.mem_append.1 hp with hp | hp
    · rw [ins_get_lt _ _ _ (by omega) (h2 p hp)]
      exact ih h1 v b hb p hp
    · simp only [List.mem_singleton] at hp
      subst hp
      exact ins_get_eq _ _ _ (by omega)

theorem insAll_off (ps : List Nat) (k : Nat) : Fits ps k → ∀ v v' b, b.length = k → ∀ i, i ∉ ps →
    (insAll ps v b)[i]? = (insAll ps v' b)[i]? := by
  intro h
  have key : ∀ v v' b, b.length = k → ∀ i, i ∉ ps → (insAll ps v b)[i]? = (insAll ps v' b)[i]? := by
    induction ps using List.reverseRecOn with
    | nil => intros; rfl
    | append_singleton ps q ih =>
      intro v v' b hb i hi
      obtain ⟨h1, h2, h3⟩ := fits_init h
      have hl := insAll_length ps k h1 v b hb
      have hl' := insAll_length ps k h1 v' b hb
      rw [insAll_concat, insAll_concat]
      simp only [List.mem_append, List.mem_singleton, not_or] at hi
      rcases Nat.lt_trichotomy i q with hq | hq | hq
      · rw [ins_get_lt _ _ _ (by omega) hq, ins_get_lt _ _ _ (by omega) hq]
        exact ih h1 v v' b hb i hi.1
      · exact absurd hq hi.2
      · rw [ins_get_gt _ _ _ (by omega) hq, ins_get_gt _ _ _ (by omega) hq]
        refine ih h1 v v' b hb _ (fun hm => ?_)
        have := h2 _ hm
        omega
  exact key

theorem insAll_inj (ps : List Nat) (k : Nat) : Fits ps k → ∀ v b b', b.length = k → b'.length = k →
    insAll ps v b = insAll ps v b' → b = b' := by
  induction ps using List.reverseRecOn with
  | nil => intro _ v b b' _ _ h; exact h
  | append_singleton ps q ih =>
    intro h v b b' hb hb' he
    obtain ⟨h1, h2, h3⟩ := fits_init h
    have hl := insAll_length ps k h1 v b hb
    have hl' := insAll_length ps k h1 v b' hb'
    rw [insAll_concat, insAll_concat] at he
    have := congrArg (rm · q) he
    simp only [rm_ins _ _ _ (show q ≤ (insAll ps v b).length by omega), rm_ins _ _ _ (show q ≤ (insAll ps v b').length by omega)] at this
    exact ih h1 v b b' hb hb' this

theorem insAll_surj (ps : List Nat) (k : Nat) : Fits ps k → ∀ v l, l.length = k + ps.length → (∀ p ∈ ps, l[p]? = some (v p)) →
    ∃ b, b.length = k ∧ insAll ps v b = l := by
  induction ps using List.reverseRecOn with
  | nil => intro _ v l hl _; exact ⟨l, by simpa using hl, rfl⟩
  | append_singleton ps q ih =>
    intro h v l hl hv
    obtain ⟨h1, h2, h3⟩ := fits_init h
    simp only [List.length_append, List.length_singleton] at hl
    have hq : q < l.length := by omega
    obtain ⟨b, hb, he⟩ := ih h1 v (rm l q) (by rw [rm_length _ _ hq]; omega) (by
      intro p hp
      rw [rm_get_lt _ _ hq (h2 p hp)]
      exact hv p (by simp [hp]))
    refine ⟨b, hb, ?_⟩
    rw [insAll_concat, he]
    exact ins_rm _ _ _ (hv q (by simp))

/-! ## The pairs of rows -/

theorem pairLe_total (p q : Int × Bool) : pairLe p q = true ∨ pairLe q p = true := by
  unfold pairLe
  rcases lt_trichotomy p.1 q.1 with h | h | h
  · left; simp [h]
  · cases hp : p.2 <;> cases hq : q.2 <;> simp [h]
  · right; simp [h]

theorem pairLe_trans (p q r : Int × Bool) : pairLe p q = true → pairLe q r = true → pairLe p r = true := by
  unfold pairLe
  intro h1 h2
  simp only [Bool.or_eq_true, decide_eq_true_eq, Bool.and_eq_true, beq_iff_eq, Bool.not_eq_true'] at h1 h2 ⊢
  rcases h1 with h1 | ⟨h1, h1'⟩ <;> rcases h2 with h2 | ⟨h2, h2'⟩
  · left; omega
  · left; omega
  · left; omega
  · right
    refine ⟨by omega, ?_⟩
    rcases h1' with h1' | h1'
    · exact .inl h1'
    · rcases h2' with h2' | h2'
      · rw [h1'] at h2'; cases h2'
      · exact .inr h2'

section
variable {n : Nat}

/-- The sorted positions of controls and target. -/
theorem sortedPairs_spec (cs : List (Fin n)) (t : Fin n) (hcs : cs.Nodup) (ht : t ∉ cs) :
    ∃ ps : List Nat, ps.Pairwise (· < ·) ∧ ps.length = cs.length + 1 ∧ (∀ p, p ∈ ps ↔ p = t.val ∨ ∃ c ∈ cs, c.val = p) ∧
      sortedPairs (cs.map fun c : Fin n => (c.val : Int)) [(t.val : Int)] = ps.map fun p : Nat => ((p : Int), decide (p ≠ t.val)) := by
  set L : List (Int × Bool) := (cs.map fun c : Fin n => (c.val : Int)).map (·, true) ++ [(t.val : Int)].map (·, false) with hL
  have hperm := List.perm_insertionSort (fun p q => (pairLe p q : Prop)) L
  set S := List.insertionSort (fun p q => (pairLe p q : Prop)) L with hS
  have hmem : ∀ p, p ∈ S ↔ p = ((t.val : Int), false) ∨ ∃ c ∈ cs, p = ((c.val : Int), true) := by
    intro p
    rw [hperm.mem_iff, hL]
    simp only [List.map_map, List.map_cons, List.map_nil, List.mem_append, List.mem_map, Function.comp_apply, List.mem_singleton]
    constructor
    · rintro (⟨c, hc, rfl⟩ | h)
      · exact .inr ⟨c, hc, rfl⟩
      · exact .inl h
    · rintro (h | ⟨c, hc, rfl⟩)
      · exact .inr h
      · exact .inl ⟨c, hc, rfl⟩
  have hnodup : (S.map Prod.fst).Nodup := by
    rw [(hperm.map Prod.fst).nodup_iff, hL]
    simp only [List.map_map, List.map_append, List.map_cons, List.map_nil]
    rw [List.nodup_append]
    refine ⟨hcs.map (fun a b h => ?_), by simp, ?_⟩
    · have h' : (a.val : Int) = b.val := h
      exact Fin.ext (by omega)
    · intro a ha b hb hab
      obtain ⟨c, hc, rfl⟩ := List.mem_map.1 ha
      simp only [List.mem_singleton] at hb
      subst hb
      have h' : (c.val : Int) = t.val := hab
      exact ht (Fin.ext (show c.val = t.val by omega) ▸ hc)
  have hsorted : S.Pairwise (fun p q => (pairLe p q : Prop)) := by
    have : Std.Total (fun p q : Int × Bool => (pairLe p q : Prop)) := ⟨pairLe_total⟩
    have : IsTrans (Int × Bool) (fun p q => (pairLe p q : Prop)) := ⟨pairLe_trans⟩
    exact List.pairwise_insertionSort _ L
  have hnn : ∀ p ∈ S, 0 ≤ p.1 := by
    intro p hp
    rcases (hmem p).1 hp with rfl | ⟨c, _, rfl⟩ <;> simp
  have hstrict : (S.map fun p => p.1.toNat).Pairwise (· < ·) := by
    rw [List.pairwise_map]
    have h2 : S.Pairwise (fun p q => p.1 ≠ q.1) := List.pairwise_map.1 hnodup
    refine (hsorted.and h2).imp_of_mem ?_
    intro p q hp hq ⟨h1, h3⟩
    have := hnn p hp
    have := hnn q hq
    unfold pairLe at h1
    simp only [Bool.or_eq_true, decide_eq_true_eq, Bool.and_eq_true, beq_iff_eq] at h1
    rcases h1 with h1 | ⟨h1, _⟩
    · omega
    · exact absurd h1 h3
  refine ⟨S.map fun p => p.1.toNat, hstrict, ?_, ?_, ?_⟩
  · rw [List.length_map, hperm.length_eq, hL]; simp
  · intro p
    rw [List.mem_map]
    constructor
    · rintro ⟨q, hq, rfl⟩
      rcases (hmem q).1 hq with rfl | ⟨c, hc, rfl⟩
      · left; simp
      · exact .inr ⟨c, hc, by simp⟩
    · rintro (rfl | ⟨c, hc, rfl⟩)
      · exact ⟨_, (hmem _).2 (.inl rfl), by simp⟩
      · exact ⟨_, (hmem _).2 (.inr ⟨c, hc, rfl⟩), by simp⟩
  · show S = _
    rw [List.map_map]
    conv_lhs => rw [← List.map_id S]
    refine List.map_congr_left (fun p hp => ?_)
    rcases (hmem p).1 hp with rfl | ⟨c, hc, rfl⟩
    · simp
    · have : c.val ≠ t.val := fun h => ht (Fin.ext h ▸ hc)
      simp [this]

/-- What the rows of one iteration are. -/
theorem rowPair_spec (cs : List (Fin n)) (t : Fin n) (hcs : cs.Nodup) (ht : t ∉ cs) :
    (∀ b, b.length = n - (cs.length + 1) → ∃ x : Basis n, (∀ c ∈ cs, x c = true) ∧ x t = false ∧
      rowPair (cs.map fun c : Fin n => (c.val : Int)) [(t.val : Int)] b = (index false x, index false (Function.update x t true))) ∧
    (∀ x : Basis n, (∀ c ∈ cs, x c = true) → x t = false → ∃ b, b.length = n - (cs.length + 1) ∧
      rowPair (cs.map fun c : Fin n => (c.val : Int)) [(t.val : Int)] b = (index false x, index false (Function.update x t true))) ∧
    (∀ b b', b.length = n - (cs.length + 1) → b'.length = n - (cs.length + 1) →
      (rowPair (cs.map fun c : Fin n => (c.val : Int)) [(t.val : Int)] b).1 =
        (rowPair (cs.map fun c : Fin n => (c.val : Int)) [(t.val : Int)] b').1 → b = b') := by
  obtain ⟨ps, h1, h2, h3, h4⟩ := sortedPairs_spec cs t hcs ht
  have hle : cs.length + 1 ≤ n := by
    have : (t :: cs).Nodup := List.nodup_cons.2 ⟨ht, hcs⟩
    have := this.length_le_card
    simpa using this
  set k := n - (cs.length + 1) with hk
  have hfits : Fits ps k := by
    refine ⟨h1, fun p hp => ?_⟩
    rw [h2]
    rcases (h3 p).1 hp with rfl | ⟨c, _, rfl⟩
    · have := t.isLt; omega
    · have := c.isLt; omega
  have hkn : k + ps.length = n := by omega
  have fold_eq : ∀ (qs : List Nat), (∀ k', Fits qs k' → ∀ (v : Nat → Bool) (b : List Bool), b.length = k' →
      qs.foldl (fun l (p : Nat) => pyInsert l (p : Int) (v p)) b = insAll qs v b) := by
    intro qs
    induction qs using List.reverseRecOn with
    | nil => intros; rfl
    | append_singleton qs p ih =>
      intro k' hf v b hb
      obtain ⟨g1, g2, g3⟩ := fits_init hf
      rw [List.foldl_append, ih k' g1 v b hb, insAll_concat]
      have := insAll_length qs k' g1 v b hb
      exact pyInsert_eq _ _ _ (by omega)
  set v0 : Nat → Bool := fun p => decide (p ≠ t.val) with hv0
  set v1 : Nat → Bool := fun _ => true with hv1
  have hrow : ∀ b, b.length = k → rowPair (cs.map fun c : Fin n => (c.val : Int)) [(t.val : Int)] b =
      (toInt (insAll ps v0 b), toInt (insAll ps v1 b)) := by
    intro b hb
    unfold rowPair
    rw [h4]
    simp only [List.foldl_map]
    rw [fold_eq ps k hfits v0 b hb, fold_eq ps k hfits v1 b hb]
  have tmem : t.val ∈ ps := (h3 _).2 (.inl rfl)
  have cmem : ∀ c ∈ cs, c.val ∈ ps := fun c hc => (h3 _).2 (.inr ⟨c, hc, rfl⟩)
  have v0c : ∀ c ∈ cs, v0 c.val = true := by
    intro c hc
    have : c.val ≠ t.val := fun h => ht (Fin.ext h ▸ hc)
    simp [hv0, this]
  have v0t : v0 t.val = false := by simp [hv0]
  -- the second string
  have second : ∀ b, b.length = k → ∀ x : Basis n, insAll ps v0 b = List.ofFn x →
      insAll ps v1 b = List.ofFn (Function.update x t true) := by
    intro b hb x hx
    apply List.ext_getElem?
    intro i
    by_cases hi : i ∈ ps
    · rw [insAll_get ps k hfits v1 b hb i hi]
      have hin : i < n := by have := hfits.2 i hi; omega
      rw [List.getElem?_ofFn, dif_pos hin]
      by_cases hit : i = t.val
      · subst hit; simp [hv1]
      · have h5 := insAll_get ps k hfits v0 b hb i hi
        rw [hx, List.getElem?_ofFn, dif_pos hin] at h5
        have hne : (⟨i, hin⟩ : Fin n) ≠ t := fun h => hit (by rw [← h])
        rw [Function.update_of_ne hne, h5]
        simp [hv0, hv1, hit]
    · rw [insAll_off ps k hfits v1 v0 b hb i hi, hx]
      rw [List.getElem?_ofFn, List.getElem?_ofFn]
      by_cases hin : i < n
      · rw [dif_pos hin, dif_pos hin]
        have hne : (⟨i, hin⟩ : Fin n) ≠ t := fun h => hi (by rw [← h] at tmem; exact tmem)
        rw [Function.update_of_ne hne]
      · rw [dif_neg hin, dif_neg hin]
  have toFn : ∀ b, b.length = k → ∃ x : Basis n, insAll ps v0 b = List.ofFn x := by
    intro b hb
    have hl := insAll_length ps k hfits v0 b hb
    rw [hkn] at hl
    refine ⟨fun i => (insAll ps v0 b)[i.val]'(by omega), ?_⟩
    apply List.ext_getElem (by simp [hl])
    intro i h h'
    simp
  refine ⟨?_, ?_, ?_⟩
  · intro b hb
    obtain ⟨x, hx⟩ := toFn b hb
    have get : ∀ i : Fin n, i.val ∈ ps → x i = v0 i.val := by
      intro i hi
      have := insAll_get ps k hfits v0 b hb i.val hi
      rw [hx, List.getElem?_ofFn, dif_pos i.isLt] at this
      exact Option.some.inj this
    refine ⟨x, fun c hc => ?_, ?_, ?_⟩
    · rw [get c (cmem c hc), v0c c hc]
    · rw [get t tmem, v0t]
    · rw [hrow b hb, second b hb x hx, hx, toInt_ofFn, toInt_ofFn]
  · intro x hxc hxt
    obtain ⟨b, hb, hx⟩ := insAll_surj ps k hfits v0 (List.ofFn x) (by simp [hkn]) (by
      intro p hp
      rcases (h3 p).1 hp with rfl | ⟨c, hc, rfl⟩
      · rw [List.getElem?_ofFn, dif_pos t.isLt, v0t]; simp [hxt]
      · rw [List.getElem?_ofFn, dif_pos c.isLt, v0c c hc]; simp [hxc c hc])
    refine ⟨b, hb, ?_⟩
    rw [hrow b hb, second b hb x hx, hx, toInt_ofFn, toInt_ofFn]
  · intro b b' hb hb' he
    rw [hrow b hb, hrow b' hb'] at he
    obtain ⟨x, hx⟩ := toFn b hb
    obtain ⟨x', hx'⟩ := toFn b' hb'
    simp only [hx, hx', toInt_ofFn] at he
    have := index_inj he
    subst this
    exact insAll_inj ps k hfits v0 b b' hb hb' (by rw [hx, hx'])

end
end DG.Unitary
