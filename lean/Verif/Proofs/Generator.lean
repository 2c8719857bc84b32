import Verif.Proofs.KernelSpec
import Verif.Proofs.OpSet
import Verif.Model.Generator
import Verif.Spec.Generator
import Mathlib.Algebra.Order.Chebyshev

/-! # Gates and operator sets on several qubits -/

namespace DG.Kernel
open Spec

variable {n : Nat}

theorem number_eq_sub (ts : List (Fin n)) (x : Basis n) : number ts x = sub ts x := rfl

theorem testBit_sub (ts : List (Fin n)) (x : Basis n) {k : Nat} (hk : k < ts.length) : (sub ts x).testBit k = x ts[k] := by
  unfold sub
  rw [Nat.testBit_ofBits_lt _ _ hk]
  rfl

theorem setT_mem {ts : List (Fin n)} {j : Nat} {x : Basis n} {q : Fin n} (h : q ∈ ts) : setT ts j x q = j.testBit (ts.idxOf q) := if_pos h

theorem setT_not_mem {ts : List (Fin n)} {j : Nat} {x : Basis n} {q : Fin n} (h : q ∉ ts) : setT ts j x q = x q := if_neg h

theorem sub_setT {ts : List (Fin n)} (hnd : ts.Nodup) {j : Nat} (hj : j < 2 ^ ts.length) (x : Basis n) : sub ts (setT ts j x) = j := by
  apply Nat.eq_of_testBit_eq
  intro k
  by_cases hk : k < ts.length
  · rw [testBit_sub ts _ hk, setT_mem (List.getElem_mem hk), hnd.idxOf_getElem k hk]
  · unfold sub
    rw [Nat.testBit_ofBits_ge _ _ (by omega)]
    exact (Nat.testBit_lt_two_pow (Nat.lt_of_lt_of_le hj (Nat.pow_le_pow_right (by omega) (by omega)))).symm

theorem setT_setT (ts : List (Fin n)) (i j : Nat) (x : Basis n) : setT ts i (setT ts j x) = setT ts i x := by
  funext q
  by_cases h : q ∈ ts
  · rw [setT_mem h, setT_mem h]
  · rw [setT_not_mem h, setT_not_mem h, setT_not_mem h]

theorem setT_sub (ts : List (Fin n)) (x : Basis n) : setT ts (sub ts x) x = x := by
  funext q
  by_cases h : q ∈ ts
  · rw [setT_mem h, testBit_sub ts x (List.idxOf_lt_length_of_mem h), List.getElem_idxOf]
  · rw [setT_not_mem h]

theorem setT_sub_of {ts : List (Fin n)} {x z : Basis n} (h : ∀ q, q ∉ ts → z q = x q) : setT ts (sub ts z) x = z := by
  have : setT ts (sub ts z) x = setT ts (sub ts z) z := by
    funext q
    by_cases hq : q ∈ ts
    · rw [setT_mem hq, setT_mem hq]
    · rw [setT_not_mem hq, setT_not_mem hq, h q hq]
  rw [this, setT_sub]

/-- The sum over the block of `x`. -/
theorem sum_sameElsewhere {M : Type} [AddCommMonoid M] {ts : List (Fin n)} (hnd : ts.Nodup) (x : Basis n) (f : Basis n → M) :
    ∑ z ∈ sameElsewhere ts x, f z = ∑ j ∈ Finset.range (2 ^ ts.length), f (setT ts j x) := by
  symm
  refine Finset.sum_bij' (fun j _ => setT ts j x) (fun z _ => sub ts z) ?_ ?_ ?_ ?_ ?_
  · intro j _
    rw [sameElsewhere, Finset.mem_filter]
    exact ⟨Finset.mem_univ _, fun q hq => setT_not_mem hq⟩
  · intro z _; exact Finset.mem_range.2 (sub_lt ts z)
  · intro j hj; exact sub_setT hnd (Finset.mem_range.1 hj) x
  · intro z hz
    rw [sameElsewhere, Finset.mem_filter] at hz
    exact setT_sub_of hz.2
  · intro j _; rfl

theorem gen_eq_applyMatrix {R : Type} [Semiring R] {ts : List (Fin n)} (hnd : ts.Nodup) (cs : List (Fin n)) (M : Nat → Nat → R) (ψ : State n R) :
    gen ts cs M ψ = applyOnTargets ts cs M ψ := by
  funext x
  unfold gen applyOnTargets
  split
  · rw [sum_sameElsewhere hnd]
    apply Finset.sum_congr rfl
    intro j hj
    rw [number_eq_sub, number_eq_sub, sub_setT hnd (Finset.mem_range.1 hj)]
  · rfl

/-- The sum over all basis states with set controls, block by block. -/
theorem sum_blocks {M : Type} [AddCommMonoid M] {ts cs : List (Fin n)} (hnd : (ts ++ cs).Nodup) (f : Basis n → M) :
    ∑ x with (∀ c ∈ cs, x c = true), f x =
      ∑ r with ((∀ c ∈ cs, r c = true) ∧ setT ts 0 r = r), ∑ i ∈ Finset.range (2 ^ ts.length), f (setT ts i r) := by
  have hnd1 : ts.Nodup := (List.nodup_append.1 hnd).1
  have hdis : ∀ c ∈ cs, c ∉ ts := fun c hc ht => (List.nodup_append.1 hnd).2.2 c ht c hc rfl
  rw [← Finset.sum_product']
  refine Finset.sum_bij' (fun x _ => (setT ts 0 x, sub ts x)) (fun p _ => setT ts p.2 p.1) ?_ ?_ ?_ ?_ ?_
  · intro x hx
    simp only [Finset.mem_filter, Finset.mem_univ, true_and, Finset.mem_product, Finset.mem_range] at hx ⊢
    exact ⟨⟨fun c hc => by rw [setT_not_mem (hdis c hc)]; exact hx c hc, setT_setT ..⟩, sub_lt ts x⟩
  · intro p hp
    simp only [Finset.mem_filter, Finset.mem_univ, true_and, Finset.mem_product, Finset.mem_range] at hp ⊢
    exact fun c hc => by rw [setT_not_mem (hdis c hc)]; exact hp.1.1 c hc
  · intro x _
    simp only
    rw [setT_setT, setT_sub]
  · intro p hp
    simp only [Finset.mem_filter, Finset.mem_univ, true_and, Finset.mem_product, Finset.mem_range] at hp
    refine Prod.ext ?_ ?_
    · show setT ts 0 (setT ts p.2 p.1) = p.1
      rw [setT_setT, hp.1.2]
    · exact sub_setT hnd1 hp.2 _
  · intro x _
    simp only
    rw [setT_setT, setT_sub]

/-! ## Names -/

section names
variable {R : Type} [Zero R] [One R] [Add R] [Mul R] [DecidableEq R]

theorem gateName_collision : gateName 1 11 = gateName 11 1 := rfl

theorem gateName_table : ∀ i j i' j' : Fin 8, gateName i j = gateName i' j' → i = i' ∧ j = j' := by
  decide +kernel

theorem gateName_inj_table (i : Nat) (hi : i < 8) (j : Nat) (hj : j < 8) (i' : Nat) (hi' : i' < 8) (j' : Nat) (hj' : j' < 8)
    (h : gateName i j = gateName i' j') : i = i' ∧ j = j' := by
  have := gateName_table ⟨i, hi⟩ ⟨j, hj⟩ ⟨i', hi'⟩ ⟨j', hj'⟩ h
  exact ⟨congrArg Fin.val this.1, congrArg Fin.val this.2⟩

theorem gateNames_nodup (op : OpSpec R) (h : op.precompiled ≠ none ∨ op.numTargets ≤ 3) : op.gateNames.Nodup := by
  unfold OpSpec.gateNames
  cases hp : op.precompiled with
  | some G => simp
  | none =>
    have h3 : op.numTargets ≤ 3 := by
      rcases h with h | h
      · exact absurd hp h
      · exact h
    have hs : op.size ≤ 8 := by
      unfold OpSpec.size
      rw [Nat.shiftLeft_eq, one_mul]
      exact (Nat.pow_le_pow_right (by omega) h3 : (2 : Nat) ^ op.numTargets ≤ 2 ^ 3)
    simp only
    rw [List.nodup_flatMap]
    refine ⟨fun i hi => ?_, ?_⟩
    · rw [List.mem_range] at hi
      refine List.Nodup.map_on ?_ (List.nodup_range.filter _)
      intro j hj j' hj' he
      have h1 := List.mem_range.1 (List.mem_filter.1 hj).1
      have h2 := List.mem_range.1 (List.mem_filter.1 hj').1
      exact (gateName_inj_table i (by omega) j (by omega) i (by omega) j' (by omega) he).2
    · refine List.Pairwise.imp_of_mem ?_ (List.nodup_range (n := op.size))
      intro i i' hi hi' hne
      rw [List.mem_range] at hi hi'
      rw [Function.onFun, List.disjoint_left]
      intro s hs1 hs2
      obtain ⟨j, hj, rfl⟩ := List.mem_map.1 hs1
      obtain ⟨j', hj', he⟩ := List.mem_map.1 hs2
      have h1 := List.mem_range.1 (List.mem_filter.1 hj).1
      have h2 := List.mem_range.1 (List.mem_filter.1 hj').1
      exact hne (gateName_inj_table i' (by omega) j' (by omega) i (by omega) j (by omega) he).1.symm

/-- Two entries of the mask with the same name. -/
theorem gateNames_not_nodup (op : OpSpec R) (hp : op.precompiled = none) {i j i' j' : Nat} (hi : i < op.size) (hj : j < op.size) (hi' : i' < op.size)
    (hj' : j' < op.size) (hm : op.mask i j = true) (hm' : op.mask i' j' = true) (hne : i ≠ i') (he : gateName i j = gateName i' j') :
    ¬ op.gateNames.Nodup := by
  unfold OpSpec.gateNames
  rw [hp]
  simp only
  rw [List.nodup_flatMap]
  rintro ⟨_, h⟩
  have hmem : ∀ {a b : Nat}, a < op.size → b < op.size → op.mask a b = true →
      gateName a b ∈ ((List.range op.size).filter fun j => op.mask a j).map fun j => gateName a j := by
    intro a b _ hb hmb
    exact List.mem_map.2 ⟨b, List.mem_filter.2 ⟨List.mem_range.2 hb, hmb⟩, rfl⟩
  have hsym : ∀ {a b : Nat}, a < b → a < op.size → b < op.size → List.Disjoint
      (((List.range op.size).filter fun j => op.mask a j).map fun j => gateName a j)
      (((List.range op.size).filter fun j => op.mask b j).map fun j => gateName b j) := by
    intro a b hab ha hb
    have := List.pairwise_iff_getElem.1 h a b (by simpa using ha) (by simpa using hb) hab
    simpa [Function.onFun] using this
  rcases Nat.lt_or_gt_of_ne hne with hlt | hlt
  · exact List.disjoint_left.1 (hsym hlt hi hi') (hmem hi hj hm) (he ▸ hmem hi' hj' hm')
  · exact List.disjoint_left.1 (hsym hlt hi' hi) (hmem hi' hj' hm') (he ▸ hmem hi hj hm)

end names

end DG.Kernel
