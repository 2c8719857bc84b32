import Verif.Proofs.Merge
import Verif.Props.Simulator

/-! Qubits that are not used, and the order of the qubits: C108; independent parts of a circuit: C109. -/

noncomputable section

namespace DG.Props
open Complex DG.Sim DG.Spec

theorem positions_exists {qs qs' : List Nat} (h : ∀ q ∈ qs, q ∈ qs') : ∃ p, Positions qs qs' p := by
  have : ∀ i : Fin qs.length, ∃ j : Fin qs'.length, qs'[j] = qs[i] := by
    intro i
    obtain ⟨j, hj, e⟩ := List.mem_iff_getElem.1 (h qs[i] (List.getElem_mem _))
    exact ⟨⟨j, hj⟩, e⟩
  exact ⟨fun i => (this i).choose, fun i => (this i).choose_spec⟩

/-- The other qubits are 0. -/
def idleAmp (qs qs' : List Nat) : State qs'.length ℂ := open Classical in fun x => if ∀ j, qs'[j] ∉ qs → x j = false then 1 else 0

theorem not_mem_iff {qs qs' : List Nat} (hnd : qs'.Nodup) {p : _} (h : Positions qs qs' p) (j : Fin qs'.length) : qs'[j] ∉ qs ↔ ∀ i, p i ≠ j := by
  constructor
  · intro hj i e
    apply hj
    have := h i
    subst e
    rw [this]
    exact List.getElem_mem _
  · intro hj hm
    obtain ⟨i, hi, e⟩ := List.mem_iff_getElem.1 hm
    exact hj ⟨i, hi⟩ (Fin.ext ((List.Nodup.getElem_inj_iff hnd).1 ((h ⟨i, hi⟩).trans e)))

theorem zero_split {qs qs' : List Nat} (hnd : qs'.Nodup) {p : _} (h : Positions qs qs' p) (x : Basis qs'.length) :
    (x = fun _ => false) ↔ (x ∘ p = fun _ => false) ∧ ∀ j, qs'[j] ∉ qs → x j = false := by
  constructor
  · rintro rfl
    exact ⟨rfl, fun _ _ => rfl⟩
  · rintro ⟨h1, h2⟩
    funext j
    by_cases hj : qs'[j] ∉ qs
    · exact h2 j hj
    · rw [not_mem_iff hnd h] at hj
      push Not at hj
      obtain ⟨i, rfl⟩ := hj
      exact congrFun h1 i

theorem idle_outside {qs qs' : List Nat} (hnd : qs'.Nodup) {p : _} (h : Positions qs qs' p) : Outside p (idleAmp qs qs') := by
  intro x y e
  unfold idleAmp
  congr 1
  refine propext (forall_congr' fun j => forall_congr' fun hj => ?_)
  rw [e j ((not_mem_iff hnd h j).1 hj)]

theorem idle_weight {qs qs' : List Nat} (hnd : qs'.Nodup) {p : _} (h : Positions qs qs' p) :
    weight p (fun x => Complex.normSq (idleAmp qs qs' x)) = 1 := by
  classical
  unfold weight
  have : ∀ x : Basis qs'.length, (if x ∘ p = (fun _ => false) then Complex.normSq (idleAmp qs qs' x) else 0) = if x = (fun _ => false) then (1 : ℝ) else 0 := by
    intro x
    have hz := zero_split hnd h x
    unfold idleAmp
    by_cases h1 : x ∘ p = (fun _ => false) <;> by_cases h2 : ∀ j, qs'[j] ∉ qs → x j = false
    · rw [if_pos h1, if_pos h2, if_pos (hz.2 ⟨h1, h2⟩), map_one]
    · rw [if_pos h1, if_neg h2, if_neg (fun h => h2 (hz.1 h).2), map_zero]
    · rw [if_neg h1, if_neg (fun h => h1 (hz.1 h).1)]
    · rw [if_neg h1, if_neg (fun h => h1 (hz.1 h).1)]
  simp only [this, Finset.sum_ite_eq', Finset.mem_univ, if_true]

theorem merge_zero {qs qs' : List Nat} (hnd : qs'.Nodup) {p : _} (h : Positions qs qs' p) : merge p (idleAmp qs qs') (zeroState _) = zeroState _ := by
  funext x
  unfold merge zeroState idleAmp
  have hz := zero_split hnd h x
  by_cases h1 : x ∘ p = (fun _ => false) <;> by_cases h2 : ∀ j, qs'[j] ∉ qs → x j = false
  · rw [if_pos h1, if_pos h2, if_pos (hz.2 ⟨h1, h2⟩), one_mul]
  · rw [if_pos h1, if_neg h2, if_neg (fun h => h2 (hz.1 h).2), mul_zero]
  · rw [if_neg h1, if_neg (fun h => h1 (hz.1 h).1), zero_mul]
  · rw [if_neg h1, if_neg (fun h => h1 (hz.1 h).1), zero_mul]

theorem op_more {qs qs' : List Nat} {os os' : List SOp} (h : ∀ q ∈ qs, q ∈ qs') {op : SOp} (ho : GateOp ⟨qs, os⟩ op ∨ MeasureOp ⟨qs, os⟩ op) :
    GateOp ⟨qs', os'⟩ op ∨ MeasureOp ⟨qs', os'⟩ op := by
  rcases ho with ho | ho
  · exact .inl ⟨ho.1, ho.2.1, ho.2.2.1, fun q hq => h q (ho.2.2.2 q hq)⟩
  · exact .inr ⟨ho.1, fun q hq => h q (ho.2 q hq)⟩

/-- **C108.** Adding qubits to a circuit that no operation uses, or adding its qubits in another order, changes nothing: same bits, same random numbers, and the
state is the same on the old qubits, with the additional ones in state 0. -/
theorem C108_unused (qs qs' : List Nat) (ops : List SOp) (hq : GoodQubits ⟨qs, ops⟩) (hq' : GoodQubits ⟨qs', ops⟩) (hsub : ∀ q ∈ qs, q ∈ qs')
    (hops : ∀ op ∈ ops, GateOp ⟨qs, ops⟩ op ∨ MeasureOp ⟨qs, ops⟩ op) (u : Nat → ℝ) (hu : Uniform u) (bits : Nat → Option Bool)
    (records : Nat → Record) :
    ∃ w w', simulate u ⟨qs, ops⟩ false bits records = .ok (some w) ∧ simulate u ⟨qs', ops⟩ false bits records = .ok (some w') ∧
      w'.bits = w.bits ∧ w'.drawn = w.drawn ∧ WithIdle qs qs' w.mem w'.mem := by
  obtain ⟨w, s, a1, a2, a3, a4, a5⟩ := C76_refines ⟨qs, ops⟩ hq u bits records hops hu
  obtain ⟨w', s', b1, b2, b3, b4, b5⟩ := C76_refines ⟨qs', ops⟩ hq' u bits records (fun op ho => op_more hsub (hops op ho)) hu
  obtain ⟨p, hp⟩ := positions_exists hsub
  have e := exec_merge (c := ⟨qs, ops⟩) (c' := ⟨qs', ops⟩) hq.1 hp (idle_outside hq'.1 hp) (idle_weight hq'.1 hp) a2
  have e0 : mergeState p (idleAmp qs qs') ⟨zeroState _, bits, 0⟩ = ⟨zeroState _, bits, 0⟩ := by
    unfold mergeState
    rw [merge_zero hq'.1 hp]
  rw [e0] at e
  have := exec_det hq'.1 b2 e
  subst this
  refine ⟨w, w', a1, b1, b4.trans a4.symm, b5.trans a5.symm, p, hp, b3.1, fun x => ?_⟩
  rw [b3.2 x]
  show some (s.ψ (x ∘ p) * idleAmp qs qs' x) = _
  unfold idleAmp
  by_cases h : ∀ j, qs'[j] ∉ qs → x j = false
  · rw [if_pos h, if_pos h, a3.2, mul_one]
  · rw [if_neg h, if_neg h, mul_zero]

/-- **C109.** If the second part of a circuit uses none of the qubits of the first part, the result of the simulation is the product of the two states: the second part
can be simulated on its own, starting with the bits and the remaining random numbers the first part leaves. -/
theorem C109_independent (qs qs1 qs2 : List Nat) (hperm : qs.Perm (qs1 ++ qs2)) (A B : List SOp) (hq : GoodQubits ⟨qs, A ++ B⟩)
    (h1 : 1 ≤ qs1.length) (h2 : 1 ≤ qs2.length) (hA : ∀ op ∈ A, GateOp ⟨qs1, A⟩ op ∨ MeasureOp ⟨qs1, A⟩ op)
    (hB : ∀ op ∈ B, GateOp ⟨qs2, B⟩ op ∨ MeasureOp ⟨qs2, B⟩ op) (u : Nat → ℝ) (hu : Uniform u) (bits : Nat → Option Bool)
    (records records1 records2 : Nat → Record) :
    ∃ w w1 w2, simulate u ⟨qs, A ++ B⟩ false bits records = .ok (some w) ∧ simulate u ⟨qs1, A⟩ false bits records1 = .ok (some w1) ∧
      simulate (fun i => u (w1.drawn + i)) ⟨qs2, B⟩ false w1.bits records2 = .ok (some w2) ∧
      w.bits = w2.bits ∧ w.drawn = w1.drawn + w2.drawn ∧ IsProduct qs qs1 qs2 w.mem w1.mem w2.mem := by
  have hl : qs.length = qs1.length + qs2.length := by rw [hperm.length_eq, List.length_append]
  have hnd := hperm.nodup_iff.1 hq.1
  have hn := hq.2.2
  change qs.length ≤ 30 at hn
  have hnd1 := (List.nodup_append.1 hnd).1
  have hnd2 := (List.nodup_append.1 hnd).2.1
  have hdis := (List.nodup_append.1 hnd).2.2
  have sub1 : ∀ q ∈ qs1, q ∈ qs := fun q h => hperm.mem_iff.2 (List.mem_append_left _ h)
  have sub2 : ∀ q ∈ qs2, q ∈ qs := fun q h => hperm.mem_iff.2 (List.mem_append_right _ h)
  obtain ⟨w1, s1, a1, a2, a3, a4, a5, a6⟩ := simulate_all (c := ⟨qs1, A⟩) ⟨hnd1, h1, by show qs1.length ≤ 30; omega⟩ hA u hu bits records1
  obtain ⟨w2, s2, b1, b2, b3, b4, b5⟩ := C76_refines ⟨qs2, B⟩ ⟨hnd2, h2, by show qs2.length ≤ 30; omega⟩ (fun i => u (w1.drawn + i)) w1.bits records2 hB
    (fun i => hu _)
  obtain ⟨w, s, c1, c2, c3, c4, c5⟩ := C76_refines ⟨qs, A ++ B⟩ hq u bits records (fun op ho => (List.mem_append.1 ho).elim
    (fun h => op_more sub1 (hA op h)) fun h => op_more sub2 (hB op h)) hu
  obtain ⟨p1, hp1⟩ := positions_exists sub1
  obtain ⟨p2, hp2⟩ := positions_exists sub2
  have hndq : qs.Nodup := hq.1
  have e := exec_merge (c := ⟨qs1, A⟩) (c' := ⟨qs, A ++ B⟩) hnd1 hp1 (idle_outside hndq hp1) (idle_weight hndq hp1) a2
  have f := exec_later w1.drawn b2
  have out2 : Outside p2 fun x : Basis qs.length => s1.ψ (x ∘ p1) := by
    intro x y hxy
    dsimp only
    congr 1
    funext i
    refine hxy (p1 i) fun k hk => ?_
    have e1 := hp1 i
    have e2 := hp2 k
    have e3 : qs1[i] = qs2[k] := by rw [← e1, ← e2]; exact congrArg (fun j => qs[j]) hk.symm
    exact hdis _ (List.getElem_mem i.2) _ (List.getElem_mem k.2) e3
  have zero2 : ∀ x : Basis qs.length, (x ∘ p2 = fun _ => false) ↔ ∀ j, qs[j] ∉ qs1 → x j = false := by
    intro x
    constructor
    · intro hx j hj
      have : qs[j] ∈ qs2 := (List.mem_append.1 (hperm.mem_iff.1 (List.getElem_mem j.2))).resolve_left hj
      obtain ⟨k, hk, e⟩ := List.mem_iff_getElem.1 this
      have : p2 ⟨k, hk⟩ = j := Fin.ext ((List.Nodup.getElem_inj_iff hndq).1 ((hp2 ⟨k, hk⟩).trans e))
      rw [← this]
      exact congrFun hx ⟨k, hk⟩
    · intro hx
      funext k
      refine hx (p2 k) fun hm => ?_
      rw [hp2 k] at hm
      exact hdis _ hm _ (List.getElem_mem k.2) rfl
  have wt2 : weight p2 (fun x : Basis qs.length => Complex.normSq (s1.ψ (x ∘ p1))) = 1 := by
    have hs := sum_merge (positions_injective hnd1 hp1) (h := fun x => Complex.normSq (idleAmp qs1 qs x))
      (fun x y h => by dsimp only; rw [idle_outside hndq hp1 x y h]) fun y => Complex.normSq (s1.ψ y)
    rw [idle_weight hndq hp1, mul_one] at hs
    have a6' : ∑ y, Complex.normSq (s1.ψ y) = 1 := a6
    rw [a6'] at hs
    rw [← hs]
    unfold weight
    refine Finset.sum_congr rfl fun x _ => ?_
    unfold idleAmp
    by_cases hx : x ∘ p2 = fun _ => false
    · rw [if_pos hx, if_pos ((zero2 x).1 hx), map_one, mul_one]
    · rw [if_neg hx, if_neg (fun h => hx ((zero2 x).2 h)), map_zero, mul_zero]
  have g := exec_merge (c := ⟨qs2, B⟩) (c' := ⟨qs, A ++ B⟩) hnd2 hp2 (φ := fun x : Basis qs.length => s1.ψ (x ∘ p1)) out2 wt2 f
  have e0 : mergeState p1 (idleAmp qs1 qs) ⟨zeroState _, bits, 0⟩ = ⟨zeroState _, bits, 0⟩ := by
    unfold mergeState
    rw [merge_zero hndq hp1]
  rw [e0] at e
  have em : mergeState p1 (idleAmp qs1 qs) s1 = mergeState p2 (fun x : Basis qs.length => s1.ψ (x ∘ p1))
      { (⟨zeroState _, w1.bits, 0⟩ : SimState qs2.length) with drawn := w1.drawn + 0 } := by
    unfold mergeState
    rw [a4, a5]
    congr 1
    funext x
    show s1.ψ (x ∘ p1) * idleAmp qs1 qs x = zeroState _ (x ∘ p2) * s1.ψ (x ∘ p1)
    unfold idleAmp zeroState
    by_cases hx : x ∘ p2 = fun _ => false
    · rw [if_pos hx, if_pos ((zero2 x).1 hx), mul_one, one_mul]
    · rw [if_neg hx, if_neg (fun h => hx ((zero2 x).2 h)), mul_zero, zero_mul]
  rw [em] at e
  have := exec_det hndq c2 (exec_append e g)
  subst this
  refine ⟨w, w1, w2, c1, a1, b1, c4.trans b4.symm, ?_, p1, p2, hp1, hp2, c3.1, fun x => ⟨_, _, a3.2 _, b3.2 _, ?_⟩⟩
  · rw [c5, b5]
    rfl
  · rw [c3.2 x]
    show some (s2.ψ (x ∘ p2) * s1.ψ (x ∘ p1)) = _
    rw [mul_comm]

/-! ## Cases -/

/-- A measurement of qubit 7, and a gate that depends on it, in a circuit with two additional qubits, with the qubits in another order. -/
theorem C108_demo (u : Nat → ℝ) (hu : Uniform u) (bits : Nat → Option Bool) (records : Nat → Record) :
    let ops : List SOp := [{ oid := 1, kind := .single .hadamard, qubits := [7] }, { oid := 2, kind := .controlled 1 .x, qubits := [7, 4] },
      { oid := 3, kind := .measurement, qubits := [7], bits := some [0] }, { oid := 4, kind := .single .x, qubits := [4], cond := some [0] }]
    ∃ w w', simulate u ⟨[4, 7], ops⟩ false bits records = .ok (some w) ∧ simulate u ⟨[7, 1, 4, 2], ops⟩ false bits records = .ok (some w') ∧
      w'.bits = w.bits ∧ w'.drawn = w.drawn ∧ WithIdle [4, 7] [7, 1, 4, 2] w.mem w'.mem := by
  intro ops
  refine C108_unused [4, 7] [7, 1, 4, 2] ops ⟨by decide, by decide, by decide⟩ ⟨by decide, by decide, by decide⟩ (by decide) ?_ u hu bits records
  intro op ho
  simp only [ops, List.mem_cons, List.not_mem_nil, or_false] at ho
  rcases ho with rfl | rfl | rfl | rfl
  · exact .inl ⟨trivial, rfl, by decide, by decide⟩
  · exact .inl ⟨⟨rfl, trivial⟩, rfl, by decide, by decide⟩
  · exact .inr ⟨rfl, by decide⟩
  · exact .inl ⟨trivial, rfl, by decide, by decide⟩

/-- A measurement in the first part, and a gate that depends on it in the second part. -/
theorem C109_demo (u : Nat → ℝ) (hu : Uniform u) (bits : Nat → Option Bool) (records : Nat → Record) :
    let A : List SOp := [{ oid := 1, kind := .single .hadamard, qubits := [7] }, { oid := 3, kind := .measurement, qubits := [7], bits := some [0] }]
    let B : List SOp := [{ oid := 4, kind := .single .x, qubits := [4], cond := some [0] }, { oid := 5, kind := .measurement, qubits := [4], bits := some [1] }]
    ∃ w w1 w2, simulate u ⟨[4, 7], A ++ B⟩ false bits records = .ok (some w) ∧ simulate u ⟨[7], A⟩ false bits records = .ok (some w1) ∧
      simulate (fun i => u (w1.drawn + i)) ⟨[4], B⟩ false w1.bits records = .ok (some w2) ∧
      w.bits = w2.bits ∧ w.drawn = w1.drawn + w2.drawn ∧ IsProduct [4, 7] [7] [4] w.mem w1.mem w2.mem := by
  intro A B
  refine C109_independent [4, 7] [7] [4] (by decide) A B ⟨by decide, by decide, by decide⟩ (by decide) (by decide) ?_ ?_ u hu bits records records records
  · intro op ho
    simp only [A, List.mem_cons, List.not_mem_nil, or_false] at ho
    rcases ho with rfl | rfl
    · exact .inl ⟨trivial, rfl, by decide, by decide⟩
    · exact .inr ⟨rfl, by decide⟩
  · intro op ho
    simp only [B, List.mem_cons, List.not_mem_nil, or_false] at ho
    rcases ho with rfl | rfl
    · exact .inl ⟨trivial, rfl, by decide, by decide⟩
    · exact .inr ⟨rfl, by decide⟩

end DG.Props
