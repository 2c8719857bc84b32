import Verif.Props.Merge
import Verif.Props.Classical

/-! Density-matrix simulations: unused qubits (C108), independent parts (C109), classical gates (C115). -/

noncomputable section

namespace DG.Props
open Complex DG.Sim DG.Spec DG.Classic

theorem exec_drawn {c : SCircuit} {u : Nat → ℝ} {ops : List SOp} {s s' : SimState c.qubits.length} (h : Exec c u ops s s')
    (hg : ∀ op ∈ ops, GateOp c op) : s'.drawn = s.drawn ∧ s'.bits = s.bits := by
  induction h with
  | nil => exact ⟨rfl, rfl⟩
  | @cons op ops s s1 s2 hst _ ih =>
    have h1 := ih fun o ho => hg o (List.mem_cons_of_mem _ ho)
    have h0 := (hg op List.mem_cons_self).1
    cases hst with
    | blocked _ => exact h1
    | gate _ _ _ => exact h1
    | measure _ hk _ => rw [hk] at h0; exact absurd h0 id

/-- **C108.** In simulations of the density matrix, unused qubits and the order of the qubits make no difference either: the entry for two lists of values
of the qubits is the one of the values of the qubits in use, if the unused qubits have the value 0, and 0 otherwise. -/
theorem C108_density (qs qs' : List Nat) (ops : List SOp) (hnd : qs.Nodup) (h1 : 1 ≤ qs.length) (hnd' : qs'.Nodup) (hn' : qs'.length ≤ 15)
    (hsub : ∀ q ∈ qs, q ∈ qs') (hops : ∀ op ∈ ops, GateOp ⟨qs, ops⟩ op) (u : Nat → ℝ) (hu : Uniform u) (bits : Nat → Option Bool)
    (records : Nat → Record) :
    ∃ v v' p, simulateMixed u ⟨qs, ops⟩ false bits records = .ok (some v) ∧ simulateMixed u ⟨qs', ops⟩ false bits records = .ok (some v') ∧
      Positions qs qs' p ∧ v'.mem.length = 2 ^ qs'.length * 2 ^ qs'.length ∧
      ∀ x y : Basis qs'.length, v'.mem[index false x * 2 ^ qs'.length + index false y]? =
        if ∀ j, qs'[j] ∉ qs → x j = false ∧ y j = false then v.mem[index false (x ∘ p) * 2 ^ qs.length + index false (y ∘ p)]? else some 0 := by
  have hle : qs.length ≤ qs'.length := (List.subperm_of_subset hnd hsub).length_le
  have hops' : ∀ op ∈ ops, GateOp ⟨qs', ops⟩ op := fun op ho => ⟨(hops op ho).1, (hops op ho).2.1, (hops op ho).2.2.1, fun q hq => hsub q ((hops op ho).2.2.2 q hq)⟩
  obtain ⟨w, w', a1, a2, -, -, p, hp, hl, hx⟩ := C108_unused qs qs' ops ⟨hnd, h1, by show qs.length ≤ 30; omega⟩
    ⟨hnd', by show 1 ≤ qs'.length; omega, by show qs'.length ≤ 30; omega⟩ hsub (fun op ho => .inl (hops op ho)) u hu bits records
  obtain ⟨v0, v, b1, b2, b4⟩ := C50_big_endian ⟨qs, ops⟩ hnd h1 (by show qs.length ≤ 15; omega) hops u false bits records
  obtain ⟨v0', v', c1, c2, c3, -⟩ := C50_density_partial ⟨qs', ops⟩ hnd' (by show 1 ≤ qs'.length; omega) hn' hops' u bits records
  obtain ⟨v1, v1', d1, d2, c4⟩ := C50_big_endian ⟨qs', ops⟩ hnd' (by show 1 ≤ qs'.length; omega) hn' hops' u false bits records
  obtain rfl : v0 = w := by rw [a1] at b1; cases b1; rfl
  obtain rfl : v1 = w' := by rw [a2] at d1; cases d1; rfl
  obtain rfl : v1' = v' := by rw [c2] at d2; cases d2; rfl
  refine ⟨v, v1', p, b2, c2, hp, c3, fun x y => ?_⟩
  obtain ⟨a, b, e1, e2, e3⟩ := c4 x y
  obtain ⟨a', b', f1, f2, f3⟩ := b4 (x ∘ p) (y ∘ p)
  refine e3.trans ?_
  have hx1 := (hx x).symm.trans e1
  have hy1 := (hx y).symm.trans e2
  by_cases h : ∀ j, qs'[j] ∉ qs → x j = false ∧ y j = false
  · rw [if_pos h]
    rw [if_pos fun j hj => (h j hj).1, f1] at hx1
    rw [if_pos fun j hj => (h j hj).2, f2] at hy1
    cases hx1; cases hy1
    exact f3.symm
  · rw [if_neg h]
    by_cases hx0 : ∀ j, qs'[j] ∉ qs → x j = false
    · have hy0 : ¬ ∀ j, qs'[j] ∉ qs → y j = false := fun hy => h fun j hj => ⟨hx0 j hj, hy j hj⟩
      rw [if_neg hy0] at hy1
      cases hy1; simp
    · rw [if_neg hx0] at hx1
      cases hx1; simp

/-- **C109.** If the second part of a circuit of gates uses none of the qubits of the first part, the density matrix is the product of the density matrices of
the two parts. -/
theorem C109_density (qs qs1 qs2 : List Nat) (hperm : qs.Perm (qs1 ++ qs2)) (A B : List SOp) (hnd : qs.Nodup) (hn : qs.length ≤ 15)
    (h1 : 1 ≤ qs1.length) (h2 : 1 ≤ qs2.length) (hA : ∀ op ∈ A, GateOp ⟨qs1, A⟩ op) (hB : ∀ op ∈ B, GateOp ⟨qs2, B⟩ op) (u : Nat → ℝ)
    (hu : Uniform u) (bits : Nat → Option Bool) (records records1 records2 : Nat → Record) :
    ∃ v v1 v2 p1 p2, simulateMixed u ⟨qs, A ++ B⟩ false bits records = .ok (some v) ∧ simulateMixed u ⟨qs1, A⟩ false bits records1 = .ok (some v1) ∧
      simulateMixed u ⟨qs2, B⟩ false bits records2 = .ok (some v2) ∧ Positions qs1 qs p1 ∧ Positions qs2 qs p2 ∧
      v.mem.length = 2 ^ qs.length * 2 ^ qs.length ∧
      ∀ x y : Basis qs.length, ∃ a b, v1.mem[index false (x ∘ p1) * 2 ^ qs1.length + index false (y ∘ p1)]? = some a ∧
        v2.mem[index false (x ∘ p2) * 2 ^ qs2.length + index false (y ∘ p2)]? = some b ∧
        v.mem[index false x * 2 ^ qs.length + index false y]? = some (a * b) := by
  have hl : qs.length = qs1.length + qs2.length := by rw [hperm.length_eq, List.length_append]
  have hnd12 := hperm.nodup_iff.1 hnd
  have hnd1 := (List.nodup_append.1 hnd12).1
  have hnd2 := (List.nodup_append.1 hnd12).2.1
  have hAB : ∀ op ∈ A ++ B, GateOp ⟨qs, A ++ B⟩ op := by
    intro op ho
    rcases List.mem_append.1 ho with h | h
    · exact ⟨(hA op h).1, (hA op h).2.1, (hA op h).2.2.1, fun q hq => hperm.mem_iff.2 (List.mem_append_left _ ((hA op h).2.2.2 q hq))⟩
    · exact ⟨(hB op h).1, (hB op h).2.1, (hB op h).2.2.1, fun q hq => hperm.mem_iff.2 (List.mem_append_right _ ((hB op h).2.2.2 q hq))⟩
  obtain ⟨w, w1, w2, a1, a2, a3, -, -, p1, p2, hp1, hp2, -, hx⟩ := C109_independent qs qs1 qs2 hperm A B ⟨hnd, by show 1 ≤ qs.length; omega, by show qs.length ≤ 30; omega⟩
    h1 h2 (fun op h => .inl (hA op h)) (fun op h => .inl (hB op h)) u hu bits records records1 records2
  have hw1 : w1.bits = bits ∧ w1.drawn = 0 := by
    obtain ⟨w', s, e1, e2, e3, e4, e5⟩ := C76_refines ⟨qs1, A⟩ ⟨hnd1, h1, by show qs1.length ≤ 30; omega⟩ u bits records1 (fun op h => .inl (hA op h)) hu
    have hd := exec_drawn e2 hA
    rw [a2] at e1
    cases e1
    exact ⟨e4.trans hd.2, e5.trans hd.1⟩
  rw [hw1.1, hw1.2] at a3
  simp only [Nat.zero_add] at a3
  obtain ⟨t, v, b1, b2, b3⟩ := C50_big_endian ⟨qs, A ++ B⟩ hnd (by show 1 ≤ qs.length; omega) hn hAB u false bits records
  obtain ⟨_, v', _, b2', b3', -⟩ := C50_density_partial ⟨qs, A ++ B⟩ hnd (by show 1 ≤ qs.length; omega) hn hAB u bits records
  obtain ⟨t1, v1, c1, c2, c3⟩ := C50_big_endian ⟨qs1, A⟩ hnd1 h1 (by show qs1.length ≤ 15; omega) hA u false bits records1
  obtain ⟨t2, v2, d1, d2, d3⟩ := C50_big_endian ⟨qs2, B⟩ hnd2 h2 (by show qs2.length ≤ 15; omega) hB u false bits records2
  obtain rfl : t = w := by rw [a1] at b1; cases b1; rfl
  obtain rfl : t1 = w1 := by rw [a2] at c1; cases c1; rfl
  obtain rfl : t2 = w2 := by rw [a3] at d1; cases d1; rfl
  obtain rfl : v' = v := by rw [b2] at b2'; cases b2'; rfl
  refine ⟨v', v1, v2, p1, p2, b2, c2, d2, hp1, hp2, b3', fun x y => ?_⟩
  obtain ⟨xa, xb, x1, x2, x3⟩ := hx x
  obtain ⟨ya, yb, y1, y2, y3⟩ := hx y
  obtain ⟨a, b, e1, e2, e3⟩ := b3 x y
  obtain ⟨a', b', f1, f2, f3⟩ := c3 (x ∘ p1) (y ∘ p1)
  obtain ⟨a'', b'', g1, g2, g3⟩ := d3 (x ∘ p2) (y ∘ p2)
  refine ⟨_, _, f3, g3, e3.trans ?_⟩
  rw [x1] at f1; cases f1
  rw [y1] at f2; cases f2
  rw [x2] at g1; cases g1
  rw [y2] at g2; cases g2
  rw [x3] at e1; cases e1
  rw [y3] at e2; cases e2
  simp only [star_mul']
  congr 1
  ring

/-- **C115.** In the simulation of the density matrix of a circuit of classical gates, the entry of the computed values of the qubits is 1 and all others
are 0, also if gates make a phase. -/
theorem C115_density (c : SCircuit) (hnd : c.qubits.Nodup) (h1 : 1 ≤ c.qubits.length) (hn : c.qubits.length ≤ 15)
    (hops : ∀ op ∈ c.ops, GateOp c op ∧ ClassicalOp op) (u : Nat → ℝ) (hu : Uniform u) (bits : Nat → Option Bool) (records : Nat → Record) :
    ∃ v, simulateMixed u c false bits records = .ok (some v) ∧ ∀ x y : Basis c.qubits.length,
      v.mem[index false x * 2 ^ c.qubits.length + index false y]? =
        some (if (x = fun i => (classicalRun c.ops bits).qubits (qubitAt c i)) ∧ (y = fun i => (classicalRun c.ops bits).qubits (qubitAt c i)) then 1 else 0) := by
  obtain ⟨w, z, a1, -, a2, a3, -⟩ := C115_classical c ⟨hnd, h1, by omega⟩ (fun op ho => .inl (hops op ho)) u hu bits records
  obtain ⟨t, v, b1, b2, b3⟩ := C50_big_endian c hnd h1 hn (fun op ho => (hops op ho).1) u false bits records
  obtain rfl : t = w := by rw [a1] at b1; cases b1; rfl
  refine ⟨v, b2, fun x y => ?_⟩
  obtain ⟨a, b, e1, e2, e3⟩ := b3 x y
  rw [a2] at e1 e2
  cases e1; cases e2
  refine e3.trans ?_
  have hz : z * star z = 1 := by
    have := Complex.mul_conj z
    rw [a3] at this
    simpa using this
  by_cases hx : x = fun i => (classicalRun c.ops bits).qubits (qubitAt c i)
  · by_cases hy : y = fun i => (classicalRun c.ops bits).qubits (qubitAt c i)
    · rw [if_pos hx, if_pos hy, if_pos ⟨hx, hy⟩, hz]
    · simp [hy]
  · simp [hx]

/-! ## Examples -/

example (u : Nat → ℝ) (hu : Uniform u) (bits : Nat → Option Bool) (records : Nat → Record) :
    let ops : List SOp := [{ oid := 1, kind := .single .hadamard, qubits := [7] }, { oid := 2, kind := .controlled 1 .x, qubits := [7, 4] }]
    ∃ v v', simulateMixed u ⟨[4, 7], ops⟩ false bits records = .ok (some v) ∧ simulateMixed u ⟨[7, 1, 4, 2], ops⟩ false bits records = .ok (some v') := by
  intro ops
  obtain ⟨v, v', _, h1, h2, -⟩ := C108_density [4, 7] [7, 1, 4, 2] ops (by decide) (by decide) (by decide) (by decide) (by decide) (by
    intro op ho
    simp only [ops, List.mem_cons, List.not_mem_nil, or_false] at ho
    rcases ho with rfl | rfl <;> exact ⟨by simp [Supported, Library], rfl, by decide, by decide⟩) u hu bits records
  exact ⟨v, v', h1, h2⟩

example (u : Nat → ℝ) (hu : Uniform u) (bits : Nat → Option Bool) (records : Nat → Record) :
    let A : List SOp := [{ oid := 1, kind := .single .hadamard, qubits := [7] }, { oid := 2, kind := .controlled 1 .x, qubits := [7, 4] }]
    let B : List SOp := [{ oid := 3, kind := .single .y, qubits := [5] }]
    ∃ v v1 v2, simulateMixed u ⟨[4, 5, 7], A ++ B⟩ false bits records = .ok (some v) ∧ simulateMixed u ⟨[7, 4], A⟩ false bits records = .ok (some v1) ∧
      simulateMixed u ⟨[5], B⟩ false bits records = .ok (some v2) := by
  intro A B
  obtain ⟨v, v1, v2, _, _, h1, h2, h3, -⟩ := C109_density [4, 5, 7] [7, 4] [5] (by decide) A B (by decide) (by decide) (by decide) (by decide) (by
    intro op ho
    simp only [A, List.mem_cons, List.not_mem_nil, or_false] at ho
    rcases ho with rfl | rfl <;> exact ⟨by simp [Supported, Library], rfl, by decide, by decide⟩) (by
    intro op ho
    simp only [B, List.mem_cons, List.not_mem_nil, or_false] at ho
    rcases ho with rfl
    exact ⟨by simp [Supported, Library], rfl, by decide, by decide⟩) u hu bits records records records
  exact ⟨v, v1, v2, h1, h2, h3⟩

end DG.Props
