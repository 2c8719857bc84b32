import Verif.Props.Unitary

/-! # C61 — the keyword argument `qubits` of controlled operations: how the qubits are split -/

namespace DG.Props
open DG.Arity

/-- **C61, keyword argument (part).** `Cls(qubits=[...])` of a controlled class with `nc` controls and `nt` targets declared: after every history in which `num_qubits` has been read,
`m` qubits are accepted iff `m = nc + nt`, and then the first `nc` are the controls and the other `nt` the targets. -/
theorem C61_keyword_partial (nc nt : Nat) (hc : 1 ≤ nc) (ht : 1 ≤ nt) (h : List Event) (hr : .readNumQubits ∈ h) (active : Bool) (m : Nat) (hm : 1 ≤ m) :
    (construct (run ⟨true, none, some nc, some nt⟩ h) active (.qubits (some m))).1 =
      if m = nc + nt then .ok ⟨some m, some nc, some nt⟩ else .error .valueError := by
  have hs := (run_settled hc ht h (c := ⟨true, none, some nc, some nt⟩) ⟨rfl, rfl, rfl, .inl rfl⟩).2 (.inl hr)
  generalize run ⟨true, none, some nc, some nt⟩ h = c at *
  obtain ⟨m, rfl⟩ := Nat.exists_eq_add_of_le' hm
  have hck := ((checkQubits_declared hc ht (settled_declared hs) (m + 1)).2 hs).2
  unfold construct
  rw [if_pos hs.1]
  have hn : c.numControl = some nc := (settled_declared hs).2.1
  have hsp : splitArgs c (.qubits (some (m + 1))) = (truthy (some (min nc (m + 1))), truthy (some (m + 1 - nc)), some (m + 1)) := by
    simp only [splitArgs, truthy, hn, slices]
  rw [hsp]
  unfold initOperation
  dsimp only
  cases hq : checkQubits c (m + 1) with
  | mk r c' =>
    rw [hq] at hck
    simp only at hck
    subst hck
    by_cases he : m + 1 = nc + nt
    · have h1 : min nc (m + 1) = nc := by omega
      have h2 : m + 1 - nc = nt := by omega
      obtain ⟨a, rfl⟩ := Nat.exists_eq_add_of_le' hc
      obtain ⟨b, rfl⟩ := Nat.exists_eq_add_of_le' ht
      simp [h1, h2, he, truthy]
    · simp [he]

/-- Before `num_qubits` is read any number of qubits is accepted: the first `nc`, or all if there are fewer, are the controls, and the others, if any, the targets. -/
theorem C61_keyword_violated (nc nt : Nat) (hc : 1 ≤ nc) (active : Bool) (m : Nat) (hm : 1 ≤ m) :
    (construct ⟨true, none, some nc, some nt⟩ active (.qubits (some m))).1 = .ok ⟨some m, some (min nc m), if nc < m then some (m - nc) else none⟩ := by
  obtain ⟨m, rfl⟩ := Nat.exists_eq_add_of_le' hm
  obtain ⟨a, rfl⟩ := Nat.exists_eq_add_of_le' hc
  have e1 : truthy (some (min (a + 1) (m + 1))) = some (min (a + 1) (m + 1)) := by
    obtain ⟨k, hk⟩ : ∃ k, min (a + 1) (m + 1) = k + 1 := ⟨min a m, by omega⟩
    rw [hk]; rfl
  have e2 : truthy (some (m + 1 - (a + 1))) = if a + 1 < m + 1 then some (m + 1 - (a + 1)) else none := by
    split
    · obtain ⟨k, hk⟩ : ∃ k, m + 1 - (a + 1) = k + 1 := ⟨m - a - 1, by omega⟩
      rw [hk]; rfl
    · have : m + 1 - (a + 1) = 0 := by omega
      rw [this]; rfl
  rw [← e1, ← e2]
  rfl

example : (construct (run ⟨true, none, some 2, some 1⟩ [.readNumQubits]) false (.qubits (some 3))).1 = .ok ⟨some 3, some 2, some 1⟩ := rfl

end DG.Props
