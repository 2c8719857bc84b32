import Verif.Proofs.UnitaryWords

/-!
# Property C117: unitaries of sequences of operations

`Placed`, `Unsupported`, `Composed` (`Spec/Matrix.lean`) say how operations must be placed on the qubits of the circuit, which ones `build_unitary` cannot
handle, and what sequences of operations mean. `Same`, `EqualPhase`, `Undo` are the identities of C113 and C114.
-/

noncomputable section

namespace DG.Props
open DG.Spec DG.Sim DG.Unitary

/-- **C117.** The unitary of operations followed by other operations is the product of their unitaries, the second factor first. -/
theorem C117_compose (qs : List Nat) (hnd : qs.Nodup) (A B : List UOp) (hA : ∀ o ∈ A, Placed ⟨qs, []⟩ o ∧ Buildable o.kind)
    (hB : ∀ o ∈ B, Placed ⟨qs, []⟩ o ∧ Buildable o.kind) :
    ∃ M N P, buildUnitary ⟨qs, A⟩ = .ok M ∧ buildUnitary ⟨qs, B⟩ = .ok N ∧ buildUnitary ⟨qs, A ++ B⟩ = .ok P ∧
      M.dim = 2 ^ qs.length ∧ N.dim = 2 ^ qs.length ∧ P.dim = 2 ^ qs.length ∧
      ∀ i < 2 ^ qs.length, ∀ j < 2 ^ qs.length, P.e i j = ∑ k ∈ Finset.range (2 ^ qs.length), N.e i k * M.e k j := by
  obtain ⟨f, hf⟩ := composed_of_placed (c := ⟨qs, []⟩) A (fun o ho => (hA o ho).1) (fun o ho => (hA o ho).2)
  obtain ⟨g, hg⟩ := composed_of_placed (c := ⟨qs, []⟩) B (fun o ho => (hB o ho).1) (fun o ho => (hB o ho).2)
  obtain ⟨M, m1, m2⟩ := buildUnitary_acts (c := ⟨qs, A⟩) (f := f) hnd (composed_circuit (ops := []) hf)
  obtain ⟨N, n1, n2⟩ := buildUnitary_acts (c := ⟨qs, B⟩) (f := g) hnd (composed_circuit (ops := []) hg)
  obtain ⟨P, p1, p2⟩ := buildUnitary_acts (c := ⟨qs, A ++ B⟩) (f := g ∘ f) hnd (composed_circuit (ops := []) (composed_append hf hg))
  refine ⟨M, N, P, m1, n1, p1, m2.1, n2.1, p2.1, fun i hi j hj => ?_⟩
  obtain ⟨R, r1, r2⟩ := matmul_acts n2 m2
  have := (same_of_acts p2 r2).2 i (by rw [p2.1]; exact hi) j (by rw [p2.1]; exact hj)
  rw [this]
  unfold matmul at r1
  rw [if_pos (n2.1.trans m2.1.symm)] at r1
  cases r1
  show ∑ k ∈ Finset.range N.dim, N.e i k * M.e k j = _
  rw [n2.1]

/-- **C117.** Operations that mean the same can be exchanged anywhere in a circuit: `build_unitary` gives the same matrix, or raises the same
exception. -/
theorem C117_exchange (qs : List Nat) (hnd : qs.Nodup) (pre post A B : List UOp) (f : State qs.length ℂ → State qs.length ℂ)
    (hpre : ∀ o ∈ pre, Placed ⟨qs, []⟩ o) (hpost : ∀ o ∈ post, Placed ⟨qs, []⟩ o)
    (hA : Composed ⟨qs, []⟩ A f) (hB : Composed ⟨qs, []⟩ B f) :
    (∃ M N, buildUnitary ⟨qs, pre ++ A ++ post⟩ = .ok M ∧ buildUnitary ⟨qs, pre ++ B ++ post⟩ = .ok N ∧ SameMatrix M N ∧ M.dim = 2 ^ qs.length) ∨
    ∃ e, buildUnitary ⟨qs, pre ++ A ++ post⟩ = .error e ∧ buildUnitary ⟨qs, pre ++ B ++ post⟩ = .error e :=
  build_exchange hnd hpre hpost hA hB

/-- **C117.** With the identities between gates `build_unitary` gives the same matrix. -/
theorem C117_same (qs : List Nat) (hnd : qs.Nodup) (gates gates' : List (Kind × List (Fin qs.length))) (h : Same gates gates')
    (hb : ∀ g ∈ gates ++ gates', Buildable g.1) (A B : List UOp) (hA : FormedAs qs gates A) (hB : FormedAs qs gates' B) (pre post : List UOp)
    (hpre : ∀ o ∈ pre, Placed ⟨qs, []⟩ o ∧ Buildable o.kind) (hpost : ∀ o ∈ post, Placed ⟨qs, []⟩ o ∧ Buildable o.kind) :
    ∃ M N, buildUnitary ⟨qs, pre ++ A ++ post⟩ = .ok M ∧ buildUnitary ⟨qs, pre ++ B ++ post⟩ = .ok N ∧ SameMatrix M N ∧ M.dim = 2 ^ qs.length := by
  obtain ⟨f, h1, h2⟩ := same_runs h
  have cA := formed_composed [] h1 hA fun g hg => hb g (List.mem_append_left _ hg)
  have cB := formed_composed [] h2 hB fun g hg => hb g (List.mem_append_right _ hg)
  obtain ⟨f1, hf1⟩ := composed_of_placed (c := ⟨qs, []⟩) pre (fun o ho => (hpre o ho).1) (fun o ho => (hpre o ho).2)
  obtain ⟨f2, hf2⟩ := composed_of_placed (c := ⟨qs, []⟩) post (fun o ho => (hpost o ho).1) (fun o ho => (hpost o ho).2)
  obtain ⟨M, m1, m2⟩ := buildUnitary_acts (c := ⟨qs, pre ++ A ++ post⟩) (f := f2 ∘ f ∘ f1) hnd
    (composed_circuit (ops := []) (composed_append (composed_append hf1 cA) hf2))
  obtain ⟨N, n1, n2⟩ := buildUnitary_acts (c := ⟨qs, pre ++ B ++ post⟩) (f := f2 ∘ f ∘ f1) hnd
    (composed_circuit (ops := []) (composed_append (composed_append hf1 cB) hf2))
  exact ⟨M, N, m1, n1, same_of_acts m2 n2, m2.1⟩

/-- **C117.** With the identities that hold up to a global phase, `build_unitary` gives the same matrix up to a factor of modulus 1. -/
theorem C117_phase (qs : List Nat) (hnd : qs.Nodup) (bs bs' : List Base) (h : EqualPhase bs bs') (t : Fin qs.length) (A B : List UOp)
    (hA : FormedAs qs (bs.map fun b => (.single b, [t])) A) (hB : FormedAs qs (bs'.map fun b => (.single b, [t])) B) :
    ∃ M N z, buildUnitary ⟨qs, A⟩ = .ok M ∧ buildUnitary ⟨qs, B⟩ = .ok N ∧ M.dim = 2 ^ qs.length ∧ N.dim = 2 ^ qs.length ∧ Complex.normSq z = 1 ∧
      ∀ i < 2 ^ qs.length, ∀ j < 2 ^ qs.length, N.e i j = z * M.e i j := by
  obtain ⟨z, G, H, h1, h2, h3, h4⟩ := phase_product h
  have hl := phase_library h
  have bld : ∀ b, Library b → Buildable (.single b) := by
    intro b hb e he
    cases he with
    | «variable» hv =>
      have num : ∀ p : Param, Param.isNum p → ∃ r, p = .num r := fun p hp => by cases p <;> simp [Param.isNum] at hp ⊢
      cases b with
      | rx p => obtain ⟨r, rfl⟩ := num p hb; exact hv rfl
      | ry p => obtain ⟨r, rfl⟩ := num p hb; exact hv rfl
      | rz p => obtain ⟨r, rfl⟩ := num p hb; exact hv rfl
      | rotation p q r =>
        obtain ⟨x, rfl⟩ := num p hb.1
        obtain ⟨y, rfl⟩ := num q hb.2.1
        obtain ⟨z, rfl⟩ := num r hb.2.2
        exact hv rfl
      | _ => exact hv rfl
  have cA := formed_composed [] (product_runs t h1) hA (by
    intro g hg
    obtain ⟨b, hb, rfl⟩ := List.mem_map.1 hg
    exact bld b (hl.1 b hb))
  have cB := formed_composed [] (product_runs t h2) hB (by
    intro g hg
    obtain ⟨b, hb, rfl⟩ := List.mem_map.1 hg
    exact bld b (hl.2 b hb))
  obtain ⟨M, m1, m2⟩ := buildUnitary_acts (c := ⟨qs, A⟩) (f := applyGate t G) hnd (composed_circuit (ops := []) cA)
  obtain ⟨N, n1, n2⟩ := buildUnitary_acts (c := ⟨qs, B⟩) (f := applyGate t H) hnd (composed_circuit (ops := []) cB)
  refine ⟨M, N, z, m1, n1, m2.1, n2.1, h3, fun i hi j hj => ?_⟩
  have hz : ActsAs qs.length ⟨M.dim, fun i j => z * M.e i j⟩ (applyGate t H) := by
    refine ⟨m2.1, fun ψ x => ?_⟩
    have e : applyGate t H ψ x = z * applyGate t G ψ x := by
      simp only [applyGate, h4, Fintype.sum_bool]; ring
    rw [e, m2.2, Finset.mul_sum]
    exact Finset.sum_congr rfl fun y _ => by ring
  exact (same_of_acts n2 hz).2 i (by rw [n2.1]; exact hi) j (by rw [n2.1]; exact hj)

/-- **C117.** Operations followed by the operations that undo them: `build_unitary` gives the identity matrix. -/
theorem C117_undo (qs : List Nat) (hnd : qs.Nodup) (gates gates' : List (Kind × List (Fin qs.length))) (h : Undo gates gates')
    (hb : ∀ g ∈ gates, Buildable g.1) (A B : List UOp) (hA : FormedAs qs gates A) (hB : FormedAs qs gates' B) :
    ∃ M, buildUnitary ⟨qs, A ++ B⟩ = .ok M ∧ M.dim = 2 ^ qs.length ∧
      ∀ i < 2 ^ qs.length, ∀ j < 2 ^ qs.length, M.e i j = if i = j then 1 else 0 := by
  obtain ⟨f, g, h1, h2, h3⟩ := undo_runs h
  have cA := formed_composed [] h1 hA hb
  have cB := formed_composed [] h2 hB (undo_buildable h hb)
  obtain ⟨M, m1, m2⟩ := buildUnitary_acts (c := ⟨qs, A ++ B⟩) (f := g ∘ f) hnd (composed_circuit (ops := []) (composed_append cA cB))
  rw [show g ∘ f = id from funext h3] at m2
  refine ⟨M, m1, m2.1, fun i hi j hj => ?_⟩
  have := (same_of_acts m2 eye_acts).2 i (by rw [m2.1]; exact hi) j (by rw [m2.1]; exact hj)
  rw [this]
  rfl

/-- Hadamard and CX on qubits 7 and 8, and the way back. -/
def wordA : List UOp := [{ oid := 1, kind := .single .hadamard, qubits := [7] },
  { oid := 2, kind := .controlled 1 .x, qubits := [7, 8], control := [7], target := [8] }]

def wordB : List UOp := [{ oid := 3, kind := .controlled 1 .x, qubits := [7, 8], control := [7], target := [8] },
  { oid := 4, kind := .single .hadamard, qubits := [7] }]

example : ∃ M, buildUnitary ⟨[7, 8], wordA ++ wordB⟩ = .ok M ∧ M.dim = 4 ∧ ∀ i < 4, ∀ j < 4, M.e i j = if i = j then 1 else 0 := by
  refine C117_undo [7, 8] (by decide) [(.single .hadamard, [0]), (.controlled 1 .x, [0, 1])] [(.controlled 1 .x, [0, 1]), (.single .hadamard, [0])]
    (.single (bs := [.hadamard]) 0 .hadamard (.controlled (bs := [.x]) (B := []) 0 1 (by decide) .x .nil)) ?_ wordA wordB ?_ ?_
  · intro g hg e he
    simp only [List.mem_cons, List.not_mem_nil, or_false] at hg
    rcases hg with rfl | rfl
    · cases he with
      | «variable» h => exact h rfl
    · cases he with
      | parametric h => exact h
  · refine .cons ⟨rfl, rfl, by simp⟩ (.cons ⟨rfl, rfl, ?_⟩ .nil)
    intro k b hk
    cases hk
    exact ⟨rfl, rfl⟩
  · refine .cons ⟨rfl, rfl, ?_⟩ (.cons ⟨rfl, rfl, by simp⟩ .nil)
    intro k b hk
    cases hk
    exact ⟨rfl, rfl⟩

end DG.Props
