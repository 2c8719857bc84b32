import Verif.Spec.UnitaryWords
import Verif.Proofs.UnitaryExact
import Verif.Proofs.IdentitiesTwo

/-! Unitaries of sequences of operations. -/

noncomputable section

namespace DG.Unitary
open Complex Spec Kernel DG.Sim

theorem same_of_acts {n : Nat} {M N : NMat} {f : State n ℂ → State n ℂ} (hM : ActsAs n M f) (hN : ActsAs n N f) : SameMatrix M N := by
  refine ⟨hM.1.trans hN.1.symm, fun i hi j hj => ?_⟩
  rw [hM.1] at hi hj
  have := acts_unique hM hN (basisOf false n i) (basisOf false n j)
  rwa [index_basisOf _ hi, index_basisOf _ hj] at this

theorem means_circuit {qs : List Nat} {ops ops' : List UOp} {op : UOp} {f : _} (h : Means ⟨qs, ops⟩ op f) : Means ⟨qs, ops'⟩ op f := by
  cases h with
  | single t h1 h2 h3 => exact .single (c := ⟨qs, ops'⟩) t h1 h2 h3
  | controlled cs t h1 h2 h3 h4 h5 h6 h7 => exact .controlled (c := ⟨qs, ops'⟩) cs t h1 h2 h3 h4 h5 h6 h7

theorem composed_circuit {qs : List Nat} {ops ops' A : List UOp} {f : _} (h : Composed ⟨qs, ops⟩ A f) : Composed ⟨qs, ops'⟩ A f := by
  induction h with
  | nil => exact .nil
  | cons h _ ih => exact .cons (means_circuit h) ih

theorem placed_circuit {qs : List Nat} {ops ops' : List UOp} {op : UOp} (h : Placed ⟨qs, ops⟩ op) : Placed ⟨qs, ops'⟩ op := by
  cases h with
  | single t h1 h2 => exact .single (c := ⟨qs, ops'⟩) t h1 h2
  | controlled cs t h1 h2 h3 h4 h5 => exact .controlled (c := ⟨qs, ops'⟩) cs t h1 h2 h3 h4 h5
  | other t rest h1 h2 => exact .other (c := ⟨qs, ops'⟩) t rest h1 h2

theorem composed_append {c : UCircuit} {A B : List UOp} {f g : _} (h1 : Composed c A f) (h2 : Composed c B g) : Composed c (A ++ B) (g ∘ f) := by
  induction h1 with
  | nil => exact h2
  | @cons op ops f' g' h _ ih => exact Composed.cons (g := g ∘ g') h ih

/-- The operations that are formed from gates mean what the gates mean. -/
theorem formed_composed {qs : List Nat} (ops : List UOp) {gates : List (Kind × List (Fin qs.length))} {f : _} (hr : Runs gates f) :
    ∀ {A : List UOp}, FormedAs qs gates A → (∀ g ∈ gates, Buildable g.1) → Composed ⟨qs, ops⟩ A f := by
  induction hr with
  | nil => intro A h _; cases h; exact .nil
  | @cons k ts rest f g ha _ ih =>
    intro A h hb
    cases h with
    | @cons op _ A _ h1 h2 =>
      refine Composed.cons (c := ⟨qs, ops⟩) ?_ (ih h2 fun g hg => hb g (List.mem_cons_of_mem _ hg))
      obtain ⟨hk, hq, hc⟩ := h1
      have hb' := hb (k, ts) (List.mem_cons_self ..)
      dsimp only at hk hq hc hb'
      cases ha with
      | single t hm => exact .single (c := ⟨qs, ops⟩) t hk hm (by simpa using hq)
      | @controlled1 b a c t hm hct =>
        obtain ⟨e1, e2⟩ := hc 1 b rfl
        have hp : ¬ Parametric b := fun hp => hb' _ (.parametric hp)
        obtain ⟨p, hp'⟩ := List.length_eq_one_iff.1 e2
        rw [hq, hp'] at e1
        simp only [List.singleton_append, List.map_cons, List.map_nil, List.cons.injEq] at e1
        refine .controlled (c := ⟨qs, ops⟩) [c] t hk hp hm (by simp) (by simpa using Ne.symm hct) ?_ ?_
        · rw [hp', e1.1]; rfl
        · exact e1.2
      | @controlled2 b a c c' t hm h1 h2 h3 =>
        obtain ⟨e1, e2⟩ := hc 2 b rfl
        have hp : ¬ Parametric b := fun hp => hb' _ (.parametric hp)
        obtain ⟨p, p', hp'⟩ := List.length_eq_two.1 e2
        rw [hq, hp'] at e1
        simp only [List.cons_append, List.nil_append, List.map_cons, List.map_nil, List.cons.injEq] at e1
        refine .controlled (c := ⟨qs, ops⟩) [c, c'] t hk hp hm (by simpa using h1) (by simpa using ⟨Ne.symm h2, Ne.symm h3⟩) ?_ ?_
        · rw [hp', e1.1, e1.2.1]; rfl
        · exact e1.2.2
      | swap => exact (hb' _ Unsupported.swap).elim
      | cswap => exact (hb' _ Unsupported.cswap).elim
      | ccx => exact (hb' _ Unsupported.ccx).elim

/-- Either `build_unitary` handles all operations, or there is a first one that it does not handle. -/
theorem first_unsupported : ∀ l : List UOp, (∀ o ∈ l, Buildable o.kind) ∨
    ∃ pre op post e, l = pre ++ op :: post ∧ (∀ o ∈ pre, Buildable o.kind) ∧ Unsupported op.kind e
  | [] => .inl (by simp)
  | o :: l => by
    by_cases h : Buildable o.kind
    · rcases first_unsupported l with h' | ⟨pre, op, post, e, rfl, h1, h2⟩
      · exact .inl (by simpa [h] using h')
      · exact .inr ⟨o :: pre, op, post, e, rfl, by simpa [h] using h1, h2⟩
    · unfold Buildable at h
      push Not at h
      obtain ⟨e, he⟩ := h
      exact .inr ⟨[], o, l, e, rfl, by simp, he⟩

theorem build_exchange {qs : List Nat} (hnd : qs.Nodup) {pre post A B : List UOp} {f : _}
    (hpre : ∀ o ∈ pre, Placed ⟨qs, []⟩ o) (hpost : ∀ o ∈ post, Placed ⟨qs, []⟩ o)
    (hA : Composed ⟨qs, []⟩ A f) (hB : Composed ⟨qs, []⟩ B f) :
    (∃ M N, buildUnitary ⟨qs, pre ++ A ++ post⟩ = .ok M ∧ buildUnitary ⟨qs, pre ++ B ++ post⟩ = .ok N ∧ SameMatrix M N ∧ M.dim = 2 ^ qs.length) ∨
    ∃ e, buildUnitary ⟨qs, pre ++ A ++ post⟩ = .error e ∧ buildUnitary ⟨qs, pre ++ B ++ post⟩ = .error e := by
  rcases first_unsupported pre with h1 | ⟨p, op, q, e, rfl, h1, he⟩
  · obtain ⟨f1, hf1⟩ := composed_of_placed (c := ⟨qs, []⟩) pre hpre h1
    rcases first_unsupported post with h2 | ⟨p, op, q, e, rfl, h2, he⟩
    · obtain ⟨f2, hf2⟩ := composed_of_placed (c := ⟨qs, []⟩) post hpost h2
      have cA := composed_append (composed_append hf1 hA) hf2
      have cB := composed_append (composed_append hf1 hB) hf2
      obtain ⟨M, m1, m2⟩ := buildUnitary_acts (c := ⟨qs, pre ++ A ++ post⟩) (f := f2 ∘ f ∘ f1) hnd (composed_circuit (ops := []) cA)
      obtain ⟨N, n1, n2⟩ := buildUnitary_acts (c := ⟨qs, pre ++ B ++ post⟩) (f := f2 ∘ f ∘ f1) hnd (composed_circuit (ops := []) cB)
      exact .inl ⟨M, N, m1, n1, same_of_acts m2 n2, m2.1⟩
    · refine .inr ⟨e, ?_⟩
      obtain ⟨f2, hf2⟩ := composed_of_placed (c := ⟨qs, []⟩) p (fun o ho => hpost o (List.mem_append_left _ ho)) h2
      have key : ∀ X, Composed ⟨qs, []⟩ X f → buildUnitary ⟨qs, pre ++ X ++ (p ++ op :: q)⟩ = .error e := by
        intro X hX
        obtain ⟨M, m1, m2⟩ := build_loop (c := ⟨qs, pre ++ X ++ p⟩) hnd (pre ++ X ++ p) _
          (composed_circuit (ops := []) (composed_append (composed_append hf1 hX) hf2)) _ id eye_acts
        unfold buildUnitary
        rw [show pre ++ X ++ (p ++ op :: q) = (pre ++ X ++ p) ++ op :: q by simp, List.foldlM_append]
        rw [m1, ok_bind, List.foldlM_cons, applyOp_unsupported (c := ⟨qs, []⟩) hnd (hpost op (by simp)) he m2.1]
        rfl
      exact ⟨key A hA, key B hB⟩
  · refine .inr ⟨e, ?_⟩
    have key : ∀ X, buildUnitary ⟨qs, p ++ op :: q ++ X⟩ = .error e := by
      intro X
      obtain ⟨f2, hf2⟩ := composed_of_placed (c := ⟨qs, []⟩) p (fun o ho => hpre o (List.mem_append_left _ ho)) h1
      obtain ⟨M, m1, m2⟩ := build_loop (c := ⟨qs, []⟩) hnd p _ hf2 _ id eye_acts
      unfold buildUnitary
      rw [show p ++ op :: q ++ X = p ++ op :: (q ++ X) by simp, List.foldlM_append]
      rw [m1, ok_bind, List.foldlM_cons, applyOp_unsupported (c := ⟨qs, []⟩) hnd (hpre op (by simp)) he m2.1]
      rfl
    exact ⟨by rw [List.append_assoc]; exact key _, by rw [List.append_assoc]; exact key _⟩

theorem undo_buildable {n : Nat} {A B : List (Kind × List (Fin n))} (h : Undo A B) (hA : ∀ g ∈ A, Buildable g.1) : ∀ g ∈ B, Buildable g.1 := by
  have sgl : ∀ {b bs}, Undoes b bs → ∀ x ∈ bs, Buildable (.single x) := by
    intro b bs hu x hx e he
    cases he with
    | «variable» hv => cases hu <;> simp at hx <;> rcases hx with rfl | rfl | rfl <;> simp [baseVars, paramVars] at hv
  have ctl : ∀ {b bs}, Undoes b bs → ¬ Parametric b → ∀ x ∈ bs, Buildable (.controlled 1 x) := by
    intro b bs hu hb x hx e he
    cases he with
    | parametric hv => cases hu <;> simp at hx <;> rcases hx with rfl | rfl | rfl <;> simp_all [Parametric]
  induction h with
  | nil => simp
  | single t hu _ ih =>
    intro g hg
    rcases List.mem_append.1 hg with hg | hg
    · exact ih (fun g hg => hA g (List.mem_cons_of_mem _ hg)) g hg
    · obtain ⟨x, hx, rfl⟩ := List.mem_map.1 hg
      exact sgl hu x hx
  | controlled c t _ hu _ ih =>
    intro g hg
    rcases List.mem_append.1 hg with hg | hg
    · exact ih (fun g hg => hA g (List.mem_cons_of_mem _ hg)) g hg
    · obtain ⟨x, hx, rfl⟩ := List.mem_map.1 hg
      exact ctl hu (fun hp => hA _ (List.mem_cons_self ..) _ (.parametric hp)) x hx
  | swap a b _ _ ih => exact (hA _ (List.mem_cons_self ..) _ Unsupported.swap).elim
  | ccx c c' t _ _ _ _ ih => exact (hA _ (List.mem_cons_self ..) _ Unsupported.ccx).elim
  | cswap c c' t _ _ _ _ ih => exact (hA _ (List.mem_cons_self ..) _ Unsupported.cswap).elim

end DG.Unitary
