import Verif.Proofs.Identities

/-! Proofs of the identities between gates on several qubits, and of the undoing of gates. -/

noncomputable section

namespace DG
open Complex Spec DG.Sim

variable {n : Nat}

def arrX : Arr2 := ⟨0, 1, 1, 0, true, true⟩
def arrZ : Arr2 := ⟨1, 0, 0, -1, true, true⟩

theorem cx_apply (c t : Fin n) (ψ : State n ℂ) (x : Basis n) :
    applyControlled [c] t (gateOf arrX) ψ x = if x c = true then ψ (Function.update x t (!x t)) else ψ x := by
  simp only [applyControlled, List.mem_singleton, forall_eq, applyGate_x t ψ arrX rfl]

theorem cz_apply (c t : Fin n) (ψ : State n ℂ) (x : Basis n) :
    applyControlled [c] t (gateOf arrZ) ψ x = if x c = true ∧ x t = true then - ψ x else ψ x := by
  have hu : Function.update x t (x t) = x := by simp
  simp only [applyControlled, List.mem_singleton, forall_eq, applyGate, Fintype.sum_bool]
  cases hc : x c <;> cases ht : x t <;> rw [ht] at hu <;> simp [gateOf, arrZ, hu]

/-- A controlled gate between gates that undo each other. -/
theorem conj_controlled (c t : Fin n) (h : c ≠ t) (P Q G K : M2) (hPQ : (fun i j => ∑ k, P i k * Q k j) = fun i j => if i = j then 1 else 0)
    (hK : (fun i j => ∑ k, P i k * ∑ l, G k l * Q l j) = K) (ψ : State n ℂ) :
    applyGate t P (applyControlled [c] t G (applyGate t Q ψ)) = applyControlled [c] t K ψ := by
  funext x
  by_cases hc : x c = true
  · have e : applyGate t P (applyControlled [c] t G (applyGate t Q ψ)) x = applyGate t P (applyGate t G (applyGate t Q ψ)) x := by
      unfold applyGate
      refine Finset.sum_congr rfl fun j _ => ?_
      have : Function.update x t j c = true := by rw [Function.update_of_ne h]; exact hc
      simp only [applyControlled, List.mem_singleton, forall_eq, this, if_true, applyGate]
    rw [e, applyGate_comp t G Q, applyGate_comp, ← hK]
    simp only [applyControlled, List.mem_singleton, forall_eq, hc, if_true]
  · have e : applyGate t P (applyControlled [c] t G (applyGate t Q ψ)) x = applyGate t P (applyGate t Q ψ) x := by
      unfold applyGate
      refine Finset.sum_congr rfl fun j _ => ?_
      have : ¬ Function.update x t j c = true := by rw [Function.update_of_ne h]; exact hc
      simp only [applyControlled, List.mem_singleton, forall_eq, this, applyGate]
      simp
    rw [e, applyGate_comp, hPQ, applyGate_unit]
    simp only [applyControlled, List.mem_singleton, forall_eq, hc]
    simp

def arrH : Arr2 := ⟨((Real.sqrt 2 / 2 : ℝ) : ℂ) * 1, ((Real.sqrt 2 / 2 : ℝ) : ℂ) * 1, ((Real.sqrt 2 / 2 : ℝ) : ℂ) * 1, ((Real.sqrt 2 / 2 : ℝ) : ℂ) * -1, true, true⟩

theorem h_h_unit : (fun i j => ∑ k, gateOf arrH i k * gateOf arrH k j) = fun i j => if i = j then (1 : ℂ) else 0 := by
  have hh := half_sq
  unfold arrH
  generalize ((Real.sqrt 2 / 2 : ℝ) : ℂ) = f at *
  refine m2_ext ?_ ?_ ?_ ?_ <;> simp [gateOf] <;> linear_combination 2 * hh

theorem h_z_h_x : (fun i j => ∑ k, gateOf arrH i k * ∑ l, gateOf arrZ k l * gateOf arrH l j) = gateOf arrX := by
  have hh := half_sq
  unfold arrH
  generalize ((Real.sqrt 2 / 2 : ℝ) : ℂ) = f at *
  refine m2_ext ?_ ?_ ?_ ?_ <;> simp [gateOf, arrZ, arrX] <;> linear_combination 2 * hh

theorem h_x_h_z : (fun i j => ∑ k, gateOf arrH i k * ∑ l, gateOf arrX k l * gateOf arrH l j) = gateOf arrZ := by
  have hh := half_sq
  unfold arrH
  generalize ((Real.sqrt 2 / 2 : ℝ) : ℂ) = f at *
  refine m2_ext ?_ ?_ ?_ ?_ <;> simp [gateOf, arrZ, arrX]
  · linear_combination 2 * hh
  · linear_combination -2 * hh

theorem applyGate_commute {a b : Fin n} (h : a ≠ b) (G H : M2) (ψ : State n ℂ) :
    applyGate a G (applyGate b H ψ) = applyGate b H (applyGate a G ψ) := by
  funext x
  simp only [applyGate, Function.update_of_ne h, Function.update_of_ne h.symm, Fintype.sum_bool, Function.update_comm h]
  ring

theorem cz_swap (a b : Fin n) : applyControlled [a] b (gateOf arrZ) = applyControlled [b] a (gateOf arrZ) := by
  funext ψ x
  rw [cz_apply, cz_apply]
  simp only [and_comm]

theorem swap_invol (a b : Fin n) (ψ : State n ℂ) : applySwap a b (applySwap a b ψ) = ψ := by
  funext x
  simp only [applySwap, Function.comp_assoc]
  congr 1
  funext q
  simp

theorem ccx_invol (c c' t : Fin n) (h : c ≠ t) (h' : c' ≠ t) (ψ : State n ℂ) (x : Basis n) :
    (if x c = true ∧ x c' = true then
      (if Function.update x t (!x t) c = true ∧ Function.update x t (!x t) c' = true then ψ (Function.update (Function.update x t (!x t)) t (!Function.update x t (!x t) t))
        else ψ (Function.update x t (!x t)))
      else (if x c = true ∧ x c' = true then ψ (Function.update x t (!x t)) else ψ x)) = ψ x := by
  by_cases hx : x c = true ∧ x c' = true
  · simp [hx, Function.update_of_ne h, Function.update_of_ne h']
  · simp only [if_neg hx]

theorem cswap_invol (c a b : Fin n) (h : c ≠ a) (h' : c ≠ b) (ψ : State n ℂ) : applyCSwap c a b (applyCSwap c a b ψ) = ψ := by
  funext x
  by_cases hx : x c = true
  · have : (x ∘ Equiv.swap a b) c = true := by simp [Equiv.swap_apply_of_ne_of_ne h h', hx]
    simp only [applyCSwap, applySwap, hx, this, if_true, Function.comp_assoc]
    congr 1
    funext q
    simp
  · simp [applyCSwap, hx]

/-- The exchange of two entries. -/
theorem comp_swap (a b : Fin n) (x : Basis n) : x ∘ Equiv.swap a b = Function.update (Function.update x a (x b)) b (x a) := by
  funext q
  by_cases h2 : q = b
  · subst h2; simp
  · by_cases h1 : q = a
    · subst h1; simp [Function.update_of_ne h2]
    · simp [Function.update_of_ne h2, Function.update_of_ne h1, Equiv.swap_apply_of_ne_of_ne h1 h2]

theorem same_runs {A B : List (Kind × List (Fin n))} (h : Same A B) : ∃ f, Runs A f ∧ Runs B f := by
  have cx : ∀ {c t : Fin n}, c ≠ t → GateAct (.controlled 1 .x) [c, t] (applyControlled [c] t (gateOf arrX)) := fun h => .controlled1 _ _ rfl h
  have cz : ∀ {c t : Fin n}, c ≠ t → GateAct (.controlled 1 .z) [c, t] (applyControlled [c] t (gateOf arrZ)) := fun h => .controlled1 _ _ rfl h
  have hd : ∀ t : Fin n, GateAct (.single .hadamard) [t] (applyGate t (gateOf arrH)) := fun t => .single t rfl
  have conv : ∀ {L : List (Kind × List (Fin n))} {f g}, Runs L f → (∀ ψ x, f ψ x = g ψ x) → Runs L g := fun h e => (funext fun ψ => funext (e ψ)) ▸ h
  cases h with
  | single t h =>
    obtain ⟨G, h1, h2⟩ := equal_product h
    exact ⟨_, product_runs t h1, product_runs t h2⟩
  | controlled c t hct h =>
    obtain ⟨G, h1, h2⟩ := equal_product h
    exact ⟨_, product_controlled c t hct h1, product_controlled c t hct h2⟩
  | swap_swap a b h =>
    exact ⟨id, conv (.cons (.swap a b h) (.cons (.swap a b h) .nil)) fun ψ x => by simp [swap_invol], .nil⟩
  | swap_sym a b h =>
    exact ⟨_, .cons (.swap a b h) .nil, conv (.cons (.swap b a h.symm) .nil) fun ψ x => by simp [applySwap, Equiv.swap_comm]⟩
  | swap_cx a b h =>
    refine ⟨_, .cons (.swap a b h) .nil, conv (.cons (cx h) (.cons (cx h.symm) (.cons (cx h) .nil))) fun ψ x => ?_⟩
    simp only [Function.comp_apply, id, cx_apply, applySwap, comp_swap]
    cases ha : x a <;> cases hb : x b <;> simp [Function.update_of_ne, h, h.symm, ha, hb]
    all_goals (congr 1; funext q; by_cases q1 : q = a <;> by_cases q2 : q = b <;> simp_all [Function.update_apply])
  | cz_sym a b h =>
    exact ⟨_, .cons (cz h) .nil, conv (.cons (cz h.symm) .nil) fun ψ x => by simp [cz_swap a b]⟩
  | cx_cz c t h =>
    exact ⟨_, conv (.cons (hd t) (.cons (cz h) (.cons (hd t) .nil))) fun ψ x => congrFun (conj_controlled c t h _ _ _ _ h_h_unit h_z_h_x ψ) x, .cons (cx h) .nil⟩
  | cz_cx c t h =>
    exact ⟨_, conv (.cons (hd t) (.cons (cx h) (.cons (hd t) .nil))) fun ψ x => congrFun (conj_controlled c t h _ _ _ _ h_h_unit h_x_h_z ψ) x, .cons (cz h) .nil⟩
  | cy_cx c t h =>
    refine ⟨_, conv (.cons (.single t rfl) (.cons (.single t rfl) (.cons (cx h) (.cons (.single t rfl) .nil)))) fun ψ x => ?_, .cons (.controlled1 c t rfl h) .nil⟩
    simp only [Function.comp_apply, id]
    rw [applyGate_comp]
    refine congrFun (conj_controlled c t h _ _ _ _ ?_ ?_ ψ) x
    · refine m2_ext ?_ ?_ ?_ ?_ <;> simp [gateOf]
    · refine m2_ext ?_ ?_ ?_ ?_ <;> simp [gateOf, arrX]
  | cx_turned a b h =>
    refine ⟨_, conv (.cons (hd a) (.cons (hd b) (.cons (cx h) (.cons (hd a) (.cons (hd b) .nil))))) fun ψ x => ?_, .cons (cx h.symm) .nil⟩
    simp only [Function.comp_apply, id]
    rw [applyGate_commute h.symm, conj_controlled a b h _ _ _ _ h_h_unit h_x_h_z, cz_swap, conj_controlled b a h.symm _ _ _ _ h_h_unit h_z_h_x]
  | ccx_ccx c c' t h1 h2 h3 =>
    exact ⟨id, conv (.cons (.ccx c c' t h1 h2 h3) (.cons (.ccx c c' t h1 h2 h3) .nil)) fun ψ x => ccx_invol c c' t h2 h3 ψ x, .nil⟩
  | ccx_sym c c' t h1 h2 h3 =>
    exact ⟨_, .cons (.ccx c c' t h1 h2 h3) .nil, conv (.cons (.ccx c' c t h1.symm h3 h2) .nil) fun ψ x => by simp [and_comm]⟩
  | cswap_cswap c a b h1 h2 h3 =>
    exact ⟨id, conv (.cons (.cswap c a b h1 h2 h3) (.cons (.cswap c a b h1 h2 h3) .nil)) fun ψ x => by simp [cswap_invol c a b h1 h2], .nil⟩
  | cswap_sym c a b h1 h2 h3 =>
    exact ⟨_, .cons (.cswap c a b h1 h2 h3) .nil, conv (.cons (.cswap c b a h2 h1 h3.symm) .nil) fun ψ x => by simp [applyCSwap, applySwap, Equiv.swap_comm]⟩
  | cswap_ccx c a b h1 h2 h3 =>
    refine ⟨_, .cons (.cswap c a b h1 h2 h3) .nil, conv (.cons (cx h3.symm) (.cons (.ccx c a b h1 h2 h3) (.cons (cx h3.symm) .nil))) fun ψ x => ?_⟩
    simp only [Function.comp_apply, id, cx_apply, applyCSwap, applySwap, comp_swap]
    cases hc : x c <;> cases ha : x a <;> cases hb : x b <;> simp [Function.update_of_ne, h1, h2, h3, h3.symm, hc, ha, hb]
    all_goals (congr 1; funext q; by_cases q1 : q = a <;> by_cases q2 : q = b <;> simp_all [Function.update_apply])

theorem runs_append {A B : List (Kind × List (Fin n))} {f g : State n ℂ → State n ℂ} (h1 : Runs A f) (h2 : Runs B g) : Runs (A ++ B) (g ∘ f) := by
  induction h1 with
  | nil => exact h2
  | cons ha _ ih => exact (Runs.cons ha ih : Runs _ _)

/-- A gate, gates that undo it, and the product of both. -/
theorem undoes_split {b : Base} {bs : List Base} (h : Undoes b bs) :
    ∃ a H, b.matrix = .ok a ∧ Product bs H ∧ (fun i j => ∑ k, H i k * gateOf a k j) = fun i j => if i = j then (1 : ℂ) else 0 := by
  have h := undoes_product h
  generalize hG : (fun i j => if i = j then (1 : ℂ) else 0 : M2) = G at h
  cases h with
  | cons ha hp => exact ⟨_, _, ha, hp, rfl⟩

theorem undo_runs {A B : List (Kind × List (Fin n))} (h : Undo A B) : ∃ f g, Runs A f ∧ Runs B g ∧ ∀ ψ, g (f ψ) = ψ := by
  induction h with
  | nil => exact ⟨id, id, .nil, .nil, fun _ => rfl⟩
  | single t hu _ ih =>
    obtain ⟨f, g, h1, h2, h3⟩ := ih
    obtain ⟨a, H, ha, hp, hG⟩ := undoes_split hu
    exact ⟨_, _, .cons (.single t ha) h1, runs_append h2 (product_runs t hp), fun ψ => by
      simp only [Function.comp_apply, h3, applyGate_comp, hG, applyGate_unit]⟩
  | controlled c t hct hu _ ih =>
    obtain ⟨f, g, h1, h2, h3⟩ := ih
    obtain ⟨a, H, ha, hp, hG⟩ := undoes_split hu
    exact ⟨_, _, .cons (.controlled1 c t ha hct) h1, runs_append h2 (product_controlled c t hct hp), fun ψ => by
      simp only [Function.comp_apply, h3, applyControlled_then c t hct, hG, applyControlled_unit]⟩
  | swap a b h _ ih =>
    obtain ⟨f, g, h1, h2, h3⟩ := ih
    exact ⟨_, _, .cons (.swap a b h) h1, runs_append h2 (.cons (.swap a b h) .nil), fun ψ => by
      simp only [Function.comp_apply, id, h3, swap_invol]⟩
  | ccx c c' t e1 e2 e3 _ ih =>
    obtain ⟨f, g, h1, h2, h3⟩ := ih
    refine ⟨_, _, .cons (.ccx c c' t e1 e2 e3) h1, runs_append h2 (.cons (.ccx c c' t e1 e2 e3) .nil), fun ψ => ?_⟩
    simp only [Function.comp_apply, id, h3]
    funext x
    exact ccx_invol c c' t e2 e3 ψ x
  | cswap c a b e1 e2 e3 _ ih =>
    obtain ⟨f, g, h1, h2, h3⟩ := ih
    exact ⟨_, _, .cons (.cswap c a b e1 e2 e3) h1, runs_append h2 (.cons (.cswap c a b e1 e2 e3) .nil), fun ψ => by
      simp only [Function.comp_apply, id, h3, cswap_invol c a b e1 e2]⟩

/-! The gates are supported by the simulator. -/

theorem equal_library {A B : List Base} (h : Equal A B) : (∀ b ∈ A, Library b) ∧ ∀ b ∈ B, Library b := by
  cases h <;> simp [Library, Param.isNum]

theorem phase_library {A B : List Base} (h : EqualPhase A B) : (∀ b ∈ A, Library b) ∧ ∀ b ∈ B, Library b := by
  cases h <;> simp [Library, Param.isNum]

theorem undoes_library {b : Base} {bs : List Base} (h : Undoes b bs) : Library b ∧ ∀ b ∈ bs, Library b := by
  cases h <;> simp [Library, Param.isNum]

theorem same_supported {A B : List (Kind × List (Fin n))} (h : Same A B) : (∀ g ∈ A, Supported g.1) ∧ ∀ g ∈ B, Supported g.1 := by
  cases h with
  | single t h => have := equal_library h; simpa [Supported] using this
  | controlled c t hct h => have := equal_library h; simpa [Supported] using this
  | _ => simp [Supported, Library]

theorem undo_supported {A B : List (Kind × List (Fin n))} (h : Undo A B) : (∀ g ∈ A, Supported g.1) ∧ ∀ g ∈ B, Supported g.1 := by
  induction h with
  | nil => simp
  | single t hu _ ih =>
    have := undoes_library hu
    refine ⟨List.forall_mem_cons.2 ⟨this.1, ih.1⟩, List.forall_mem_append.2 ⟨ih.2, ?_⟩⟩
    simpa [Supported] using this.2
  | controlled c t hct hu _ ih =>
    have := undoes_library hu
    refine ⟨List.forall_mem_cons.2 ⟨⟨rfl, this.1⟩, ih.1⟩, List.forall_mem_append.2 ⟨ih.2, ?_⟩⟩
    simpa [Supported] using this.2
  | swap a b h _ ih => exact ⟨List.forall_mem_cons.2 ⟨trivial, ih.1⟩, List.forall_mem_append.2 ⟨ih.2, by simp [Supported]⟩⟩
  | ccx c c' t e1 e2 e3 _ ih => exact ⟨List.forall_mem_cons.2 ⟨trivial, ih.1⟩, List.forall_mem_append.2 ⟨ih.2, by simp [Supported]⟩⟩
  | cswap c a b e1 e2 e3 _ ih => exact ⟨List.forall_mem_cons.2 ⟨trivial, ih.1⟩, List.forall_mem_append.2 ⟨ih.2, by simp [Supported]⟩⟩

theorem formed_together {qs : List Nat} {cond : Option (List Nat)} {gates : List (Kind × List (Fin qs.length))} {ops : List SOp} {f : _}
    (hf : Formed qs cond gates ops) (hs : ∀ g ∈ gates, Supported g.1) (hr : Runs gates f) : Together qs cond ops f := by
  refine ⟨gates, hr, ?_⟩
  clear hr
  induction hf with
  | nil => exact .nil
  | cons h _ ih =>
    exact .cons ⟨h.1 ▸ hs _ List.mem_cons_self, h.2.2, h.1, h.2.1⟩ (ih fun g hg => hs g (List.mem_cons_of_mem _ hg))

end DG
