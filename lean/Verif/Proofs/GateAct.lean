import Verif.Proofs.Gates
import Mathlib.Analysis.Complex.Basic

/-! # Gates as maps on states: composition, norm, locality -/

namespace DG
open Complex Spec

section
variable {n : Nat}

theorem gateOf_eq (a : Arr2) (i j : Bool) : gateOf a i j = matOf a (if i then 1 else 0) (if j then 1 else 0) := by
  cases i <;> cases j <;> rfl

theorem applyGate_comp (t : Fin n) (G H : Bool → Bool → ℂ) (ψ : State n ℂ) :
    applyGate t G (applyGate t H ψ) = applyGate t (fun i j => ∑ k, G i k * H k j) ψ := by
  funext x
  simp only [applyGate, Function.update_self, Function.update_idem, Fintype.sum_bool]
  ring

/-- Applying the product of the matrices. -/
theorem applyGate_mul (t : Fin n) (a b c : Arr2) (h : matOf c = matOf a * matOf b) (ψ : State n ℂ) :
    applyGate t (gateOf a) (applyGate t (gateOf b) ψ) = applyGate t (gateOf c) ψ := by
  rw [applyGate_comp]
  congr 1
  funext i j
  rw [gateOf_eq c, h, Matrix.mul_apply, Fin.sum_univ_two]
  simp only [gateOf_eq, Fintype.sum_bool]
  simp [add_comm]

/-- The action of X. -/
theorem applyGate_x (t : Fin n) (ψ : State n ℂ) (a : Arr2) (ha : Base.x.matrix = .ok a) (x : Basis n) :
    applyGate t (gateOf a) ψ x = ψ (Function.update x t (!x t)) := by
  cases ha
  simp only [applyGate, Fintype.sum_bool]
  cases x t <;> simp [gateOf]

/-- The flip of qubit `t`, an involution of the basis states. -/
def flipAt (t : Fin n) (x : Basis n) : Basis n := Function.update x t (!x t)

theorem flipAt_invol (t : Fin n) (x : Basis n) : flipAt t (flipAt t x) = x := by
  simp [flipAt, Function.update_idem]

theorem flipAt_self (t : Fin n) (x : Basis n) : flipAt t x t = !x t := by simp [flipAt]

theorem flipAt_ne {t q : Fin n} (h : q ≠ t) (x : Basis n) : flipAt t x q = x q := by
  simp [flipAt, Function.update_of_ne h]

theorem sum_flip {R : Type} [AddCommMonoid R] (t : Fin n) (f : Basis n → R) : ∑ x, f (flipAt t x) = ∑ x, f x := by
  let e : Basis n ≃ Basis n := ⟨flipAt t, flipAt t, flipAt_invol t, flipAt_invol t⟩
  exact Equiv.sum_comp e f

/-- Pairwise preservation gives preservation of the sum. -/
theorem sum_eq_of_pairs (t : Fin n) (f g : Basis n → ℝ) (h : ∀ x, f x + f (flipAt t x) = g x + g (flipAt t x)) :
    ∑ x, f x = ∑ x, g x := by
  have h1 := sum_flip t f
  have h2 := sum_flip t g
  have h3 : ∑ x, (f x + f (flipAt t x)) = ∑ x, (g x + g (flipAt t x)) := Finset.sum_congr rfl (fun x _ => h x)
  rw [Finset.sum_add_distrib, Finset.sum_add_distrib] at h3
  linarith

theorem normSq_cast (z : ℂ) : ((Complex.normSq z : ℝ) : ℂ) = star z * z := by
  rw [Complex.normSq_eq_conj_mul_self]; rfl

/-- A 2x2 matrix with orthonormal columns preserves the norm of pairs. -/
theorem pair_norm {a : Arr2} (h : Cols a) (u v : ℂ) :
    Complex.normSq (a.e00 * u + a.e01 * v) + Complex.normSq (a.e10 * u + a.e11 * v) =
      Complex.normSq u + Complex.normSq v := by
  have : ((Complex.normSq (a.e00 * u + a.e01 * v) + Complex.normSq (a.e10 * u + a.e11 * v) : ℝ) : ℂ) =
      ((Complex.normSq u + Complex.normSq v : ℝ) : ℂ) := by
    rw [ofReal_add, ofReal_add]
    simp only [normSq_cast, star_add, star_mul']
    linear_combination (star u * u) * h.c0 + (star v * v) * h.c1 + (star u * v) * h.c01 + (star v * u) * h.c10
  exact_mod_cast this

theorem applyGate_false (t : Fin n) (a : Arr2) (ψ : State n ℂ) (x : Basis n) (h : x t = false) :
    applyGate t (gateOf a) ψ x = a.e00 * ψ x + a.e01 * ψ (flipAt t x) := by
  have : Function.update x t false = x := by rw [← h]; simp
  simp only [applyGate, Fintype.sum_bool, h, gateOf, this, flipAt, Bool.not_false]
  ring

theorem applyGate_true (t : Fin n) (a : Arr2) (ψ : State n ℂ) (x : Basis n) (h : x t = true) :
    applyGate t (gateOf a) ψ x = a.e10 * ψ (flipAt t x) + a.e11 * ψ x := by
  have : Function.update x t true = x := by rw [← h]; simp
  simp only [applyGate, Fintype.sum_bool, h, gateOf, this, flipAt, Bool.not_true]
  ring

theorem applyControlled_norm {a : Arr2} (h : Cols a) (cs : List (Fin n)) (t : Fin n) (ht : t ∉ cs) (ψ : State n ℂ) :
    Spec.normSq (applyControlled cs t (gateOf a) ψ) = Spec.normSq ψ := by
  apply sum_eq_of_pairs t
  intro x
  have hc : (∀ c ∈ cs, flipAt t x c = true) ↔ (∀ c ∈ cs, x c = true) := by
    have hne : ∀ c ∈ cs, flipAt t x c = x c := fun c hcs => flipAt_ne (fun e : c = t => ht (e ▸ hcs)) x
    constructor <;> intro h' c hcs
    · rw [← hne c hcs]; exact h' c hcs
    · rw [hne c hcs]; exact h' c hcs
  by_cases hx : ∀ c ∈ cs, x c = true
  · simp only [applyControlled, if_pos hx, if_pos (hc.2 hx)]
    cases hb : x t
    · rw [applyGate_false t a ψ x hb, applyGate_true t a ψ (flipAt t x) (by simp [flipAt_self, hb]), flipAt_invol]
      exact pair_norm h _ _
    · rw [applyGate_true t a ψ x hb, applyGate_false t a ψ (flipAt t x) (by simp [flipAt_self, hb]), flipAt_invol]
      rw [add_comm, pair_norm h, add_comm]
  · simp only [applyControlled, if_neg hx, if_neg (fun h' => hx (hc.1 h'))]

theorem applyControlled_nil' (t : Fin n) (G : Bool → Bool → ℂ) (ψ : State n ℂ) :
    applyControlled [] t G ψ = applyGate t G ψ := by
  funext x; simp [applyControlled]

theorem normSq_perm (e : Basis n ≃ Basis n) (ψ : State n ℂ) : Spec.normSq (fun x => ψ (e x)) = Spec.normSq ψ :=
  Equiv.sum_comp e (fun x => Complex.normSq (ψ x))

/-- An involution of the basis states as an equivalence. -/
def involEquiv {α : Type} (f : α → α) (h : ∀ x, f (f x) = x) : α ≃ α := ⟨f, f, h, h⟩

theorem applyCSwap_norm (cond : Basis n → Prop) [DecidablePred cond] (a b : Fin n)
    (hcond : ∀ x, cond (x ∘ Equiv.swap a b) ↔ cond x) (ψ : State n ℂ) :
    Spec.normSq (fun x => if cond x then ψ (x ∘ Equiv.swap a b) else ψ x) = Spec.normSq ψ := by
  let f : Basis n → Basis n := fun x => if cond x then x ∘ Equiv.swap a b else x
  have hf : ∀ x, f (f x) = x := by
    intro x
    by_cases h : cond x
    · simp only [f, if_pos h, if_pos ((hcond x).2 h)]
      funext q; simp
    · simp only [f, if_neg h]
  have := normSq_perm (involEquiv f hf) ψ
  rw [← this]
  congr 1
  funext x
  show _ = ψ (f x)
  by_cases h : cond x <;> simp [f, h]

/-- Every operation with a matrix with orthonormal columns preserves the norm. -/
def Kind.unitary : Kind → Prop
  | .single b => ∃ a, b.matrix = .ok a ∧ Cols a
  | .controlled _ b => ∃ a, b.matrix = .ok a ∧ Cols a
  | _ => True

theorem ccx_eq (c c' t : Fin n) (a : Arr2) (ha : Base.x.matrix = .ok a) (ψ : State n ℂ) :
    (fun x => if x c = true ∧ x c' = true then ψ (Function.update x t (!x t)) else ψ x) =
      applyControlled [c, c'] t (gateOf a) ψ := by
  funext x
  simp [applyControlled, applyGate_x t ψ a ha]

theorem cols_x : ∃ a, Base.x.matrix = .ok a ∧ Cols a := by
  obtain ⟨a, h1, _, _, h2⟩ := library_cols (b := .x) trivial
  exact ⟨a, h1, h2⟩

theorem GateAct.norm {k : Kind} {ts : List (Fin n)} {f : State n ℂ → State n ℂ} (h : GateAct k ts f) (hu : k.unitary)
    (ψ : State n ℂ) : Spec.normSq (f ψ) = Spec.normSq ψ := by
  cases h with
  | single t ha =>
    obtain ⟨a', ha', hc⟩ := hu
    rw [ha] at ha'; cases ha'
    rw [← applyControlled_nil']
    exact applyControlled_norm hc [] t (by simp) ψ
  | controlled1 c t ha hct =>
    obtain ⟨a', ha', hc⟩ := hu
    rw [ha] at ha'; cases ha'
    exact applyControlled_norm hc [c] t (by simp [Ne.symm hct]) ψ
  | controlled2 c c' t ha h1 h2 h3 =>
    obtain ⟨a', ha', hc⟩ := hu
    rw [ha] at ha'; cases ha'
    exact applyControlled_norm hc [c, c'] t (by simp [Ne.symm h2, Ne.symm h3]) ψ
  | swap a b hab =>
    have := applyCSwap_norm (fun _ => True) a b (by simp) ψ
    simp only [if_true] at this
    exact this
  | cswap c a b h1 h2 h3 =>
    have := applyCSwap_norm (fun x => x c = true) a b (by
      intro x; simp [Equiv.swap_apply_of_ne_of_ne h1 h2]) ψ
    exact this
  | ccx c c' t h1 h2 h3 =>
    obtain ⟨a, ha, hc⟩ := cols_x
    beta_reduce
    rw [ccx_eq c c' t a ha]
    exact applyControlled_norm hc [c, c'] t (by simp [Ne.symm h2, Ne.symm h3]) ψ

/-! ## Locality -/

/-- `f` is a linear map that acts only on the qubits in `S`: its kernel vanishes between basis states that differ
elsewhere and depends only on the bits in `S`. -/
structure Local (S : List (Fin n)) (f : State n ℂ → State n ℂ) (K : Basis n → Basis n → ℂ) : Prop where
  lin : ∀ ψ x, f ψ x = ∑ y, K x y * ψ y
  off : ∀ x y, (∃ i, i ∉ S ∧ x i ≠ y i) → K x y = 0
  on : ∀ x y x' y', (∀ i, i ∉ S → x i = y i) → (∀ i, i ∉ S → x' i = y' i) →
    (∀ i ∈ S, x i = x' i ∧ y i = y' i) → K x y = K x' y'

theorem Local.comm {S S' : List (Fin n)} {f g : State n ℂ → State n ℂ} {K L : Basis n → Basis n → ℂ}
    (hf : Local S f K) (hg : Local S' g L) (hd : ∀ i ∈ S, i ∉ S') (ψ : State n ℂ) : f (g ψ) = g (f ψ) := by
  classical
  -- composite kernel
  have comp : ∀ {S S' : List (Fin n)} {f g : State n ℂ → State n ℂ} {K L : Basis n → Basis n → ℂ},
      Local S f K → Local S' g L → (∀ i ∈ S, i ∉ S') → ∀ ψ x,
      f (g ψ) x = ∑ z, (K x (fun i => if i ∈ S then z i else x i) * L (fun i => if i ∈ S then z i else x i) z) * ψ z := by
    intro S S' f g K L hf hg hd ψ x
    rw [hf.lin]
    simp_rw [hg.lin, Finset.mul_sum]
    rw [Finset.sum_comm]
    refine Finset.sum_congr rfl (fun z _ => ?_)
    rw [Finset.sum_eq_single (fun i => if i ∈ S then z i else x i)]
    · ring
    · intro y _ hy
      by_cases h1 : ∃ i, i ∉ S ∧ x i ≠ y i
      · rw [hf.off x y h1]; ring
      · by_cases h2 : ∃ i, i ∉ S' ∧ y i ≠ z i
        · rw [hg.off y z h2]; ring
        · exfalso
          apply hy
          push Not at h1 h2
          funext i
          by_cases hi : i ∈ S
          · rw [if_pos hi]; exact h2 i (hd i hi)
          · rw [if_neg hi]; exact (h1 i hi).symm
    · intro h; exact absurd (Finset.mem_univ _) h
  have hd' : ∀ i ∈ S', i ∉ S := fun i hi hi' => hd i hi' hi
  funext x
  rw [comp hf hg hd ψ x, comp hg hf hd' ψ x]
  refine Finset.sum_congr rfl (fun z _ => ?_)
  congr 1
  by_cases hxz : ∃ i, i ∉ S ∧ i ∉ S' ∧ x i ≠ z i
  · obtain ⟨i, h1, h2, h3⟩ := hxz
    rw [hg.off _ z ⟨i, h2, by simpa [h1] using h3⟩, hf.off _ z ⟨i, h1, by simpa [h2] using h3⟩]
    ring
  · push Not at hxz
    have e1 : K x (fun i => if i ∈ S then z i else x i) = K (fun i => if i ∈ S' then z i else x i) z := by
      apply hf.on
      · intro i hi; simp [hi]
      · intro i hi
        by_cases hi' : i ∈ S'
        · simp [hi']
        · simp [hi', hxz i hi hi']
      · intro i hi; simp [hi, hd i hi]
    have e2 : L (fun i => if i ∈ S then z i else x i) z = L x (fun i => if i ∈ S' then z i else x i) := by
      apply hg.on
      · intro i hi
        by_cases hi' : i ∈ S
        · simp [hi']
        · simp [hi', hxz i hi' hi]
      · intro i hi; simp [hi]
      · intro i hi; simp [hi, hd' i hi]
    rw [e1, e2]; ring

/-- Kernel of a controlled gate. -/
theorem local_controlled (cs : List (Fin n)) (t : Fin n) (G : Bool → Bool → ℂ) :
    ∃ K, Local (cs ++ [t]) (applyControlled cs t G) K := by
  classical
  refine ⟨fun x y => if ∀ c ∈ cs, x c = true then (if ∀ i, i ≠ t → x i = y i then G (x t) (y t) else 0)
    else if x = y then 1 else 0, ?_, ?_, ?_⟩
  · intro ψ x
    by_cases h : ∀ c ∈ cs, x c = true
    · simp only [applyControlled, if_pos h, applyGate, Fintype.sum_bool]
      have hne : Function.update x t true ≠ Function.update x t false := by
        intro h; have := congrFun h t; simp at this
      rw [← Finset.sum_subset (Finset.subset_univ {Function.update x t true, Function.update x t false}), Finset.sum_pair hne]
      · have : ∀ b, ∀ i, i ≠ t → x i = Function.update x t b i := fun b i hi => by simp [hi]
        rw [if_pos (this true), if_pos (this false)]
        simp
      · intro y _ hy
        rw [if_neg]
        · simp
        · intro h'
          apply hy
          have : y = Function.update x t (y t) := by
            funext i
            by_cases hi : i = t
            · subst hi; simp
            · simp [hi, h' i hi]
          rw [this]
          cases y t <;> simp
    · simp only [applyControlled, if_neg h]
      simp
  · rintro x y ⟨i, hi, hxy⟩
    simp only [List.mem_append, List.mem_singleton, not_or] at hi
    rw [if_neg (show ¬ ∀ j, j ≠ t → x j = y j from fun h' => hxy (h' i hi.2)),
      if_neg (show ¬ x = y from fun h' => hxy (congrFun h' i))]
    simp
  · intro x y x' y' h1 h2 h3
    have hc : (∀ c ∈ cs, x c = true) ↔ (∀ c ∈ cs, x' c = true) := by
      have : ∀ c ∈ cs, x c = x' c := fun c hc => (h3 c (by simp [hc])).1
      constructor <;> intro h' c hc
      · rw [← this c hc]; exact h' c hc
      · rw [this c hc]; exact h' c hc
    have ht := h3 t (by simp)
    have hoff : (∀ i, i ≠ t → x i = y i) ↔ (∀ i, i ≠ t → x' i = y' i) := by
      constructor <;> intro h' i hi
      · by_cases hs : i ∈ cs ++ [t]
        · rw [← (h3 i hs).1, ← (h3 i hs).2]; exact h' i hi
        · exact h2 i hs
      · by_cases hs : i ∈ cs ++ [t]
        · rw [(h3 i hs).1, (h3 i hs).2]; exact h' i hi
        · exact h1 i hs
    have heq : x = y ↔ x' = y' := by
      constructor <;> intro h' <;> funext i
      · by_cases hs : i ∈ cs ++ [t]
        · rw [← (h3 i hs).1, ← (h3 i hs).2, h']
        · exact h2 i hs
      · by_cases hs : i ∈ cs ++ [t]
        · rw [(h3 i hs).1, (h3 i hs).2, h']
        · exact h1 i hs
    simp only [hc, hoff, heq, ht.1, ht.2]

/-- Kernel of an exchange of basis states under a condition. -/
theorem local_perm (S : List (Fin n)) (p : Basis n → Basis n) (hoff : ∀ x i, i ∉ S → p x i = x i)
    (hon : ∀ x x', (∀ i ∈ S, x i = x' i) → ∀ i ∈ S, p x i = p x' i) : ∃ K, Local S (fun ψ x => ψ (p x)) K := by
  classical
  refine ⟨fun x y => if y = p x then 1 else 0, ?_, ?_, ?_⟩
  · intro ψ x; simp
  · rintro x y ⟨i, hi, hxy⟩
    rw [if_neg]
    intro h
    apply hxy
    rw [h, hoff x i hi]
  · intro x y x' y' h1 h2 h3
    have hx := hon x x' (fun i hi => (h3 i hi).1)
    have : y = p x ↔ y' = p x' := by
      constructor <;> intro h' <;> funext i
      · by_cases hs : i ∈ S
        · rw [← (h3 i hs).2, ← hx i hs, h']
        · rw [hoff x' i hs, h2 i hs]
      · by_cases hs : i ∈ S
        · rw [(h3 i hs).2, hx i hs, h']
        · rw [hoff x i hs, h1 i hs]
    simp only [this]

theorem GateAct.isLocal {k : Kind} {ts : List (Fin n)} {f : State n ℂ → State n ℂ} (h : GateAct k ts f) :
    ∃ K, Local ts f K := by
  cases h with
  | @single b a t ha =>
    have h1 := local_controlled [] t (gateOf a)
    have : applyControlled [] t (gateOf a) = applyGate t (gateOf a) := funext (applyControlled_nil' t _)
    rwa [this] at h1
  | @controlled1 b a c t ha hct => exact local_controlled [c] t (gateOf a)
  | @controlled2 b a c c' t ha h1 h2 h3 => exact local_controlled [c, c'] t (gateOf a)
  | swap a b hab =>
    refine local_perm [a, b] (fun x => x ∘ Equiv.swap a b) ?_ ?_
    · intro x i hi
      simp only [List.mem_cons, List.not_mem_nil, or_false, not_or] at hi
      simp [Equiv.swap_apply_of_ne_of_ne hi.1 hi.2]
    · intro x x' h i hi
      simp only [List.mem_cons, List.not_mem_nil, or_false] at hi
      rcases hi with rfl | rfl
      · simpa using h b (by simp)
      · simpa using h a (by simp)
  | cswap c a b h1 h2 h3 =>
    have := local_perm [c, a, b] (fun x => if x c = true then x ∘ Equiv.swap a b else x) ?_ ?_
    · obtain ⟨K, hK⟩ := this
      refine ⟨K, ?_⟩
      have e : applyCSwap c a b = fun (ψ : State n ℂ) x => ψ (if x c = true then x ∘ Equiv.swap a b else x) := by
        funext ψ x
        simp only [applyCSwap, applySwap]
        split <;> rfl
      rw [e]; exact hK
    · intro x i hi
      simp only [List.mem_cons, List.not_mem_nil, or_false, not_or] at hi
      split
      · simp [Equiv.swap_apply_of_ne_of_ne hi.2.1 hi.2.2]
      · rfl
    · intro x x' h i hi
      have hc := h c (by simp)
      have hi' := hi
      simp only [List.mem_cons, List.not_mem_nil, or_false] at hi
      rw [hc]
      split
      · rcases hi with rfl | rfl | rfl
        · simpa [Equiv.swap_apply_of_ne_of_ne h1 h2] using hc
        · simpa using h b (by simp)
        · simpa using h a (by simp)
      · exact h i hi'
  | ccx c c' t h1 h2 h3 =>
    obtain ⟨a, ha, _⟩ := cols_x
    have e : (fun (ψ : State n ℂ) x => if x c = true ∧ x c' = true then ψ (Function.update x t (!x t)) else ψ x) =
        applyControlled [c, c'] t (gateOf a) := funext (ccx_eq c c' t a ha)
    rw [e]
    exact local_controlled [c, c'] t (gateOf a)

end
end DG
