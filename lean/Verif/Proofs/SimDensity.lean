import Verif.Proofs.SimFinal

/-! # Density-matrix simulation -/

namespace DG.Sim
open Complex Spec Kernel Props

variable {n : Nat}

/-- The first half of a basis state of 2n qubits. -/
def leftHalf (x : Basis (n + n)) : Basis n := fun i => x (Fin.castAdd n i)
/-- The second half. -/
def rightHalf (x : Basis (n + n)) : Basis n := fun i => x (Fin.natAdd n i)

/-- The product state. -/
def tensor (ψ φ : State n ℂ) : State (n + n) ℂ := fun x => ψ (leftHalf x) * φ (rightHalf x)

theorem left_update_left (x : Basis (n + n)) (t : Fin n) (b : Bool) :
    leftHalf (Function.update x (Fin.castAdd n t) b) = Function.update (leftHalf x) t b := by
  funext i
  by_cases h : i = t
  · subst h; simp [leftHalf]
  · have : Fin.castAdd n i ≠ Fin.castAdd n t := fun e => h (Fin.castAdd_injective n n e)
    simp [leftHalf, h, this]

theorem castAdd_ne_natAdd (i j : Fin n) : Fin.castAdd n i ≠ Fin.natAdd n j := by
  intro h
  have := congrArg Fin.val h
  simp at this; omega

theorem right_update_left (x : Basis (n + n)) (t : Fin n) (b : Bool) :
    rightHalf (Function.update x (Fin.castAdd n t) b) = rightHalf x := by
  funext i
  have : Fin.natAdd n i ≠ Fin.castAdd n t := (castAdd_ne_natAdd t i).symm
  exact Function.update_of_ne this _ _

theorem right_update_right (x : Basis (n + n)) (t : Fin n) (b : Bool) :
    rightHalf (Function.update x (Fin.natAdd n t) b) = Function.update (rightHalf x) t b := by
  funext i
  by_cases h : i = t
  · subst h; simp [rightHalf]
  · have : Fin.natAdd n i ≠ Fin.natAdd n t := fun e => h (Fin.natAdd_injective n n e)
    simp [rightHalf, h, this]

theorem left_update_right (x : Basis (n + n)) (t : Fin n) (b : Bool) :
    leftHalf (Function.update x (Fin.natAdd n t) b) = leftHalf x := by
  funext i
  have : Fin.castAdd n i ≠ Fin.natAdd n t := castAdd_ne_natAdd i t
  exact Function.update_of_ne this _ _

theorem applyControlled_left (cs : List (Fin n)) (t : Fin n) (G : Bool → Bool → ℂ) (ψ φ : State n ℂ) :
    applyControlled (cs.map (Fin.castAdd n)) (Fin.castAdd n t) G (tensor ψ φ) = tensor (applyControlled cs t G ψ) φ := by
  funext x
  have hc : (∀ c ∈ cs.map (Fin.castAdd n), x c = true) ↔ ∀ c ∈ cs, leftHalf x c = true := by simp [leftHalf]
  simp only [applyControlled, hc, tensor, applyGate, left_update_left, right_update_left]
  split
  · simp only [Fintype.sum_bool]
    show G (leftHalf x t) true * _ + G (leftHalf x t) false * _ = _
    ring
  · rfl

theorem applyControlled_right (cs : List (Fin n)) (t : Fin n) (G : Bool → Bool → ℂ) (ψ φ : State n ℂ) :
    applyControlled (cs.map (Fin.natAdd n)) (Fin.natAdd n t) G (tensor ψ φ) = tensor ψ (applyControlled cs t G φ) := by
  funext x
  have hc : (∀ c ∈ cs.map (Fin.natAdd n), x c = true) ↔ ∀ c ∈ cs, rightHalf x c = true := by simp [rightHalf]
  simp only [applyControlled, hc, tensor, applyGate, left_update_right, right_update_right]
  split
  · simp only [Fintype.sum_bool]
    show G (rightHalf x t) true * _ + G (rightHalf x t) false * _ = _
    ring
  · rfl

theorem swap_left (a b : Fin n) (x : Basis (n + n)) :
    leftHalf (x ∘ Equiv.swap (Fin.castAdd n a) (Fin.castAdd n b)) = leftHalf x ∘ Equiv.swap a b ∧
    rightHalf (x ∘ Equiv.swap (Fin.castAdd n a) (Fin.castAdd n b)) = rightHalf x := by
  constructor
  · funext i
    simp only [leftHalf, Function.comp_apply]
    congr 1
    rcases eq_or_ne i a with rfl | ha
    · simp
    · rcases eq_or_ne i b with rfl | hb
      · simp
      · rw [Equiv.swap_apply_of_ne_of_ne ha hb, Equiv.swap_apply_of_ne_of_ne
          (fun e => ha (Fin.castAdd_injective n n e)) (fun e => hb (Fin.castAdd_injective n n e))]
  · funext i
    simp only [rightHalf, Function.comp_apply]
    rw [Equiv.swap_apply_of_ne_of_ne (castAdd_ne_natAdd a i).symm (castAdd_ne_natAdd b i).symm]

theorem swap_right (a b : Fin n) (x : Basis (n + n)) :
    rightHalf (x ∘ Equiv.swap (Fin.natAdd n a) (Fin.natAdd n b)) = rightHalf x ∘ Equiv.swap a b ∧
    leftHalf (x ∘ Equiv.swap (Fin.natAdd n a) (Fin.natAdd n b)) = leftHalf x := by
  constructor
  · funext i
    simp only [rightHalf, Function.comp_apply]
    congr 1
    rcases eq_or_ne i a with rfl | ha
    · simp
    · rcases eq_or_ne i b with rfl | hb
      · simp
      · rw [Equiv.swap_apply_of_ne_of_ne ha hb, Equiv.swap_apply_of_ne_of_ne
          (fun e => ha (Fin.natAdd_injective n n e)) (fun e => hb (Fin.natAdd_injective n n e))]
  · funext i
    simp only [leftHalf, Function.comp_apply]
    rw [Equiv.swap_apply_of_ne_of_ne (castAdd_ne_natAdd i a) (castAdd_ne_natAdd i b)]

/-- A gate on the first half acts on the first factor. -/
theorem gateAct_left {k : Kind} {ts : List (Fin n)} {f : State n ℂ → State n ℂ} (h : GateAct k ts f) :
    ∃ F, GateAct k (ts.map (Fin.castAdd n)) F ∧ ∀ ψ φ, F (tensor ψ φ) = tensor (f ψ) φ := by
  have inj : ∀ {a b : Fin n}, a ≠ b → Fin.castAdd n a ≠ Fin.castAdd n b := fun h e => h (Fin.castAdd_injective n n e)
  cases h with
  | @single b a t ha =>
    refine ⟨_, .single (Fin.castAdd n t) ha, fun ψ φ => ?_⟩
    have := applyControlled_left [] t (gateOf a) ψ φ
    simpa only [List.map_nil, applyControlled_nil] using this
  | @controlled1 b a c t ha hct => exact ⟨_, .controlled1 _ _ ha (inj hct), applyControlled_left [c] t (gateOf a)⟩
  | @controlled2 b a c c' t ha h1 h2 h3 =>
    exact ⟨_, .controlled2 _ _ _ ha (inj h1) (inj h2) (inj h3), applyControlled_left [c, c'] t (gateOf a)⟩
  | swap a b hab =>
    refine ⟨_, .swap _ _ (inj hab), fun ψ φ => ?_⟩
    funext x
    simp only [applySwap, tensor, (swap_left a b x).1, (swap_left a b x).2]
  | cswap c a b h1 h2 h3 =>
    refine ⟨_, .cswap _ _ _ (inj h1) (inj h2) (inj h3), fun ψ φ => ?_⟩
    funext x
    simp only [applyCSwap, applySwap, tensor, (swap_left a b x).1, (swap_left a b x).2]
    show (if leftHalf x c = true then _ else _) = (if leftHalf x c = true then _ else _) * _
    split <;> rfl
  | ccx c c' t h1 h2 h3 =>
    refine ⟨_, .ccx _ _ _ (inj h1) (inj h2) (inj h3), fun ψ φ => ?_⟩
    obtain ⟨a, ha, _⟩ := cols_x
    beta_reduce
    rw [ccx_eq _ _ _ a ha, ccx_eq c c' t a ha]
    exact applyControlled_left [c, c'] t (gateOf a) ψ φ

/-- A gate on the second half acts on the second factor. -/
theorem gateAct_right {k : Kind} {ts : List (Fin n)} {f : State n ℂ → State n ℂ} (h : GateAct k ts f) :
    ∃ F, GateAct k (ts.map (Fin.natAdd n)) F ∧ ∀ ψ φ, F (tensor ψ φ) = tensor ψ (f φ) := by
  have inj : ∀ {a b : Fin n}, a ≠ b → Fin.natAdd n a ≠ Fin.natAdd n b := fun h e => h (Fin.natAdd_injective n n e)
  cases h with
  | @single b a t ha =>
    refine ⟨_, .single (Fin.natAdd n t) ha, fun ψ φ => ?_⟩
    have := applyControlled_right [] t (gateOf a) ψ φ
    simpa only [List.map_nil, applyControlled_nil] using this
  | @controlled1 b a c t ha hct => exact ⟨_, .controlled1 _ _ ha (inj hct), applyControlled_right [c] t (gateOf a)⟩
  | @controlled2 b a c c' t ha h1 h2 h3 =>
    exact ⟨_, .controlled2 _ _ _ ha (inj h1) (inj h2) (inj h3), applyControlled_right [c, c'] t (gateOf a)⟩
  | swap a b hab =>
    refine ⟨_, .swap _ _ (inj hab), fun ψ φ => ?_⟩
    funext x
    simp only [applySwap, tensor, (swap_right a b x).1, (swap_right a b x).2]
  | cswap c a b h1 h2 h3 =>
    refine ⟨_, .cswap _ _ _ (inj h1) (inj h2) (inj h3), fun ψ φ => ?_⟩
    funext x
    simp only [applyCSwap, applySwap, tensor, (swap_right a b x).1, (swap_right a b x).2]
    show (if rightHalf x c = true then _ else _) = _ * (if rightHalf x c = true then _ else _)
    split <;> rfl
  | ccx c c' t h1 h2 h3 =>
    refine ⟨_, .ccx _ _ _ (inj h1) (inj h2) (inj h3), fun ψ φ => ?_⟩
    obtain ⟨a, ha, _⟩ := cols_x
    beta_reduce
    rw [ccx_eq _ _ _ a ha, ccx_eq c c' t a ha]
    exact applyControlled_right [c, c'] t (gateOf a) ψ φ

/-- The conjugated state. -/
def conjState (ψ : State n ℂ) : State n ℂ := fun x => star (ψ x)

theorem conj_tensor (ψ φ : State n ℂ) : (fun x => star (tensor ψ φ x)) = tensor (conjState ψ) (conjState φ) := by
  funext x; simp [tensor, conjState]

theorem conjState_conjState (ψ : State n ℂ) : conjState (conjState ψ) = ψ := by funext x; simp [conjState]

/-- One operation of the density-matrix simulation. -/
theorem density_gate (hn : n + n ≤ 30) (u : Nat → ℝ) (op : SOp) {ts : List (Fin n)} {f : State n ℂ → State n ℂ}
    (hk : GateAct op.kind ts f) (hu : usable op.kind) (w : World) {ψ : State n ℂ}
    (hm : Stores false w.mem (tensor ψ (conjState ψ))) (hb : isBlocked op w.bits = false) :
    ∃ w1 mem', applyInstruction u (n + n) op (ts.map Fin.val) false false w = .ok w1 ∧
      applyInstruction u (n + n) op ((ts.map Fin.val).map (· + n)) false true w1 = .ok { w with mem := mem' } ∧
      Stores false mem' (tensor (f ψ) (conjState (f ψ))) := by
  obtain ⟨F, hF, hF'⟩ := gateAct_left hk
  obtain ⟨G, hG, hG'⟩ := gateAct_right hk
  have e1 : (ts.map (Fin.castAdd n)).map Fin.val = ts.map Fin.val := by simp [List.map_map, Function.comp_def]
  have e2 : (ts.map (Fin.natAdd n)).map Fin.val = (ts.map Fin.val).map (· + n) := by
    simp [List.map_map, Function.comp_def, Nat.add_comm]
  obtain ⟨mem1, h1, h2⟩ := apply_gate_ok hn u op hF hu false false w hm hb
  rw [e1] at h1
  have h2' : Stores false mem1 (tensor (f ψ) (conjState ψ)) := by rw [← hF']; exact h2
  obtain ⟨mem2, h3, h4⟩ := apply_gate_ok hn u op hG hu false true { w with mem := mem1 } h2' hb
  rw [e2] at h3
  refine ⟨_, mem2, h1, h3, ?_⟩
  have : conjAct true G (tensor (f ψ) (conjState ψ)) = tensor (f ψ) (conjState (f ψ)) := by
    unfold conjAct
    rw [if_pos rfl, conj_tensor, hG', conj_tensor, conjState_conjState, conjState_conjState]
  rw [← this]
  exact h4

theorem density_loop {c : SCircuit} (hnd : c.qubits.Nodup) (hn : c.qubits.length + c.qubits.length ≤ 30) (u : Nat → ℝ) :
    ∀ (ops : List SOp), (∀ op ∈ ops, GateOp c op) → ∀ (w : World) (s : SimState c.qubits.length),
    Stores false w.mem (tensor s.ψ (conjState s.ψ)) → w.bits = s.bits →
    ∃ w' s', densityLoop u { c with ops := ops } w = .ok w' ∧ Exec c u ops s s' ∧
      Stores false w'.mem (tensor s'.ψ (conjState s'.ψ)) ∧ w'.bits = s'.bits ∧ s'.bits = s.bits ∧
      Spec.normSq s'.ψ = Spec.normSq s.ψ := by
  intro ops
  induction ops with
  | nil => intro _ w s hm hb; exact ⟨w, s, rfl, .nil, hm, hb, rfl, rfl⟩
  | cons op ops ih =>
    intro hops w s hm hb
    have hg := hops op (by simp)
    obtain ⟨ts, f, hts, hf⟩ := gateAct_exists hg
    have htar : targetsOf { c with ops := op :: ops } op = .ok (ts.map Fin.val) := targetsOf_ok (c := c) hnd op hts
    have hbody : ∀ w0 : World, (match op.kind with
        | .measurement => (.error .typeError : Except Err World)
        | _ => do
          let targets ← targetsOf { c with ops := op :: ops } op
          let w1 ← applyInstruction u (2 * c.qubits.length) op targets false false w0
          applyInstruction u (2 * c.qubits.length) op (targets.map (· + c.qubits.length)) false true w1) =
        (do
          let w1 ← applyInstruction u (c.qubits.length + c.qubits.length) op (ts.map Fin.val) false false w0
          applyInstruction u (c.qubits.length + c.qubits.length) op ((ts.map Fin.val).map (· + c.qubits.length)) false true w1) := by
      intro w0
      rw [htar, ok_bind, two_mul]
      split
      · rename_i hk; rw [hk] at hf; cases hf
      · rfl
    by_cases hbl : isBlocked op w.bits = true
    · obtain ⟨w', s', e1, e2, e3⟩ := ih (fun o ho => hops o (by simp [ho])) w s hm hb
      refine ⟨w', s', ?_, .cons (.blocked (by rw [← hb]; exact (isBlocked_iff _ _).1 hbl)) e2, e3⟩
      unfold densityLoop at e1 ⊢
      rw [List.foldlM_cons]
      have := hbody w
      rw [apply_blocked _ _ _ _ _ _ _ hbl, ok_bind, apply_blocked _ _ _ _ _ _ _ hbl] at this
      exact (congrArg (· >>= _) this).trans e1
    · have hbl' : isBlocked op w.bits = false := by simpa using hbl
      obtain ⟨w1, mem', e1, e2, e3⟩ := density_gate hn u op hf (supported_usable hg.1) w hm hbl'
      obtain ⟨w', s', e4, e5, e6, e7, e8, e9⟩ := ih (fun o ho => hops o (by simp [ho])) { w with mem := mem' }
        { s with ψ := f s.ψ } e3 hb
      refine ⟨w', s', ?_, .cons (.gate (by rw [← hb]; exact (isBlocked_false_iff _ _).1 hbl') hts hf) e5, e6, e7, e8, ?_⟩
      · unfold densityLoop at e4 ⊢
        rw [List.foldlM_cons]
        have := hbody w
        rw [e1, ok_bind, e2] at this
        exact (congrArg (· >>= _) this).trans e4
      · rw [e9]; exact DG.GateAct.norm hf (supported_unitary hg.1) s.ψ

theorem index_tensor (x : Basis (n + n)) : index false x = index false (leftHalf x) * 2 ^ n + index false (rightHalf x) := by
  apply Nat.eq_of_testBit_eq
  intro i
  have hr := index_lt false (rightHalf x)
  rw [Nat.mul_comm, Nat.testBit_two_pow_mul_add _ hr]
  by_cases hi : i < n
  · rw [if_pos hi]
    have h1 := testBit_index false x (Fin.natAdd n (Fin.rev ⟨i, hi⟩))
    have h2 := testBit_index false (rightHalf x) (Fin.rev ⟨i, hi⟩)
    have p1 : pos false (n + n) (Fin.natAdd n (Fin.rev ⟨i, hi⟩)).val = i := by simp [pos]; omega
    have p2 : pos false n (Fin.rev (⟨i, hi⟩ : Fin n)).val = i := by simp [pos]; omega
    rw [p1] at h1; rw [p2] at h2
    rw [h1, h2]; rfl
  · rw [if_neg hi]
    by_cases hi2 : i - n < n
    · have h1 := testBit_index false x (Fin.castAdd n (Fin.rev ⟨i - n, hi2⟩))
      have h2 := testBit_index false (leftHalf x) (Fin.rev ⟨i - n, hi2⟩)
      have p1 : pos false (n + n) (Fin.castAdd n (Fin.rev ⟨i - n, hi2⟩)).val = i := by simp [pos]; omega
      have p2 : pos false n (Fin.rev (⟨i - n, hi2⟩ : Fin n)).val = i - n := by simp [pos]; omega
      rw [p1] at h1; rw [p2] at h2
      rw [h1, h2]; rfl
    · rw [Nat.testBit_lt_two_pow (lt_of_lt_of_le (index_lt false x) (Nat.pow_le_pow_right (by omega) (by omega))),
        Nat.testBit_lt_two_pow (lt_of_lt_of_le (index_lt false (leftHalf x)) (Nat.pow_le_pow_right (by omega) (by omega)))]

/-- A basis state of 2n qubits is a pair of basis states of n qubits. -/
def halves : Basis (n + n) ≃ Basis n × Basis n where
  toFun x := (leftHalf x, rightHalf x)
  invFun p := Fin.append p.1 p.2
  left_inv x := by
    funext i
    refine Fin.addCases (fun j => ?_) (fun j => ?_) i
    · exact Fin.append_left _ _ j
    · exact Fin.append_right _ _ j
  right_inv p := by
    refine Prod.ext ?_ ?_
    · funext i; exact Fin.append_left _ _ i
    · funext i; exact Fin.append_right _ _ i

/-- The product state has the product of the norms. -/
theorem normSq_tensor (ψ φ : State n ℂ) : Spec.normSq (tensor ψ φ) = Spec.normSq ψ * Spec.normSq φ := by
  unfold Spec.normSq
  rw [Finset.sum_mul_sum, ← Fintype.sum_prod_type', ← Equiv.sum_comp (halves (n := n))]
  refine Finset.sum_congr rfl (fun x _ => ?_)
  simp only [tensor, Complex.normSq_mul]
  rfl

theorem normSq_conj (ψ : State n ℂ) : Spec.normSq (conjState ψ) = Spec.normSq ψ := by
  unfold Spec.normSq conjState
  refine Finset.sum_congr rfl (fun x _ => ?_)
  exact Complex.normSq_conj _

end DG.Sim
