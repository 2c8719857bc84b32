import Verif.Proofs.Sim

/-! # Whole simulations, sampling, density matrices -/

namespace DG.Sim
open Complex Spec Kernel Props

variable {n : Nat}

/-! ## State-vector simulation -/

theorem norm2_stores {le : Bool} {mem : List ℂ} {ψ : State n ℂ} (hm : Stores le mem ψ) :
    norm2 mem = Real.sqrt (Spec.normSq ψ) := by
  unfold norm2
  rw [sum_stores hm Complex.normSq]
  rfl

theorem isCloseOne_one : isCloseOne 1 := by
  unfold isCloseOne; norm_num

theorem two_shift (hn : 1 ≤ n) : 2 <<< (n - 1) = 2 ^ n := by
  rw [Nat.shiftLeft_eq, ← pow_succ']
  congr 1; omega

theorem assertState_ok (hn : 1 ≤ n) {le : Bool} {mem : List ℂ} {ψ : State n ℂ} (hm : Stores le mem ψ)
    (h1 : Spec.normSq ψ = 1) : assertState n mem = .ok () := by
  unfold assertState
  rw [two_shift hn, if_neg (by rw [hm.1]; simp), norm2_stores hm, h1, Real.sqrt_one, if_pos isCloseOne_one]

theorem simulate_of_loop {c : SCircuit} (hq : GoodQubits c) {u : Nat → ℝ} {le : Bool} {bits : Nat → Option Bool}
    {records : Nat → Record} {w : World} {ψ : State c.qubits.length ℂ}
    (h : loop u c le { mem := initialState c.qubits.length, bits := bits, drawn := 0, records := records } = .ok w)
    (hm : Stores le w.mem ψ) (h1 : Spec.normSq ψ = 1) : simulate u c le bits records = .ok (some w) := by
  unfold simulate
  rw [if_neg (by have := hq.2.1; omega), h, ok_bind, assertState_ok hq.2.1 hm h1, ok_bind]
  rfl

theorem simulate_gates {c : SCircuit} (hq : GoodQubits c) (hops : ∀ op ∈ c.ops, GateOp c op) (u : Nat → ℝ) (le : Bool)
    (bits : Nat → Option Bool) (records : Nat → Record) :
    ∃ w s, simulate u c le bits records = .ok (some w) ∧ Exec c u c.ops ⟨zeroState _, bits, 0⟩ s ∧ Stores le w.mem s.ψ ∧
      w.bits = bits ∧ Spec.normSq s.ψ = 1 := by
  obtain ⟨w, s, e1, e2, e3, e4, _, e6, e7⟩ := loop_gates hq u le c.ops hops
    { mem := initialState c.qubits.length, bits := bits, drawn := 0, records := records } ⟨zeroState _, bits, 0⟩
    (stores_initial le) rfl rfl
  rw [normSq_zeroState] at e7
  exact ⟨w, s, simulate_of_loop hq e1 e3 e7, e2, e3, e4.trans e6, e7⟩

theorem simulate_all {c : SCircuit} (hq : GoodQubits c) (hops : ∀ op ∈ c.ops, GateOp c op ∨ MeasureOp c op) (u : Nat → ℝ)
    (hu : ∀ k, 0 ≤ u k ∧ u k < 1) (bits : Nat → Option Bool) (records : Nat → Record) :
    ∃ w s, simulate u c false bits records = .ok (some w) ∧ Exec c u c.ops ⟨zeroState _, bits, 0⟩ s ∧
      Stores false w.mem s.ψ ∧ w.bits = s.bits ∧ w.drawn = s.drawn ∧ Spec.normSq s.ψ = 1 := by
  obtain ⟨w, s, e1, e2, e3, e4, e5, e6⟩ := loop_all hq u hu c.ops hops
    { mem := initialState c.qubits.length, bits := bits, drawn := 0, records := records } ⟨zeroState _, bits, 0⟩
    (stores_initial false) rfl rfl normSq_zeroState
  exact ⟨w, s, simulate_of_loop hq e1 e3 e6, e2, e3, e4, e5, e6⟩

/-! ## The semantics is deterministic -/

theorem gateAct_det {k : Kind} {ts : List (Fin n)} {f g : State n ℂ → State n ℂ} (h1 : GateAct k ts f) (h2 : GateAct k ts g) :
    f = g := by
  cases h1 with
  | single t ha => cases h2 with | single _ hb => rw [ha] at hb; cases hb; rfl
  | controlled1 c t ha _ => cases h2 with | controlled1 _ _ hb _ => rw [ha] at hb; cases hb; rfl
  | controlled2 c c' t ha _ _ _ => cases h2 with | controlled2 _ _ _ hb _ _ _ => rw [ha] at hb; cases hb; rfl
  | swap a b _ => cases h2; rfl
  | cswap c a b _ _ _ => cases h2; rfl
  | ccx c c' t _ _ _ => cases h2; rfl

theorem map_qubitAt_inj {c : SCircuit} (hnd : c.qubits.Nodup) {ts ts' : List (Fin c.qubits.length)}
    (h : ts.map (qubitAt c) = ts'.map (qubitAt c)) : ts = ts' :=
  List.map_injective_iff.2 (fun _ _ h => qubitAt_inj hnd h) h

theorem step_det {c : SCircuit} (hnd : c.qubits.Nodup) {u : Nat → ℝ} {op : SOp} {s s1 s2 : SimState c.qubits.length}
    (h1 : Step c u op s s1) (h2 : Step c u op s s2) : s1 = s2 := by
  cases h1 with
  | blocked hb =>
    cases h2 with
    | blocked _ => rfl
    | gate hb' _ _ => exact absurd hb hb'
    | measure hb' _ _ => exact absurd hb hb'
  | gate hb hq hg =>
    cases h2 with
    | blocked hb' => exact absurd hb' hb
    | gate _ hq' hg' =>
      have := map_qubitAt_inj hnd (hq.symm.trans hq')
      subst this
      rw [gateAct_det hg hg']
    | measure _ hk _ => rw [hk] at hg; cases hg
  | measure hb hk hq =>
    cases h2 with
    | blocked hb' => exact absurd hb' hb
    | gate _ _ hg => rw [hk] at hg; cases hg
    | measure _ _ hq' =>
      have := map_qubitAt_inj hnd (hq.symm.trans hq')
      subst this
      rfl

theorem exec_det {c : SCircuit} (hnd : c.qubits.Nodup) {u : Nat → ℝ} {ops : List SOp} {s s1 s2 : SimState c.qubits.length}
    (h1 : Exec c u ops s s1) (h2 : Exec c u ops s s2) : s1 = s2 := by
  induction h1 with
  | nil => cases h2; rfl
  | cons hs _ ih =>
    cases h2 with
    | cons hs' h2 =>
      have := step_det hnd hs hs'
      subst this
      exact ih h2

theorem exec_append {c : SCircuit} {u : Nat → ℝ} {ops ops' : List SOp} {s s' : SimState c.qubits.length} :
    Exec c u (ops ++ ops') s s' ↔ ∃ s1, Exec c u ops s s1 ∧ Exec c u ops' s1 s' := by
  induction ops generalizing s with
  | nil =>
    constructor
    · intro h; exact ⟨s, .nil, h⟩
    · rintro ⟨s1, h, h'⟩; cases h; exact h'
  | cons op ops ih =>
    constructor
    · intro h
      cases h with
      | cons hs h =>
        obtain ⟨s1, h1, h2⟩ := ih.1 h
        exact ⟨s1, .cons hs h1, h2⟩
    · rintro ⟨s1, h, h'⟩
      cases h with
      | cons hs h => exact .cons hs (ih.2 ⟨s1, h, h'⟩)

/-! ## Measuring again -/

theorem born_project (t : Fin n) (m : Bool) (ψ : State n ℂ) (h : 0 < born t m ψ) : born t m (project t m ψ) = 1 := by
  have hs := Real.mul_self_sqrt h.le
  have hpos : 0 < Real.sqrt (born t m ψ) := Real.sqrt_pos.2 h
  have : born t m (project t m ψ) = (1 / Real.sqrt (born t m ψ)) * (1 / Real.sqrt (born t m ψ)) * born t m ψ := by
    conv_lhs => unfold born project
    conv_rhs => rw [show ∀ a : ℝ, a * born t m ψ = a * ∑ x, if x t = m then Complex.normSq (ψ x) else 0 from fun _ => rfl]
    rw [Finset.mul_sum]
    refine Finset.sum_congr rfl (fun x _ => ?_)
    split
    · rw [Complex.normSq_mul, Complex.normSq_ofReal]
    · simp
  rw [this]
  generalize Real.sqrt (born t m ψ) = r at *
  rw [← hs]
  field_simp

theorem born_project_other (t : Fin n) (m : Bool) (ψ : State n ℂ) : born t (!m) (project t m ψ) = 0 := by
  unfold born project
  refine Finset.sum_eq_zero (fun x _ => ?_)
  cases m <;> cases x t <;> simp

theorem project_project (t : Fin n) (m : Bool) (ψ : State n ℂ) (h : 0 < born t m ψ) :
    project t m (project t m ψ) = project t m ψ := by
  have h1 := born_project t m ψ h
  funext x
  show (if x t = m then _ else _) = _
  split
  · rw [h1]; simp
  · rename_i hx
    simp [project, hx]

theorem outcome_again (t : Fin n) (m : Bool) (ψ : State n ℂ) (h : 0 < born t m ψ) {u : ℝ} (hu0 : 0 ≤ u) (hu1 : u < 1) :
    outcome t (project t m ψ) u = m := by
  cases m
  · rw [outcome_false, born_project t false ψ h]; exact hu1
  · rw [outcome_true]
    have := born_project_other t true ψ
    rw [show (!true) = false from rfl] at this
    rw [this]; exact hu0

theorem born_outcome_pos (t : Fin n) (ψ : State n ℂ) (h1 : Spec.normSq ψ = 1) {u : ℝ} (hu0 : 0 ≤ u) (hu1 : u < 1) :
    0 < born t (outcome t ψ u) ψ := by
  have hadd := born_add t ψ
  cases ho : outcome t ψ u
  · have := outcome_false.1 ho; linarith
  · have := outcome_true.1 ho
    rw [h1] at hadd
    linarith

theorem normSq_project (t : Fin n) (m : Bool) (ψ : State n ℂ) (h : 0 < born t m ψ) : Spec.normSq (project t m ψ) = 1 := by
  rw [← born_add t (project t m ψ)]
  have h1 := born_project t m ψ h
  have h2 := born_project_other t m ψ
  cases m
  · rw [show (!false) = true from rfl] at h2; rw [h1, h2]; ring
  · rw [show (!true) = false from rfl] at h2; rw [h1, h2]; ring

/-- Measuring qubits one after the other projects onto the outcomes: the final state is supported on basis states of the
original support that show all outcomes. -/
theorem measureAll_support (u : Nat → ℝ) (hu : ∀ k, 0 ≤ u k ∧ u k < 1) :
    ∀ (ts : List (Fin n)) (k : Nat) (ψ : State n ℂ), Spec.normSq ψ = 1 →
    (measureAll u ts k ψ).1.length = ts.length ∧ Spec.normSq (measureAll u ts k ψ).2 = 1 ∧
    ∀ x, (measureAll u ts k ψ).2 x ≠ 0 → ψ x ≠ 0 ∧ (measureAll u ts k ψ).1 = ts.map x
  | [], k, ψ, h1 => ⟨rfl, h1, fun x hx => ⟨hx, rfl⟩⟩
  | t :: ts, k, ψ, h1 => by
    have hpos := born_outcome_pos t ψ h1 (hu k).1 (hu k).2
    obtain ⟨i1, i2, i3⟩ := measureAll_support u hu ts (k + 1) (project t (outcome t ψ (u k)) ψ) (normSq_project t _ ψ hpos)
    refine ⟨by simp [measureAll, i1], i2, ?_⟩
    intro x hx
    obtain ⟨j1, j2⟩ := i3 x hx
    have hxt : x t = outcome t ψ (u k) := by
      by_contra hne
      exact j1 (by simp [project, hne])
    refine ⟨?_, ?_⟩
    · intro h0; exact j1 (by simp [project, h0])
    · simp only [measureAll, List.map_cons, j2, hxt]

theorem exists_support (ψ : State n ℂ) (h : Spec.normSq ψ = 1) : ∃ x, ψ x ≠ 0 := by
  by_contra hc
  push Not at hc
  have : Spec.normSq ψ = 0 := Finset.sum_eq_zero (fun x _ => by simp [hc x])
  rw [this] at h; exact absurd h (by norm_num)

/-! ## Sampling -/

theorem sampleRow_ok (hn : n ≤ 30) (u : Nat → ℝ) (hu : ∀ k, 0 ≤ u k ∧ u k < 1) :
    ∀ (ts : List (Fin n)) (k : Nat) (mem : List ℂ) (ψ : State n ℂ), Stores false mem ψ → Spec.normSq ψ = 1 →
    ∃ mem', sampleRow u (ts.map fun t : Fin n => (t.val : Int)) mem k =
      .ok ((measureAll u ts k ψ).1.map (fun b => (b.toNat : Int)), mem', k + ts.length)
  | [], k, mem, ψ, _, _ => ⟨mem, rfl⟩
  | t :: ts, k, mem, ψ, hm, h1 => by
    obtain ⟨_, mem1, e1, e2, e3, _⟩ := sampleQubit_ok hn false hm h1 t (hu k).1 (hu k).2
    obtain ⟨mem', e4⟩ := sampleRow_ok hn u hu ts (k + 1) mem1 _ e2 e3
    refine ⟨mem', ?_⟩
    simp only [List.map_cons, sampleRow, if_neg (show ¬ (t.val : Int) < 0 by omega), Int.toNat_natCast, e1, ok_bind, e4,
      measureAll, pure_ok, List.length_cons]
    rw [Nat.add_assoc, Nat.add_comm 1]

theorem sampleLoop_ok (hn : n ≤ 30) (u : Nat → ℝ) (hu : ∀ k, 0 ≤ u k ∧ u k < 1) (ts : List (Fin n)) {mem : List ℂ}
    {ψ : State n ℂ} (hm : Stores false mem ψ) (h1 : Spec.normSq ψ = 1) : ∀ (num k : Nat),
    sampleLoop u (ts.map fun t : Fin n => (t.val : Int)) num mem k =
      .ok ((List.range num).map (fun i => (measureAll u ts (k + i * ts.length) ψ).1.map (fun b => (b.toNat : Int))), mem)
  | 0, k => rfl
  | num + 1, k => by
    obtain ⟨mem', e⟩ := sampleRow_ok hn u hu ts k mem ψ hm h1
    simp only [sampleLoop, e, ok_bind, sampleLoop_ok hn u hu ts hm h1 num (k + ts.length), pure_ok]
    rw [List.range_succ_eq_map, List.map_cons, List.map_map]
    simp only [Nat.zero_mul, Nat.add_zero]
    congr 3
    refine List.map_congr_left (fun i _ => ?_)
    simp only [Function.comp_apply, Nat.succ_eq_add_one]
    rw [show k + ts.length + i * ts.length = k + (i + 1) * ts.length by ring]

theorem max?_lt_iff (l : List Int) (b : Int) : (∃ m, l.max? = some m ∧ m ≥ b) ↔ ∃ x ∈ l, x ≥ b := by
  constructor
  · rintro ⟨m, hm, h⟩
    exact ⟨m, List.max?_mem hm, h⟩
  · rintro ⟨x, hx, h⟩
    cases hm : l.max? with
    | none =>
      rw [List.max?_eq_none_iff] at hm
      subst hm; simp at hx
    | some m =>
      refine ⟨m, rfl, le_trans h ?_⟩
      exact (List.max?_eq_some_iff.1 hm).2 x hx

end DG.Sim
