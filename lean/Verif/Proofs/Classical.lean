import Verif.Spec.Classical
import Verif.Proofs.GateAct

/-! Classical gates on basis states. -/

noncomputable section

namespace DG.Classic
open Complex Spec DG.Sim

variable {n : Nat}

/-- The basis state `x0` with the amplitude `z`. -/
def ket (x0 : Basis n) (z : ℂ) : State n ℂ := fun x => if x = x0 then z else 0

/-- The matrix of a classical gate. -/
def Monomial (G : Bool → Bool → ℂ) (f : Bool) (p : Bool → ℂ) : Prop := ∀ i j, G i j = if i = (j ^^ f) then p j else 0

theorem classical_monomial {b : Base} (hb : ClassicalGate b) {a : Arr2} (ha : b.matrix = .ok a) :
    ∃ p, Monomial (gateOf a) (flips b) p ∧ (∀ j, Complex.normSq (p j) = 1) ∧ ((b = .identity ∨ b = .x) → ∀ j, p j = 1) := by
  have nexp : ∀ r : ℝ, Complex.normSq (exp (r * I)) = 1 := by
    intro r
    rw [Complex.normSq_eq_norm_sq, Complex.norm_exp_ofReal_mul_I]; norm_num
  cases b with
  | identity => cases ha; exact ⟨fun _ => 1, fun i j => by cases i <;> cases j <;> simp [gateOf, flips], by simp, by simp⟩
  | x => cases ha; exact ⟨fun _ => 1, fun i j => by cases i <;> cases j <;> simp [gateOf, flips], by simp, by simp⟩
  | y =>
    cases ha
    exact ⟨fun j => if j then -I else I, fun i j => by cases i <;> cases j <;> simp [gateOf, flips], fun j => by cases j <;> simp, by simp⟩
  | z =>
    cases ha
    exact ⟨fun j => if j then -1 else 1, fun i j => by cases i <;> cases j <;> simp [gateOf, flips], fun j => by cases j <;> simp, by simp⟩
  | s =>
    cases ha
    exact ⟨fun j => if j then I else 1, fun i j => by cases i <;> cases j <;> simp [gateOf, flips], fun j => by cases j <;> simp, by simp⟩
  | t =>
    cases ha
    refine ⟨fun j => if j then exp (I * (Real.pi : ℂ) / 4) else 1, fun i j => by cases i <;> cases j <;> simp [gateOf, flips], fun j => ?_, by simp⟩
    cases j
    · simp
    · have := nexp (Real.pi / 4)
      simp only [if_true]
      rw [← this]; congr 2; push_cast; ring
  | rz p =>
    simp only [Base.matrix] at ha
    cases hp : p.real with
    | error e => rw [hp] at ha; cases ha
    | ok θ =>
      rw [hp] at ha
      cases ha
      refine ⟨fun j => if j then exp (I * (θ : ℂ) / 2) else exp (-1 * I * (θ : ℂ) / 2),
        fun i j => by cases i <;> cases j <;> simp [gateOf, flips], fun j => ?_, by simp⟩
      cases j
      · have := nexp (-θ / 2)
        simp only [Bool.false_eq_true, if_false]
        rw [← this]; congr 2; push_cast; ring
      · have := nexp (θ / 2)
        simp only [if_true]
        rw [← this]; congr 2; push_cast; ring
  | _ => exact absurd hb id

theorem applyGate_ket {G : Bool → Bool → ℂ} {f : Bool} {p : Bool → ℂ} (h : Monomial G f p) (t : Fin n) (x0 : Basis n) (z : ℂ) :
    applyGate t G (ket x0 z) = ket (Function.update x0 t (x0 t ^^ f)) (p (x0 t) * z) := by
  funext x
  have hu : ∀ j, Function.update x t j = x0 ↔ (j = x0 t ∧ ∀ q, q ≠ t → x q = x0 q) := by
    intro j
    constructor
    · rintro rfl
      exact ⟨by simp, fun q hq => by simp [Function.update_of_ne hq]⟩
    · rintro ⟨rfl, h⟩
      funext q
      by_cases hq : q = t
      · subst hq; simp
      · rw [Function.update_of_ne hq, h q hq]
  have hx : x = Function.update x0 t (x0 t ^^ f) ↔ (x t = (x0 t ^^ f) ∧ ∀ q, q ≠ t → x q = x0 q) := by
    constructor
    · rintro rfl
      exact ⟨by simp, fun q hq => by simp [Function.update_of_ne hq]⟩
    · rintro ⟨h1, h⟩
      funext q
      by_cases hq : q = t
      · subst hq; simp [h1]
      · rw [Function.update_of_ne hq, h q hq]
  simp only [applyGate, ket, hu, hx, h _ _]
  by_cases hr : ∀ q, q ≠ t → x q = x0 q
  · simp only [iff_true_intro hr, and_true]
    cases x0 t <;> cases x t <;> cases f <;> simp
  · simp only [hr, and_false, if_false, mul_zero, Finset.sum_const_zero]

theorem applyControlled_ket {G : Bool → Bool → ℂ} {f : Bool} {p : Bool → ℂ} (h : Monomial G f p) (c t : Fin n) (hct : c ≠ t) (x0 : Basis n) (z : ℂ) :
    applyControlled [c] t G (ket x0 z) = ket (Function.update x0 t (x0 t ^^ (x0 c && f))) (if x0 c then p (x0 t) * z else z) := by
  funext x
  simp only [applyControlled, List.mem_singleton, forall_eq, applyGate_ket h]
  cases hc : x0 c
  · simp only [Bool.false_and, Bool.xor_false, Function.update_eq_self, Bool.false_eq_true, if_false]
    by_cases hx : x c = true
    · rw [if_pos hx]
      have h1 : x ≠ Function.update x0 t (x0 t ^^ f) := by rintro rfl; rw [Function.update_of_ne hct, hc] at hx; cases hx
      have h2 : x ≠ x0 := by rintro rfl; rw [hc] at hx; cases hx
      simp [ket, h1, h2]
    · rw [if_neg hx]
  · simp only [Bool.true_and, if_true]
    by_cases hx : x c = true
    · rw [if_pos hx]
    · rw [if_neg hx]
      have h1 : x ≠ Function.update x0 t (x0 t ^^ f) := by rintro rfl; rw [Function.update_of_ne hct] at hx; exact hx hc
      have h2 : x ≠ x0 := by rintro rfl; exact hx hc
      simp [ket, h1, h2]

/-- An involution of the basis states. -/
theorem ket_invol (e : Basis n → Basis n) (he : ∀ x, e (e x) = x) (x0 : Basis n) (z : ℂ) (x : Basis n) : ket x0 z (e x) = ket (e x0) z x := by
  have : e x = x0 ↔ x = e x0 := ⟨fun h => by rw [← h, he], fun h => by rw [h, he]⟩
  simp only [ket, this]

theorem comp_swap (a b : Fin n) (x : Basis n) : x ∘ Equiv.swap a b = Function.update (Function.update x a (x b)) b (x a) := by
  funext q
  by_cases h2 : q = b
  · subst h2; simp
  · by_cases h1 : q = a
    · subst h1; simp [Function.update_of_ne h2]
    · simp [Function.update_of_ne h2, Function.update_of_ne h1, Equiv.swap_apply_of_ne_of_ne h1 h2]

theorem swap_ket (a b : Fin n) (x0 : Basis n) (z : ℂ) : applySwap a b (ket x0 z) = ket (Function.update (Function.update x0 a (x0 b)) b (x0 a)) z := by
  funext x
  rw [← comp_swap]
  exact ket_invol (fun x => x ∘ Equiv.swap a b) (fun x => by funext q; simp) x0 z x

theorem cswap_ket (c a b : Fin n) (h1 : c ≠ a) (h2 : c ≠ b) (x0 : Basis n) (z : ℂ) :
    applyCSwap c a b (ket x0 z) = ket (if x0 c then Function.update (Function.update x0 a (x0 b)) b (x0 a) else x0) z := by
  funext x
  rw [← comp_swap]
  have hc : ∀ x : Basis n, (x ∘ Equiv.swap a b) c = x c := fun x => by simp [Equiv.swap_apply_of_ne_of_ne h1 h2]
  have := ket_invol (fun x : Basis n => if x c = true then x ∘ Equiv.swap a b else x) (fun x => by
    by_cases hx : x c = true
    · simp only [hx, if_true, hc]; funext q; simp
    · simp [hx]) x0 z x
  rw [← this]
  simp only [applyCSwap, applySwap]
  split <;> rfl

theorem ccx_ket (c c' t : Fin n) (h1 : c ≠ t) (h2 : c' ≠ t) (x0 : Basis n) (z : ℂ) :
    (fun x : Basis n => if x c = true ∧ x c' = true then ket x0 z (Function.update x t (!x t)) else ket x0 z x) =
      ket (Function.update x0 t (x0 t ^^ (x0 c && x0 c'))) z := by
  funext x
  have := ket_invol (fun x : Basis n => if x c = true ∧ x c' = true then Function.update x t (!x t) else x) (fun x => by
    by_cases hx : x c = true ∧ x c' = true
    · simp [hx, Function.update_of_ne h1, Function.update_of_ne h2]
    · simp only [hx, if_false]) x0 z x
  have e : Function.update x0 t (x0 t ^^ (x0 c && x0 c')) = if x0 c = true ∧ x0 c' = true then Function.update x0 t (!x0 t) else x0 := by
    cases x0 c <;> cases x0 c' <;> simp
  rw [e, ← this]
  split <;> rfl

/-! Measurements. -/

theorem born_ket (t : Fin n) (m : Bool) (x0 : Basis n) {z : ℂ} (hz : Complex.normSq z = 1) : born t m (ket x0 z) = if x0 t = m then 1 else 0 := by
  unfold born
  rw [Finset.sum_eq_single x0]
  · simp [ket, hz]
  · intro x _ hx; simp [ket, hx]
  · simp

theorem outcome_ket (t : Fin n) (x0 : Basis n) {z : ℂ} (hz : Complex.normSq z = 1) {u : ℝ} (h0 : 0 ≤ u) (h1 : u < 1) : outcome t (ket x0 z) u = x0 t := by
  unfold outcome
  rw [born_ket t false x0 hz]
  cases hx : x0 t
  · simp [h1]
  · simp [h0]

theorem project_ket (t : Fin n) (x0 : Basis n) {z : ℂ} (hz : Complex.normSq z = 1) : project t (x0 t) (ket x0 z) = ket x0 z := by
  funext x
  simp only [project, born_ket t _ x0 hz, if_true, Real.sqrt_one]
  by_cases hx : x = x0
  · subst hx; simp
  · simp [ket, hx]

theorem measureAll_ket {u : Nat → ℝ} (hu : ∀ k, 0 ≤ u k ∧ u k < 1) (ts : List (Fin n)) (x0 : Basis n) {z : ℂ} (hz : Complex.normSq z = 1) :
    ∀ k, measureAll u ts k (ket x0 z) = (ts.map x0, ket x0 z) := by
  induction ts with
  | nil => intro k; rfl
  | cons t ts ih =>
    intro k
    simp only [measureAll, outcome_ket t x0 hz (hu k).1 (hu k).2, project_ket t x0 hz, ih, List.map_cons]

/-! Circuits. -/

/-- The values of the qubits of the circuit. -/
def valuesOf (c : SCircuit) (x : Nat → Bool) : Basis c.qubits.length := fun i => x (qubitAt c i)

theorem update_at {c : SCircuit} (hnd : c.qubits.Nodup) (x : Nat → Bool) (t : Fin c.qubits.length) (v : Bool) :
    valuesOf c (Function.update x (qubitAt c t) v) = Function.update (valuesOf c x) t v := by
  funext i
  by_cases h : i = t
  · subst h; simp [valuesOf]
  · have : qubitAt c i ≠ qubitAt c t := fun e => h (Fin.ext ((List.Nodup.getElem_inj_iff hnd).1 e))
    simp only [valuesOf, Function.update_of_ne h, Function.update_of_ne this]

theorem gate_ket {c : SCircuit} (hnd : c.qubits.Nodup) {op : SOp} (hop : ClassicalOp op) (hs : Supported op.kind) {ts : List (Fin c.qubits.length)} {f : _}
    (hq : op.qubits = ts.map (qubitAt c)) (h : GateAct op.kind ts f) (x : Nat → Bool) (z : ℂ) :
    ∃ p, f (ket (valuesOf c x) z) = ket (valuesOf c (classicalAct op.kind op.qubits x)) (p * z) ∧ Complex.normSq p = 1 ∧ (NoPhase op → p = 1) := by
  have up := fun x t v => update_at hnd x t v
  unfold ClassicalOp at hop
  unfold NoPhase
  rw [hq]
  generalize op.kind = k at *
  cases h with
  | single t ha =>
    obtain ⟨p, h1, h2, h3⟩ := classical_monomial hop ha
    refine ⟨p (valuesOf c x t), ?_, h2 _, fun h => h3 h _⟩
    rw [applyGate_ket h1]
    simp only [classicalAct, List.map_cons, List.map_nil, up]
    rfl
  | controlled1 c' t ha hct =>
    obtain ⟨p, h1, h2, h3⟩ := classical_monomial hop ha
    refine ⟨if valuesOf c x c' then p (valuesOf c x t) else 1, ?_, by split <;> simp [h2], fun h => by split <;> simp [h3 h]⟩
    rw [applyControlled_ket h1 c' t hct]
    simp only [classicalAct, List.map_cons, List.map_nil, up]
    cases h : valuesOf c x c' <;> rw [valuesOf] at h <;> simp [h, valuesOf]
  | controlled2 _ _ _ _ _ _ _ => exact absurd hs.1 (by decide)
  | swap a b hab =>
    refine ⟨1, ?_, by simp, fun _ => rfl⟩
    rw [swap_ket, one_mul]
    simp only [classicalAct, List.map_cons, List.map_nil, up]
    rfl
  | cswap d a b h1 h2 h3 =>
    refine ⟨1, ?_, by simp, fun _ => rfl⟩
    rw [cswap_ket d a b h1 h2, one_mul]
    simp only [classicalAct, List.map_cons, List.map_nil]
    cases h : x (qubitAt c d)
    · rw [if_neg (by simp [valuesOf, h]), if_neg (by simp)]
    · rw [if_pos (by simp [valuesOf, h]), if_pos rfl, up, up]
      rfl
  | ccx d d' t h1 h2 h3 =>
    refine ⟨1, ?_, by simp, fun _ => rfl⟩
    refine (ccx_ket d d' t h2 h3 _ _).trans ?_
    simp only [classicalAct, List.map_cons, List.map_nil, up, one_mul]
    rfl

theorem exec_ket {c : SCircuit} (hnd : c.qubits.Nodup) {u : Nat → ℝ} (hu : ∀ k, 0 ≤ u k ∧ u k < 1) {ops : List SOp} {s s' : SimState c.qubits.length}
    (h : Exec c u ops s s') : (∀ op ∈ ops, (Supported op.kind ∧ ClassicalOp op) ∨ op.kind = .measurement) → ∀ (v : Values) (z : ℂ), Complex.normSq z = 1 →
    s.ψ = ket (valuesOf c v.qubits) z → s.bits = v.bits →
    ∃ z', s'.ψ = ket (valuesOf c (ops.foldl classicalStep v).qubits) z' ∧ s'.bits = (ops.foldl classicalStep v).bits ∧ Complex.normSq z' = 1 ∧
      ((∀ op ∈ ops, NoPhase op) → z' = z) := by
  induction h with
  | nil => intro _ v z hz h1 h2; exact ⟨z, h1, h2, hz, fun _ => rfl⟩
  | @cons op ops s s1 s2 hst _ ih =>
    intro hops v z hz h1 h2
    have hops' := fun o ho => hops o (List.mem_cons_of_mem _ ho)
    have key : ∃ z1, s1.ψ = ket (valuesOf c (classicalStep v op).qubits) z1 ∧ s1.bits = (classicalStep v op).bits ∧ Complex.normSq z1 = 1 ∧ (NoPhase op → z1 = z) := by
      unfold classicalStep
      cases hst with
      | blocked hb => rw [h2] at hb; rw [if_pos hb]; exact ⟨z, h1, h2, hz, fun _ => rfl⟩
      | gate hb hq hg =>
        rw [h2] at hb
        rw [if_neg hb]
        have hm : op.kind ≠ .measurement := by intro e; rw [e] at hg; cases hg
        rcases hops op List.mem_cons_self with ⟨hs, hc⟩ | h
        · obtain ⟨p, p1, p2, p3⟩ := gate_ket hnd hc hs hq hg v.qubits z
          refine ⟨p * z, ?_, ?_, by rw [Complex.normSq_mul, p2, hz, one_mul], fun h => by rw [p3 h, one_mul]⟩
          · simp only [h1, p1]
          · simp only [hm, if_false, h2]
        · exact absurd h hm
      | measure hb hk hq =>
        rw [h2] at hb
        rw [if_neg hb]
        refine ⟨z, ?_, ?_, hz, fun _ => rfl⟩
        · simp only [h1, measureAll_ket hu _ _ hz, hk, classicalAct]
        · simp only [h1, measureAll_ket hu _ _ hz, hk, if_true, h2, hq, List.map_map]
          rfl
    obtain ⟨z1, k1, k2, k3, k4⟩ := key
    obtain ⟨z2, m1, m2, m3, m4⟩ := ih hops' _ z1 k3 k1 k2
    exact ⟨z2, m1, m2, m3, fun h => (m4 fun o ho => h o (List.mem_cons_of_mem _ ho)).trans (k4 (h op List.mem_cons_self))⟩

end DG.Classic
