import Verif.Spec.Replace
import Verif.Proofs.Custom
import Verif.Proofs.SimExtra
import Verif.Proofs.SimFinal

/-! Lemmas for C106. -/

noncomputable section

namespace DG
open Complex Sim Spec Custom

/-! ## Linear maps given by kernels -/

/-- `f` is given by a matrix. -/
def Lin {n : Nat} (f : State n ℂ → State n ℂ) : Prop := ∃ K : Basis n → Basis n → ℂ, ∀ ψ x, f ψ x = ∑ y, K x y * ψ y

theorem GateAct.lin {n : Nat} {k : Kind} {ts : List (Fin n)} {f : State n ℂ → State n ℂ} (h : Spec.GateAct k ts f) : Lin f := by
  obtain ⟨K, h⟩ := GateAct.isLocal h
  exact ⟨K, h.lin⟩

theorem Lin.comp {n : Nat} {f g : State n ℂ → State n ℂ} (hg : Lin g) (hf : Lin f) : Lin (g ∘ f) := by
  obtain ⟨K, hK⟩ := hf
  obtain ⟨L, hL⟩ := hg
  refine ⟨fun x z => ∑ y, L x y * K y z, fun ψ x => ?_⟩
  simp only [Function.comp_apply, hL, hK, Finset.mul_sum, Finset.sum_mul]
  rw [Finset.sum_comm]
  exact Finset.sum_congr rfl fun _ _ => Finset.sum_congr rfl fun _ _ => by ring

theorem Lin.conj {n : Nat} {f : State n ℂ → State n ℂ} (hf : Lin f) (cj : Bool) : Lin (conjAct cj f) := by
  obtain ⟨K, hK⟩ := hf
  cases cj
  · exact ⟨K, hK⟩
  · refine ⟨fun x y => star (K x y), fun ψ x => ?_⟩
    simp only [conjAct, if_true, hK, star_sum, star_mul', star_star]

theorem lin_id {n : Nat} : Lin (id : State n ℂ → State n ℂ) := by
  classical
  exact ⟨fun x y => if y = x then 1 else 0, fun ψ x => by simp⟩

theorem Lin.smul {n : Nat} {f : State n ℂ → State n ℂ} (hf : Lin f) (z : ℂ) (ψ : State n ℂ) : f (fun x => z * ψ x) = fun x => z * f ψ x := by
  obtain ⟨K, hK⟩ := hf
  funext x
  simp only [hK, Finset.mul_sum]
  exact Finset.sum_congr rfl fun _ _ => by ring

/-- Linear maps that agree on products of states are equal. -/
theorem Lin.ext_tensor {n : Nat} {F G : State (n + n) ℂ → State (n + n) ℂ} (hF : Lin F) (hG : Lin G) (h : ∀ ψ φ : State n ℂ, F (tensor ψ φ) = G (tensor ψ φ)) : F = G := by
  classical
  obtain ⟨K, hK⟩ := hF
  obtain ⟨L, hL⟩ := hG
  have e : ∀ x y, K x y = L x y := by
    intro x y
    have := congrFun (h (fun a => if a = leftHalf y then 1 else 0) (fun a => if a = rightHalf y then 1 else 0)) x
    rw [hK, hL] at this
    have hd : ∀ a : Basis (n + n), tensor (fun a => if a = leftHalf y then (1 : ℂ) else 0) (fun a => if a = rightHalf y then 1 else 0) a = if a = y then 1 else 0 := by
      intro a
      unfold tensor
      by_cases h : a = y
      · subst h; simp
      · rw [if_neg h]
        dsimp only
        by_cases h1 : leftHalf a = leftHalf y
        · rw [if_pos h1, if_neg, mul_zero]
          intro h2
          exact h (halves.injective (Prod.ext h1 h2))
        · rw [if_neg h1, zero_mul]
    simpa only [hd, mul_ite, mul_one, mul_zero, Finset.sum_ite_eq', Finset.mem_univ, if_true] using this
  funext ψ x
  rw [hK, hL]
  exact Finset.sum_congr rfl fun y _ => by rw [e]

/-! ## State vectors -/

theorem blocked_cond {op : SOp} {cond : Option (List Nat)} (h : op.cond = cond) (bits : Nat → Option Bool) :
    isBlocked op bits = isBlocked { oid := 0, kind := .opaque, qubits := [], cond := cond } bits := by
  unfold isBlocked; rw [h]

theorem targets_lib {qs : List Nat} (hnd : qs.Nodup) {op : SOp} {ts : List (Fin qs.length)} (h : op.qubits = ts.map fun i => qs[i]) :
    targetsOf ⟨qs, []⟩ op = .ok (ts.map Fin.val) := targetsOf_ok (c := ⟨qs, []⟩) hnd op h

theorem vector_together {qs : List Nat} (hnd : qs.Nodup) (hn : qs.length ≤ 30) (u : Nat → ℝ) (le : Bool) {cond : Option (List Nat)} {ops : List SOp}
    {gates : List (Kind × List (Fin qs.length))}
    (h : List.Forall₂ (fun (op : SOp) g => Supported op.kind ∧ op.cond = cond ∧ op.kind = g.1 ∧ op.qubits = g.2.map fun i => qs[i]) ops gates) :
    ∀ {f}, Runs gates f → ∀ (w : World) {ψ : State qs.length ℂ}, Stores le w.mem ψ →
    isBlocked { oid := 0, kind := .opaque, qubits := [], cond := cond } w.bits = false →
    ∃ mem', ops.foldlM (libStep u qs le) w = .ok { w with mem := mem' } ∧ Stores le mem' (f ψ) := by
  induction h with
  | nil =>
    intro f hr w ψ hm _
    cases hr
    exact ⟨w.mem, rfl, hm⟩
  | @cons op g ops gates ho _ ih =>
    intro f hr w ψ hm hb
    obtain ⟨h1, h2, h3, h4⟩ := ho
    obtain ⟨k, ts⟩ := g
    cases hr with
    | cons ha hr =>
      dsimp only at h3
      subst h3
      obtain ⟨m1, e1, e2⟩ := apply_gate_ok hn u op ha (supported_usable h1) le false w hm (by rw [blocked_cond h2]; exact hb)
      obtain ⟨m2, e3, e4⟩ := ih hr { w with mem := m1 } e2 hb
      refine ⟨m2, ?_, e4⟩
      rw [List.foldlM_cons]
      unfold libStep at e3 ⊢
      rw [targets_lib hnd h4, ok_bind, e1, ok_bind]
      exact e3

theorem vector_blocked {qs : List Nat} (hnd : qs.Nodup) (u : Nat → ℝ) (le : Bool) {cond : Option (List Nat)} {ops : List SOp}
    {gates : List (Kind × List (Fin qs.length))}
    (h : List.Forall₂ (fun (op : SOp) g => Supported op.kind ∧ op.cond = cond ∧ op.kind = g.1 ∧ op.qubits = g.2.map fun i => qs[i]) ops gates) (w : World)
    (hb : isBlocked { oid := 0, kind := .opaque, qubits := [], cond := cond } w.bits = true) : ops.foldlM (libStep u qs le) w = .ok w := by
  induction h with
  | nil => rfl
  | @cons op g ops gates ho _ ih =>
    obtain ⟨h1, h2, h3, h4⟩ := ho
    rw [List.foldlM_cons]
    have : libStep u qs le w op = .ok w := by
      unfold libStep
      rw [targets_lib hnd h4, ok_bind, apply_blocked _ _ _ _ _ _ _ (by rw [blocked_cond h2]; exact hb)]
    rw [this, ok_bind]
    exact ih

theorem vector_same {qs : List Nat} (hnd : qs.Nodup) (hn : qs.length ≤ 30) (u : Nat → ℝ) (le : Bool) {cond : Option (List Nat)} {A B : List SOp} {f : _}
    (hA : Together qs cond A f) (hB : Together qs cond B f) (w : World) (hm : w.mem.length = 2 ^ qs.length) :
    A.foldlM (libStep u qs le) w = B.foldlM (libStep u qs le) w := by
  obtain ⟨ga, hra, hA⟩ := hA
  obtain ⟨gb, hrb, hB⟩ := hB
  cases hb : isBlocked { oid := 0, kind := .opaque, qubits := [], cond := cond } w.bits
  · obtain ⟨ψ, hψ⟩ := exists_stores le hm
    obtain ⟨m1, e1, e2⟩ := vector_together hnd hn u le hA hra w hψ hb
    obtain ⟨m2, e3, e4⟩ := vector_together hnd hn u le hB hrb w hψ hb
    rw [e1, e3, stores_unique e2 e4]
  · rw [vector_blocked hnd u le hA w hb, vector_blocked hnd u le hB w hb]

/-- Exchanging the middle part of a list. -/
theorem foldlM_middle {α γ : Type} {P : γ → Prop} {g : γ → α → Except Err γ} (hg : ∀ w b w', P w → g w b = .ok w' → P w') {A B : List α}
    (h : ∀ w, P w → A.foldlM g w = B.foldlM g w) (pre post : List α) (w : γ) (hw : P w) :
    (pre ++ A ++ post).foldlM g w = (pre ++ B ++ post).foldlM g w := by
  rw [List.foldlM_append, List.foldlM_append, List.foldlM_append, List.foldlM_append]
  rcases e : pre.foldlM g w with _ | w'
  · rfl
  · rw [ok_bind, ok_bind, h w' (foldlM_inv hg pre hw e)]

/-! ## Density matrices -/

theorem density_together {qs : List Nat} (hnd : qs.Nodup) (hn : qs.length + qs.length ≤ 30) (u : Nat → ℝ) {cond : Option (List Nat)} {ops : List SOp}
    {gates : List (Kind × List (Fin qs.length))}
    (h : List.Forall₂ (fun (op : SOp) g => Supported op.kind ∧ op.cond = cond ∧ op.kind = g.1 ∧ op.qubits = g.2.map fun i => qs[i]) ops gates) :
    ∀ {f}, Runs gates f → ∃ F : State (qs.length + qs.length) ℂ → State (qs.length + qs.length) ℂ, Lin F ∧
      (∀ ψ φ, F (tensor ψ φ) = tensor (f ψ) (conjState (f (conjState φ)))) ∧
      ∀ (w : World) {Ψ : State (qs.length + qs.length) ℂ}, Stores false w.mem Ψ →
        isBlocked { oid := 0, kind := .opaque, qubits := [], cond := cond } w.bits = false →
        ∃ mem', ops.foldlM (libDensity u qs) w = .ok { w with mem := mem' } ∧ Stores false mem' (F Ψ) := by
  induction h with
  | nil =>
    intro f hr
    cases hr
    refine ⟨id, lin_id, fun ψ φ => ?_, fun w Ψ hm _ => ⟨w.mem, rfl, hm⟩⟩
    show tensor ψ φ = tensor ψ (conjState (conjState φ))
    rw [conjState_conjState]
  | @cons op g ops gates ho _ ih =>
    intro f hr
    obtain ⟨h1, h2, h3, h4⟩ := ho
    obtain ⟨k, ts⟩ := g
    cases hr with
    | @cons _ _ _ f g ha hr =>
      dsimp only at h3
      subst h3
      obtain ⟨F1, hF1, hF1'⟩ := gateAct_left ha
      obtain ⟨F2, hF2, hF2'⟩ := gateAct_right ha
      obtain ⟨F, i1, i2, i3⟩ := ih hr
      refine ⟨F ∘ (conjAct true F2 ∘ F1), i1.comp (((GateAct.lin hF2).conj true).comp (GateAct.lin hF1)), fun ψ φ => ?_, fun w Ψ hm hb => ?_⟩
      · have : conjAct true F2 (tensor (f ψ) φ) = tensor (f ψ) (conjState (f (conjState φ))) := by
          unfold conjAct
          rw [if_pos rfl, conj_tensor, hF2', conj_tensor, conjState_conjState]
        simp only [Function.comp_apply]
        rw [hF1', this, i2, conjState_conjState]
      · have e1' : (ts.map (Fin.castAdd qs.length)).map Fin.val = ts.map Fin.val := by simp [List.map_map, Function.comp_def]
        have e2' : (ts.map (Fin.natAdd qs.length)).map Fin.val = (ts.map Fin.val).map (· + qs.length) := by
          simp [List.map_map, Function.comp_def, Nat.add_comm]
        have hb' : isBlocked op w.bits = false := by rw [blocked_cond h2]; exact hb
        obtain ⟨m1, e1, e2⟩ := apply_gate_ok hn u op hF1 (supported_usable h1) false false w hm hb'
        obtain ⟨m2, e3, e4⟩ := apply_gate_ok hn u op hF2 (supported_usable h1) false true { w with mem := m1 } e2 hb'
        obtain ⟨m3, e5, e6⟩ := i3 { w with mem := m2 } e4 hb
        refine ⟨m3, ?_, e6⟩
        rw [e1'] at e1
        rw [e2'] at e3
        rw [List.foldlM_cons]
        have hstep : libDensity u qs w op = .ok { w with mem := m2 } := by
          have hnm : Instr.isMeasurement (.lib op) = false := by
            unfold Instr.isMeasurement
            dsimp only
            generalize op.kind = k at ha
            cases ha <;> rfl
          unfold libDensity densityStep
          rw [hnm]
          have ht : targets qs (.lib op) = .ok (ts.map Fin.val) := targets_lib hnd h4
          simp only [Bool.false_eq_true, if_false]
          rw [ht, ok_bind, two_mul]
          show (applyInstruction u (qs.length + qs.length) op (ts.map Fin.val) false false w >>= fun w1 =>
            applyInstruction u (qs.length + qs.length) op ((ts.map Fin.val).map (· + qs.length)) false true w1) = _
          rw [e1, ok_bind]
          exact e3
        rw [hstep, ok_bind]
        exact e5

theorem density_blocked {qs : List Nat} (hnd : qs.Nodup) (u : Nat → ℝ) {cond : Option (List Nat)} {ops : List SOp}
    {gates : List (Kind × List (Fin qs.length))}
    (h : List.Forall₂ (fun (op : SOp) g => Supported op.kind ∧ op.cond = cond ∧ op.kind = g.1 ∧ op.qubits = g.2.map fun i => qs[i]) ops gates) (w : World)
    (hb : isBlocked { oid := 0, kind := .opaque, qubits := [], cond := cond } w.bits = true) : ops.foldlM (libDensity u qs) w = .ok w := by
  induction h with
  | nil => rfl
  | @cons op g ops gates ho _ ih =>
    obtain ⟨h1, h2, h3, h4⟩ := ho
    rw [List.foldlM_cons]
    have : libDensity u qs w op = .ok w := by
      have hnm : Instr.isMeasurement (.lib op) = false := by
        unfold Instr.isMeasurement
        dsimp only
        generalize op.kind = k at h1
        cases k <;> first | rfl | exact h1.elim
      have hb' : isBlocked op w.bits = true := by rw [blocked_cond h2]; exact hb
      unfold libDensity densityStep
      rw [hnm]
      have ht : targets qs (.lib op) = .ok (g.2.map Fin.val) := targets_lib hnd h4
      simp only [Bool.false_eq_true, if_false]
      rw [ht, ok_bind]
      show (applyInstruction u (2 * qs.length) op (g.2.map Fin.val) false false w >>= fun w1 =>
        applyInstruction u (2 * qs.length) op ((g.2.map Fin.val).map (· + qs.length)) false true w1) = _
      rw [apply_blocked _ _ _ _ _ _ _ hb', ok_bind, apply_blocked _ _ _ _ _ _ _ hb']
    rw [this, ok_bind]
    exact ih

theorem density_same {qs : List Nat} (hnd : qs.Nodup) (hn : qs.length + qs.length ≤ 30) (u : Nat → ℝ) {cond : Option (List Nat)} {A B : List SOp} {z : ℂ}
    {f g : _} (hA : Together qs cond A f) (hB : Together qs cond B g) (hz : UpTo z f g) (w : World) (hm : w.mem.length = 2 ^ (qs.length + qs.length)) :
    A.foldlM (libDensity u qs) w = B.foldlM (libDensity u qs) w := by
  obtain ⟨ga, hra, hA⟩ := hA
  obtain ⟨gb, hrb, hB⟩ := hB
  cases hb : isBlocked { oid := 0, kind := .opaque, qubits := [], cond := cond } w.bits
  · obtain ⟨Ψ, hΨ⟩ := exists_stores false hm
    obtain ⟨F, a1, a2, a3⟩ := density_together hnd hn u hA hra
    obtain ⟨G, b1, b2, b3⟩ := density_together hnd hn u hB hrb
    have hFG : F = G := by
      refine a1.ext_tensor b1 fun ψ φ => ?_
      rw [a2, b2]
      funext x
      have h1 : star z * z = 1 := by rw [← normSq_cast, hz.1]; simp
      simp only [tensor, conjState, hz.2, star_mul']

      linear_combination (-(f ψ (leftHalf x)) * star (f (conjState φ) (rightHalf x))) * h1
    subst hFG
    obtain ⟨m1, e1, e2⟩ := a3 w hΨ hb
    obtain ⟨m2, e3, e4⟩ := b3 w hΨ hb
    rw [e1, e3, stores_unique e2 e4]
  · rw [density_blocked hnd u hA w hb, density_blocked hnd u hB w hb]

/-! ## Global phases in simulations with measurements -/

/-- The same state, up to the phase. -/
def scaled {n : Nat} (z : ℂ) (s : SimState n) : SimState n := { s with ψ := fun x => z * s.ψ x }

theorem born_scaled {n : Nat} {z : ℂ} (hz : Complex.normSq z = 1) (t : Fin n) (m : Bool) (ψ : State n ℂ) : born t m (fun x => z * ψ x) = born t m ψ := by
  unfold born
  simp only [Complex.normSq_mul, hz, one_mul]

theorem measureAll_scaled {n : Nat} {z : ℂ} (hz : Complex.normSq z = 1) (u : Nat → ℝ) : ∀ (ts : List (Fin n)) (k : Nat) (ψ : State n ℂ),
    measureAll u ts k (fun x => z * ψ x) = ((measureAll u ts k ψ).1, fun x => z * (measureAll u ts k ψ).2 x) := by
  intro ts
  induction ts with
  | nil => intro k ψ; rfl
  | cons t ts ih =>
    intro k ψ
    have ho : outcome t (fun x => z * ψ x) (u k) = outcome t ψ (u k) := by unfold outcome; rw [born_scaled hz]
    have hp : ∀ m, project t m (fun x => z * ψ x) = fun x => z * project t m ψ x := by
      intro m
      funext x
      unfold project
      rw [born_scaled hz]
      split
      · ring
      · simp
    simp only [measureAll, ho, hp, ih]

theorem step_scaled {c : SCircuit} {u : Nat → ℝ} {z : ℂ} (hz : Complex.normSq z = 1) {op : SOp} {s s' : SimState c.qubits.length} (h : Step c u op s s') :
    Step c u op (scaled z s) (scaled z s') := by
  cases h with
  | blocked hb => exact .blocked hb
  | @gate ts f hb hq hg =>
    have := Step.gate (c := c) (u := u) (s := scaled z s) hb hq hg
    have e : f (scaled z s).ψ = fun x => z * f s.ψ x := (GateAct.lin hg).smul z s.ψ
    rw [e] at this
    exact this
  | @measure ts hb hk hq =>
    have := Step.measure (c := c) (u := u) (s := scaled z s) hb hk hq
    have e : measureAll u ts (scaled z s).drawn (scaled z s).ψ = _ := measureAll_scaled hz u ts s.drawn s.ψ
    rw [e] at this
    exact this

theorem exec_scaled {c : SCircuit} {u : Nat → ℝ} {z : ℂ} (hz : Complex.normSq z = 1) {ops : List SOp} {s s' : SimState c.qubits.length}
    (h : Exec c u ops s s') : Exec c u ops (scaled z s) (scaled z s') := by
  induction h with
  | nil => exact .nil
  | cons h _ ih => exact .cons (step_scaled hz h) ih

theorem exec_append {c : SCircuit} {u : Nat → ℝ} {ops ops' : List SOp} {s s' s'' : SimState c.qubits.length} (h : Exec c u ops s s')
    (h' : Exec c u ops' s' s'') : Exec c u (ops ++ ops') s s'' := by
  induction h with
  | nil => exact h'
  | cons h _ ih => exact .cons h (ih h')

theorem exec_split {c : SCircuit} {u : Nat → ℝ} {ops ops' : List SOp} {s s'' : SimState c.qubits.length} (h : Exec c u (ops ++ ops') s s'') :
    ∃ s', Exec c u ops s s' ∧ Exec c u ops' s' s'' := by
  induction ops generalizing s with
  | nil => exact ⟨s, .nil, h⟩
  | cons o ops ih =>
    cases h with
    | cons h1 h2 =>
      obtain ⟨s', h3, h4⟩ := ih h2
      exact ⟨s', .cons h1 h3, h4⟩

/-- Exec and `qs` only. -/
theorem exec_together {qs : List Nat} {os : List SOp} {u : Nat → ℝ} {cond : Option (List Nat)} {ops : List SOp} {gates : List (Kind × List (Fin qs.length))}
    (h : List.Forall₂ (fun (op : SOp) g => Supported op.kind ∧ op.cond = cond ∧ op.kind = g.1 ∧ op.qubits = g.2.map fun i => qs[i]) ops gates) :
    ∀ {f}, Runs gates f → ∀ (s : SimState qs.length),
    (isBlocked { oid := 0, kind := .opaque, qubits := [], cond := cond } s.bits = false → Exec ⟨qs, os⟩ u ops s { s with ψ := f s.ψ }) ∧
    (isBlocked { oid := 0, kind := .opaque, qubits := [], cond := cond } s.bits = true → Exec ⟨qs, os⟩ u ops s s) := by
  induction h with
  | nil =>
    intro f hr s
    cases hr
    exact ⟨fun _ => .nil, fun _ => .nil⟩
  | @cons op g ops gates ho _ ih =>
    intro f hr s
    obtain ⟨h1, h2, h3, h4⟩ := ho
    obtain ⟨k, ts⟩ := g
    cases hr with
    | @cons _ _ _ f g ha hr =>
      dsimp only at h3
      subst h3
      refine ⟨fun hb => ?_, fun hb => ?_⟩
      · exact .cons (.gate ((isBlocked_false_iff _ _).1 (by rw [blocked_cond h2]; exact hb)) h4 ha) ((ih hr { s with ψ := f s.ψ }).1 hb)
      · exact .cons (.blocked ((isBlocked_iff _ _).1 (by rw [blocked_cond h2]; exact hb))) ((ih hr s).2 hb)

theorem gateAct_shape {n : Nat} {k : Kind} {ts : List (Fin n)} {f : State n ℂ → State n ℂ} (h : Spec.GateAct k ts f) : ts.length = arity k ∧ ts.Nodup := by
  cases h with
  | single t _ => exact ⟨rfl, by simp⟩
  | controlled1 c t _ h => exact ⟨rfl, by simp [h]⟩
  | controlled2 c c' t _ h1 h2 h3 => exact ⟨rfl, by simp [h1, h2, h3]⟩
  | swap a b h => exact ⟨rfl, by simp [h]⟩
  | cswap c a b h1 h2 h3 => exact ⟨rfl, by simp [h1, h2, h3]⟩
  | ccx c c' t h1 h2 h3 => exact ⟨rfl, by simp [h1, h2, h3]⟩

theorem together_gateOp {qs : List Nat} (hnd : qs.Nodup) {os : List SOp} {cond : Option (List Nat)} {ops : List SOp} {f : _} (h : Together qs cond ops f) :
    ∀ op ∈ ops, GateOp ⟨qs, os⟩ op := by
  obtain ⟨gates, hr, h⟩ := h
  induction h generalizing f with
  | nil => intro op ho; cases ho
  | @cons op g ops gates ho _ ih =>
    obtain ⟨h1, h2, h3, h4⟩ := ho
    obtain ⟨k, ts⟩ := g
    cases hr with
    | cons ha hr =>
      intro o ho
      rcases List.mem_cons.1 ho with rfl | ho
      · dsimp only at h3
        subst h3
        obtain ⟨a1, a2⟩ := gateAct_shape ha
        refine ⟨h1, by rw [h4, List.length_map, a1], ?_, ?_⟩
        · rw [h4]
          refine a2.map fun i j e => ?_
          exact Fin.ext ((List.Nodup.getElem_inj_iff hnd).1 e)
        · intro q hq
          rw [h4] at hq
          obtain ⟨i, -, rfl⟩ := List.mem_map.1 hq
          exact List.getElem_mem _
      · exact ih hr o ho

theorem exec_circuit {c : SCircuit} {os' : List SOp} {u : Nat → ℝ} {ops : List SOp} {s s' : SimState c.qubits.length} (h : Exec c u ops s s') :
    Exec { c with ops := os' } u ops s s' := by
  induction h with
  | nil => exact .nil
  | cons h _ ih =>
    refine .cons ?_ ih
    cases h with
    | blocked hb => exact .blocked hb
    | gate hb hq hg => exact .gate (c := { c with ops := os' }) hb hq hg
    | measure hb hk hq => exact .measure (c := { c with ops := os' }) hb hk hq

theorem stores_scaled {n : Nat} {le : Bool} {mem mem' : List ℂ} {ψ : State n ℂ} {z : ℂ} (h : Stores le mem ψ) (h' : Stores le mem' (fun x => z * ψ x)) :
    mem' = mem.map (z * ·) := by
  refine stores_unique h' ⟨by rw [List.length_map, h.1], fun x => ?_⟩
  rw [List.getElem?_map, h.2]
  rfl

end DG
