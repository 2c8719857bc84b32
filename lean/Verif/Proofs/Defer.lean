import Verif.Proofs.Replace

/-! Lemmas for C112. -/

noncomputable section

namespace DG
open Complex Sim Spec

variable {n : Nat}

/-- `h` does not depend on the qubits `ts`. -/
def Ignores {R : Type} (ts : List (Fin n)) (h : Basis n → R) : Prop := ∀ x y : Basis n, (∀ j, j ∉ ts → x j = y j) → h x = h y

theorem Ignores.update {R : Type} {ts : List (Fin n)} {h : Basis n → R} (hh : Ignores ts h) {t : Fin n} (ht : t ∈ ts) (x : Basis n) (b : Bool) :
    h (Function.update x t b) = h x := hh _ _ fun j hj => Function.update_of_ne (fun e => hj (by rw [e]; exact ht)) _ _

theorem Ignores.swap {R : Type} {ts : List (Fin n)} {h : Basis n → R} (hh : Ignores ts h) {a b : Fin n} (ha : a ∈ ts) (hb : b ∈ ts) (x : Basis n) :
    h (x ∘ Equiv.swap a b) = h x := by
  refine hh _ _ fun j hj => ?_
  show x (Equiv.swap a b j) = x j
  rw [Equiv.swap_apply_of_ne_of_ne (fun e => hj (by rw [e]; exact ha)) (fun e => hj (by rw [e]; exact hb))]

theorem controlled_ignores {ts : List (Fin n)} {h : Basis n → ℂ} (hh : Ignores ts h) (cs : List (Fin n)) {t : Fin n} (ht : t ∈ ts) (G : Bool → Bool → ℂ)
    (ψ : State n ℂ) : applyControlled cs t G (fun x => h x * ψ x) = fun x => h x * applyControlled cs t G ψ x := by
  funext x
  simp only [applyControlled, applyGate, hh.update ht]
  split
  · rw [Finset.mul_sum]
    exact Finset.sum_congr rfl fun _ _ => by ring
  · rfl

/-- A gate commutes with everything that does not depend on its qubits. -/
theorem gateAct_ignores {k : Kind} {ts : List (Fin n)} {f : State n ℂ → State n ℂ} (hf : Spec.GateAct k ts f) {h : Basis n → ℂ} (hh : Ignores ts h)
    (ψ : State n ℂ) : f (fun x => h x * ψ x) = fun x => h x * f ψ x := by
  cases hf with
  | @single b a t ha =>
    have := controlled_ignores hh [] (t := t) (by simp) (gateOf a) ψ
    simp only [applyControlled_nil'] at this
    exact this
  | @controlled1 b a c t ha h => exact controlled_ignores hh [c] (by simp) (gateOf a) ψ
  | @controlled2 b a c c' t ha h1 h2 h3 => exact controlled_ignores hh [c, c'] (by simp) (gateOf a) ψ
  | swap a b h =>
    funext x
    simp only [applySwap]
    rw [hh.swap (by simp) (by simp)]
  | cswap c a b h1 h2 h3 =>
    funext x
    simp only [applyCSwap, applySwap]
    rw [hh.swap (by simp) (by simp)]
    split <;> rfl
  | ccx c c' t h1 h2 h3 =>
    funext x
    dsimp only
    rw [hh.update (t := t) (by simp)]
    split <;> rfl

/-- The amplitudes with qubit `t` in state `b`. -/
def only (t : Fin n) (b : Bool) (x : Basis n) : ℂ := if x t = b then 1 else 0

theorem only_ignores {ts : List (Fin n)} {t : Fin n} (ht : t ∉ ts) (b : Bool) : Ignores ts (only t b) := by
  intro x y h
  unfold only
  rw [h t ht]

theorem born_only (t : Fin n) (b : Bool) (ψ : State n ℂ) : born t b ψ = Spec.normSq fun x => only t b x * ψ x := by
  unfold born Spec.normSq only
  refine Finset.sum_congr rfl fun x _ => ?_
  by_cases h : x t = b <;> simp [h]

theorem born_gate {k : Kind} (hk : Supported k) {ts : List (Fin n)} {f : State n ℂ → State n ℂ} (hf : Spec.GateAct k ts f) {t : Fin n} (ht : t ∉ ts) (b : Bool)
    (ψ : State n ℂ) : born t b (f ψ) = born t b ψ := by
  rw [born_only, born_only, ← gateAct_ignores hf (only_ignores ht b) ψ]
  exact DG.GateAct.norm hf (supported_unitary hk) _

theorem project_gate {k : Kind} (hk : Supported k) {ts : List (Fin n)} {f : State n ℂ → State n ℂ} (hf : Spec.GateAct k ts f) {t : Fin n} (ht : t ∉ ts) (b : Bool)
    (ψ : State n ℂ) : project t b (f ψ) = f (project t b ψ) := by
  have h : Ignores ts fun x => ((1 / Real.sqrt (born t b ψ) : ℝ) : ℂ) * only t b x := by
    intro x y e
    dsimp only
    rw [only_ignores ht b x y e]
  have := gateAct_ignores hf h ψ
  have e : ∀ φ : State n ℂ, (fun x => ((1 / Real.sqrt (born t b ψ) : ℝ) : ℂ) * only t b x * φ x) =
      fun x => if x t = b then ((1 / Real.sqrt (born t b ψ) : ℝ) : ℂ) * φ x else 0 := by
    intro φ
    funext x
    unfold only
    split <;> simp
  rw [e, e] at this
  unfold project
  rw [born_gate hk hf ht, this]

theorem measureAll_gate {k : Kind} (hk : Supported k) {ts : List (Fin n)} {f : State n ℂ → State n ℂ} (hf : Spec.GateAct k ts f) (u : Nat → ℝ) :
    ∀ (qs : List (Fin n)), (∀ t ∈ qs, t ∉ ts) → ∀ (d : Nat) (ψ : State n ℂ), measureAll u qs d (f ψ) = ((measureAll u qs d ψ).1, f (measureAll u qs d ψ).2) := by
  intro qs
  induction qs with
  | nil => intro _ d ψ; rfl
  | cons t qs ih =>
    intro h d ψ
    have ht := h t (by simp)
    have ho : outcome t (f ψ) (u d) = outcome t ψ (u d) := by unfold outcome; rw [born_gate hk hf ht]
    simp only [measureAll, ho, project_gate hk hf ht, ih fun t ht => h t (by simp [ht])]

/-! ## Circuits -/

theorem writeBits_other : ∀ (l : List (Nat × Bool)) (vals : Nat → Option Bool) (b : Nat), (∀ p ∈ l, p.1 ≠ b) → writeBits vals l b = vals b
  | [], _, _, _ => rfl
  | (a, m) :: l, vals, b, h => by
    show writeBits _ l b = _
    rw [writeBits_other l _ b fun p hp => h p (by simp [hp]), Function.update_of_ne (fun e => h (a, m) (by simp) e.symm)]

theorem blocked_other {op : SOp} {vals vals' : Nat → Option Bool} (h : ∀ bs, op.cond = some bs → ∀ b ∈ bs, vals b = vals' b) : Blocked op vals ↔ Blocked op vals' := by
  constructor
  · rintro ⟨bs, b, h1, h2, h3⟩
    exact ⟨bs, b, h1, h2, by rw [← h bs h1 b h2]; exact h3⟩
  · rintro ⟨bs, b, h1, h2, h3⟩
    exact ⟨bs, b, h1, h2, by rw [h bs h1 b h2]; exact h3⟩

/-- A gate after a measurement of other qubits can be done before. -/
theorem step_defer {c : SCircuit} {u : Nat → ℝ} {m op : SOp} {s s1 s2 : SimState c.qubits.length} (hop : Supported op.kind) (hm : m.kind = .measurement)
    (hq : ∀ q ∈ op.qubits, q ∉ m.qubits) (hb : ∀ bs, op.cond = some bs → ∀ b ∈ bs, ∀ bs', m.bits = some bs' → b ∉ bs') (h1 : Step c u m s s1) (h2 : Step c u op s1 s2) :
    ∃ s', Step c u op s s' ∧ Step c u m s' s2 := by
  cases h1 with
  | blocked hbl =>
    cases h2 with
    | blocked hb2 => exact ⟨s, .blocked hb2, .blocked hbl⟩
    | gate h3 h4 h5 => exact ⟨_, .gate h3 h4 h5, .blocked hbl⟩
    | measure h3 h4 h5 => rw [h4] at hop; exact hop.elim
  | gate h3 h4 h5 => rw [hm] at h5; cases h5
  | @measure qs h3 h4 h5 =>
    have hbits : Blocked op (writeBits s.bits ((m.bits.getD []).zip (measureAll u qs s.drawn s.ψ).1)) ↔ Blocked op s.bits := by
      refine blocked_other fun bs hbs b hbb => writeBits_other _ _ _ fun p hp e => ?_
      have hpm := (List.of_mem_zip hp).1
      cases hmb : m.bits with
      | none => rw [hmb] at hpm; simp at hpm
      | some bs' =>
        rw [hmb] at hpm
        exact hb bs hbs b hbb bs' hmb (by rw [← e]; exact hpm)
    cases h2 with
    | blocked hb2 => exact ⟨s, .blocked (hbits.1 hb2), .measure h3 h4 h5⟩
    | @gate ts f g1 g2 g3 =>
      refine ⟨{ s with ψ := f s.ψ }, .gate (fun h => g1 (hbits.2 h)) g2 g3, ?_⟩
      have hd : ∀ t ∈ qs, t ∉ ts := by
        intro t ht ht'
        exact hq (qubitAt c t) (by rw [g2]; exact List.mem_map_of_mem ht') (by rw [h5]; exact List.mem_map_of_mem ht)
      have := Step.measure (c := c) (u := u) (s := { s with ψ := f s.ψ }) h3 h4 h5
      have e := measureAll_gate hop g3 u qs hd s.drawn s.ψ
      dsimp only at this
      rw [e] at this
      exact this
    | measure g1 g2 g3 => rw [g2] at hop; exact hop.elim

theorem exec_defer {c : SCircuit} {u : Nat → ℝ} {m : SOp} (hm : m.kind = .measurement) : ∀ (gates : List SOp),
    (∀ op ∈ gates, Supported op.kind ∧ (∀ q ∈ op.qubits, q ∉ m.qubits) ∧ ∀ bs, op.cond = some bs → ∀ b ∈ bs, ∀ bs', m.bits = some bs' → b ∉ bs') →
    ∀ {s s2 : SimState c.qubits.length}, Exec c u (m :: gates) s s2 → Exec c u (gates ++ [m]) s s2 := by
  intro gates
  induction gates with
  | nil => intro _ s s2 h; exact h
  | cons op gates ih =>
    intro hg s s2 h
    cases h with
    | cons h1 h =>
      cases h with
      | cons h2 h =>
        obtain ⟨g1, g2, g3⟩ := hg op (by simp)
        obtain ⟨s', h3, h4⟩ := step_defer g1 hm g2 g3 h1 h2
        exact .cons h3 (ih (fun o ho => hg o (by simp [ho])) (.cons h4 h))

end DG
