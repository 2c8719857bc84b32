import Verif.Proofs.SimRepro

/-! # Further facts about simulation: basis states, repeated measurement, density matrices, commuting operations -/

namespace DG.Sim
open Complex Spec Kernel Props

variable {n : Nat}

theorem index_rev (x : Basis n) : index true x = index false (fun i => x i.rev) := by
  unfold index; simp

/-! ## Basis states -/

/-- The basis state `x` as a vector. -/
noncomputable def basisState (x : Basis n) : State n ℂ := fun y => if y = x then 1 else 0

theorem zeroState_eq : zeroState n = basisState (fun _ => false) := rfl

theorem normSq_basisState (x : Basis n) : Spec.normSq (basisState x) = 1 := by
  unfold Spec.normSq basisState
  rw [Finset.sum_eq_single x]
  · simp
  · intro y _ hy; simp [hy]
  · simp

theorem born_basisState (t : Fin n) (x : Basis n) : born t (x t) (basisState x) = 1 := by
  unfold born basisState
  rw [Finset.sum_eq_single x]
  · simp
  · intro y _ hy; simp [hy]
  · simp

/-- If a qubit has a definite value, it is found and nothing changes. -/
theorem definite {t : Fin n} {m : Bool} {ψ : State n ℂ} (h1 : Spec.normSq ψ = 1) (h : ∀ x, ψ x ≠ 0 → x t = m) :
    born t m ψ = 1 ∧ project t m ψ = ψ ∧ ∀ u : ℝ, 0 ≤ u → u < 1 → outcome t ψ u = m := by
  have hb : born t m ψ = 1 := by
    rw [← h1]
    unfold born Spec.normSq
    refine Finset.sum_congr rfl (fun x _ => ?_)
    split
    · rfl
    · rename_i hx
      have : ψ x = 0 := by by_contra hne; exact hx (h x hne)
      simp [this]
  refine ⟨hb, ?_, ?_⟩
  · funext x
    unfold project
    rw [hb]
    split
    · simp
    · rename_i hx
      by_contra hne
      exact hx (h x (Ne.symm hne))
  · intro u h0 hu
    cases m
    · rw [outcome_false, hb]; exact hu
    · rw [outcome_true]
      have := born_add t ψ
      rw [hb, h1] at this
      linarith

theorem measureAll_definite (u : Nat → ℝ) (hu : ∀ k, 0 ≤ u k ∧ u k < 1) {ψ : State n ℂ} (h1 : Spec.normSq ψ = 1) (m : Fin n → Bool) :
    ∀ (ts : List (Fin n)) (k : Nat), (∀ t ∈ ts, ∀ x, ψ x ≠ 0 → x t = m t) → measureAll u ts k ψ = (ts.map m, ψ)
  | [], _, _ => rfl
  | t :: ts, k, h => by
    obtain ⟨_, h3, h4⟩ := definite h1 (h t (by simp))
    have ho := h4 (u k) (hu k).1 (hu k).2
    simp only [measureAll, ho, h3, measureAll_definite u hu h1 m ts (k + 1) (fun t' ht' => h t' (by simp [ht'])), List.map_cons]

theorem measureAll_basisState (u : Nat → ℝ) (hu : ∀ k, 0 ≤ u k ∧ u k < 1) (x : Basis n) (ts : List (Fin n)) (k : Nat) :
    measureAll u ts k (basisState x) = (ts.map x, basisState x) := by
  apply measureAll_definite u hu (normSq_basisState x) x
  intro t _ y hy
  have : y = x := by by_contra h; simp [basisState, h] at hy
  rw [this]

/-- Measuring the same qubits again. -/
theorem measureAll_again (u u' : Nat → ℝ) (hu : ∀ k, 0 ≤ u k ∧ u k < 1) (hu' : ∀ k, 0 ≤ u' k ∧ u' k < 1) (ts : List (Fin n))
    (k k' : Nat) {ψ : State n ℂ} (h1 : Spec.normSq ψ = 1) :
    measureAll u' ts k' (measureAll u ts k ψ).2 = measureAll u ts k ψ := by
  obtain ⟨_, hn, hs⟩ := measureAll_support u hu ts k ψ h1
  obtain ⟨x, hx⟩ := exists_support _ hn
  have h2 := (hs x hx).2
  rw [measureAll_definite u' hu' hn x ts k' ?_, ← h2]
  intro t ht y hy
  have h3 := (hs y hy).2
  rw [h2] at h3
  exact ((List.map_inj_left.1 h3) t ht).symm

theorem applyGate_x_basisState {a : Arr2} (ha : Base.x.matrix = .ok a) (t : Fin n) (x : Basis n) :
    applyGate t (gateOf a) (basisState x) = basisState (Function.update x t (!x t)) := by
  cases ha
  funext y
  simp only [applyGate, Fintype.sum_bool, basisState]
  have hu : ∀ b, Function.update y t b = x ↔ y = Function.update x t (y t) ∧ b = x t := by
    intro b
    constructor
    · intro h
      subst h
      simp
    · rintro ⟨h, rfl⟩
      rw [h]; simp
  have hv : y = Function.update x t (!x t) ↔ y = Function.update x t (y t) ∧ y t = !x t := by
    constructor
    · intro h
      have : y t = !x t := by rw [h]; simp
      exact ⟨by rw [this]; exact h, this⟩
    · rintro ⟨h, h'⟩
      rw [← h']; exact h
  simp only [hu, hv]
  by_cases hy : y = Function.update x t (y t)
  · cases h1 : y t <;> cases h2 : x t <;> simp [h1, ← hy, gateOf]
  · simp [hy]

theorem writeBits_not_mem (vals : Nat → Option Bool) : ∀ (l : List (Nat × Bool)) (b : Nat), (∀ p ∈ l, p.1 ≠ b) →
    writeBits vals l b = vals b
  | [], _, _ => rfl
  | (b', m) :: rest, b, h => by
    unfold writeBits
    rw [writeBits_not_mem _ rest b (fun p hp => h p (by simp [hp]))]
    exact Function.update_of_ne (Ne.symm (h (b', m) (by simp))) _ _

theorem writeBits_get (vals : Nat → Option Bool) : ∀ (bs : List Nat) (ms : List Bool), bs.Nodup → bs.length = ms.length →
    bs.map (writeBits vals (bs.zip ms)) = ms.map some
  | [], [], _, _ => rfl
  | b :: bs, m :: ms, hnd, hl => by
    have hnd' := List.nodup_cons.1 hnd
    simp only [List.zip_cons_cons, List.map_cons, writeBits]
    rw [writeBits_get _ bs ms hnd'.2 (by simpa using hl), writeBits_not_mem]
    · simp
    · intro p hp he
      exact hnd'.1 (he ▸ (List.of_mem_zip (a := p.1) (b := p.2) hp).1)

/-! ## Semantics does not depend on the list of operations of the circuit -/

theorem step_congr {c : SCircuit} {o : List SOp} {u : Nat → ℝ} {op : SOp} {s s' : SimState c.qubits.length} (h : Step c u op s s') :
    Step { c with ops := o } u op s s' := by
  cases h with
  | blocked hb => exact .blocked hb
  | gate hb hq hg => exact .gate (c := { c with ops := o }) hb hq hg
  | measure hb hk hq => exact .measure (c := { c with ops := o }) hb hk hq

theorem exec_congr {c : SCircuit} {o : List SOp} {u : Nat → ℝ} {ops : List SOp} {s s' : SimState c.qubits.length}
    (h : Exec c u ops s s') : Exec { c with ops := o } u ops s s' := by
  induction h with
  | nil => exact .nil
  | cons hs _ ih => exact .cons (step_congr hs) ih

/-- Two gates on disjoint qubits can be exchanged. -/
theorem exec_swap {c : SCircuit} (hnd : c.qubits.Nodup) {u : Nat → ℝ} {a b : SOp} (ha : GateOp c a) (hb : GateOp c b)
    (hd : ∀ q ∈ a.qubits, q ∉ b.qubits) {s s' : SimState c.qubits.length} (h : Exec c u [a, b] s s') :
    Exec c u [b, a] s s' := by
  have nomeas : ∀ {op : SOp}, GateOp c op → op.kind ≠ .measurement := by
    intro op hop hk
    have := hop.1
    rw [hk] at this; exact this
  cases h with
  | cons h1 h =>
    cases h with
    | cons h2 h =>
      cases h
      cases h1 with
      | measure _ hk _ => exact absurd hk (nomeas ha)
      | blocked ba =>
        cases h2 with
        | measure _ hk _ => exact absurd hk (nomeas hb)
        | blocked bb => exact .cons (.blocked bb) (.cons (.blocked ba) .nil)
        | gate bb qb gb => exact .cons (.gate bb qb gb) (.cons (.blocked ba) .nil)
      | @gate ts f ba qa ga =>
        cases h2 with
        | measure _ hk _ => exact absurd hk (nomeas hb)
        | blocked bb => exact .cons (.blocked bb) (.cons (.gate ba qa ga) .nil)
        | @gate ts' g bb qb gb =>
          obtain ⟨K, hK⟩ := DG.GateAct.isLocal ga
          obtain ⟨L, hL⟩ := DG.GateAct.isLocal gb
          have hdis : ∀ i ∈ ts, i ∉ ts' := by
            intro i hi hi'
            exact hd (qubitAt c i) (by rw [qa]; exact List.mem_map_of_mem hi) (by rw [qb]; exact List.mem_map_of_mem hi')
          have := hK.comm hL hdis s.ψ
          have e : Exec c u [b, a] s { { s with ψ := g s.ψ } with ψ := f (g s.ψ) } :=
            .cons (.gate bb qb gb) (.cons (.gate (s := { s with ψ := g s.ψ }) ba qa ga) .nil)
          rw [this] at e
          exact e

/-! ## Density matrices -/

theorem tensor_zero : tensor (zeroState n) (conjState (zeroState n)) = zeroState (n + n) := by
  funext x
  unfold tensor conjState zeroState
  by_cases h : x = fun _ => false
  · subst h
    have h1 : leftHalf (fun _ : Fin (n + n) => false) = fun _ => false := rfl
    have h2 : rightHalf (fun _ : Fin (n + n) => false) = fun _ => false := rfl
    simp [h1, h2]
  · rw [if_neg h]
    by_cases h1 : leftHalf x = fun _ => false
    · have h2 : rightHalf x ≠ fun _ => false := by
        intro h2
        apply h
        funext i
        refine Fin.addCases (fun j => ?_) (fun j => ?_) i
        · exact congrFun h1 j
        · exact congrFun h2 j
      simp [h2]
    · simp [h1]

theorem simulateMixed_ok {c : SCircuit} (hnd : c.qubits.Nodup) (h1 : 1 ≤ c.qubits.length) (hn : c.qubits.length ≤ 15)
    (hops : ∀ op ∈ c.ops, GateOp c op) (u : Nat → ℝ) (le : Bool) (bits : Nat → Option Bool) (records : Nat → Record) :
    ∃ w s, simulateMixed u c le bits records = .ok (some w) ∧ Exec c u c.ops ⟨zeroState _, bits, 0⟩ s ∧
      Stores false w.mem (tensor s.ψ (conjState s.ψ)) ∧ w.bits = bits := by
  obtain ⟨w, s, e1, e2, e3, e4, e5, e6⟩ := density_loop hnd (by omega) u c.ops hops
    { mem := initialState (2 * c.qubits.length), bits := bits, drawn := 0, records := records } ⟨zeroState _, bits, 0⟩
    (by rw [tensor_zero, two_mul]; exact stores_initial false) rfl
  refine ⟨w, s, ?_, e2, e3, e4.trans e5⟩
  unfold simulateMixed
  rw [if_neg (by omega), show densityLoop u c _ = _ from e1, ok_bind]
  unfold assertDensity
  rw [normSq_zeroState] at e6
  rw [norm2_stores e3, normSq_tensor, normSq_conj, e6, mul_one, Real.sqrt_one, if_pos isCloseOne_one, ok_bind]
  rfl

theorem stores_tensor_get {mem : List ℂ} {ψ φ : State n ℂ} (h : Stores false mem (tensor ψ φ)) (x y : Basis n) :
    mem[index false x * 2 ^ n + index false y]? = some (ψ x * φ y) := by
  have := h.2 (halves.symm (x, y))
  rw [index_tensor] at this
  have h1 : (leftHalf (halves.symm (x, y)), rightHalf (halves.symm (x, y))) = (x, y) := halves.apply_symm_apply (x, y)
  have h2 : leftHalf (halves.symm (x, y)) = x := (Prod.mk.inj h1).1
  have h3 : rightHalf (halves.symm (x, y)) = y := (Prod.mk.inj h1).2
  simp only [tensor, h2, h3] at this
  exact this

theorem stores_get {le : Bool} {mem : List ℂ} {ψ : State n ℂ} (h : Stores le mem ψ) {i : Nat} {a : ℂ} (hi : mem[i]? = some a) :
    ∃ x, index le x = i ∧ ψ x = a := by
  have hlt : i < 2 ^ n := by
    rw [← h.1]; exact (List.getElem?_eq_some_iff.1 hi).1
  refine ⟨basisOf le n i, index_basisOf le hlt, ?_⟩
  have := h.2 (basisOf le n i)
  rw [index_basisOf le hlt, hi] at this
  exact (Option.some.inj this).symm

/-! ## Loops that fail -/

theorem foldlM_error {α β : Type} (f : β → α → Except Err β) (P : Except Err β → Prop) (hP : ∀ b, P b → ∃ e, b = .error e)
    {a : α} (ha : ∀ b, P (f b a)) : ∀ (l : List α) (b : β), a ∈ l → ∃ e, l.foldlM f b = .error e
  | x :: l, b, h => by
    rw [List.foldlM_cons]
    cases hx : f b x with
    | error e => exact ⟨e, rfl⟩
    | ok b' =>
      rcases List.mem_cons.1 h with rfl | h
      · obtain ⟨e, he⟩ := hP _ (ha b)
        rw [he] at hx; cases hx
      · exact foldlM_error f P hP ha l b' h

end DG.Sim
