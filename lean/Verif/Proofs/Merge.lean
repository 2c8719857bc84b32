import Verif.Spec.Merge
import Verif.Proofs.Replace

/-! Lemmas for C108 and C109. -/

noncomputable section

namespace DG
open Complex Sim Spec

variable {m n : Nat}

/-- A state of some qubits, times a function of the others. -/
def merge (p : Fin m → Fin n) (φ : State n ℂ) (ψ : State m ℂ) : State n ℂ := fun x => ψ (x ∘ p) * φ x

/-- `φ` depends only on the qubits that are not among `p`. -/
def Outside {R : Type} (p : Fin m → Fin n) (φ : Basis n → R) : Prop := ∀ x y : Basis n, (∀ j, (∀ i, p i ≠ j) → x j = y j) → φ x = φ y

theorem update_comp {p : Fin m → Fin n} (hp : Function.Injective p) (x : Basis n) (t : Fin m) (b : Bool) :
    Function.update x (p t) b ∘ p = Function.update (x ∘ p) t b := Function.update_comp_eq_of_injective x hp t b

theorem Outside.update {R : Type} {p : Fin m → Fin n} {φ : Basis n → R} (h : Outside p φ) (x : Basis n) (t : Fin m) (b : Bool) :
    φ (Function.update x (p t) b) = φ x :=
  h _ _ fun _ hj => Function.update_of_ne (fun e => hj t e.symm) _ _

theorem merge_controlled {p : Fin m → Fin n} (hp : Function.Injective p) {φ : State n ℂ} (hφ : Outside p φ) (cs : List (Fin m)) (t : Fin m)
    (G : Bool → Bool → ℂ) (ψ : State m ℂ) : applyControlled (cs.map p) (p t) G (merge p φ ψ) = merge p φ (applyControlled cs t G ψ) := by
  funext x
  have hc : (∀ c ∈ cs.map p, x c = true) ↔ ∀ c ∈ cs, (x ∘ p) c = true := by simp
  simp only [applyControlled, hc, merge, applyGate, update_comp hp, hφ.update, Function.comp_apply]
  split
  · rw [Finset.sum_mul]
    exact Finset.sum_congr rfl fun _ _ => by ring
  · rfl

theorem swap_comp {p : Fin m → Fin n} (hp : Function.Injective p) (a b : Fin m) (x : Basis n) :
    (x ∘ Equiv.swap (p a) (p b)) ∘ p = (x ∘ p) ∘ Equiv.swap a b := by
  funext i
  simp only [Function.comp_apply]
  congr 1
  exact (hp.map_swap a b i).symm

theorem Outside.swap {R : Type} {p : Fin m → Fin n} {φ : Basis n → R} (h : Outside p φ) (x : Basis n) (a b : Fin m) :
    φ (x ∘ Equiv.swap (p a) (p b)) = φ x := by
  refine h _ _ fun j hj => ?_
  show x (Equiv.swap (p a) (p b) j) = x j
  rw [Equiv.swap_apply_of_ne_of_ne (fun e => hj a e.symm) (fun e => hj b e.symm)]

theorem gateAct_merge {p : Fin m → Fin n} (hp : Function.Injective p) {φ : State n ℂ} (hφ : Outside p φ) {k : Kind} {ts : List (Fin m)}
    {f : State m ℂ → State m ℂ} (h : Spec.GateAct k ts f) : ∃ F, Spec.GateAct k (ts.map p) F ∧ ∀ ψ, F (merge p φ ψ) = merge p φ (f ψ) := by
  cases h with
  | @single b a t ha =>
    refine ⟨_, .single (p t) ha, fun ψ => ?_⟩
    have := merge_controlled hp hφ [] t (gateOf a) ψ
    rw [List.map_nil, applyControlled_nil', show applyControlled [] t (gateOf a) ψ = _ from applyControlled_nil' t _ ψ] at this
    exact this
  | @controlled1 b a c t ha h => exact ⟨_, .controlled1 (p c) (p t) ha (hp.ne h), fun ψ => merge_controlled hp hφ [c] t (gateOf a) ψ⟩
  | @controlled2 b a c c' t ha h1 h2 h3 =>
    exact ⟨_, .controlled2 (p c) (p c') (p t) ha (hp.ne h1) (hp.ne h2) (hp.ne h3), fun ψ => merge_controlled hp hφ [c, c'] t (gateOf a) ψ⟩
  | swap a b h =>
    refine ⟨_, .swap (p a) (p b) (hp.ne h), fun ψ => ?_⟩
    funext x
    simp only [applySwap, merge, swap_comp hp, hφ.swap]
  | cswap c a b h1 h2 h3 =>
    refine ⟨_, .cswap (p c) (p a) (p b) (hp.ne h1) (hp.ne h2) (hp.ne h3), fun ψ => ?_⟩
    funext x
    simp only [applyCSwap, applySwap, merge, swap_comp hp, hφ.swap, Function.comp_apply]
    split <;> rfl
  | ccx c c' t h1 h2 h3 =>
    refine ⟨_, .ccx (p c) (p c') (p t) (hp.ne h1) (hp.ne h2) (hp.ne h3), fun ψ => ?_⟩
    funext x
    simp only [merge, update_comp hp, hφ.update, Function.comp_apply]
    split <;> rfl

/-! ## Sums -/

/-- Weight of the other qubits. -/
def weight (p : Fin m → Fin n) (h : Basis n → ℝ) : ℝ := ∑ x, if x ∘ p = (fun _ => false) then h x else 0

theorem weight_any {p : Fin m → Fin n} (hp : Function.Injective p) {h : Basis n → ℝ} (hh : Outside p h) (y : Basis m) :
    (∑ x, if x ∘ p = y then h x else 0) = weight p h := by
  classical
  let d : Basis n := fun j => if e : ∃ i, p i = j then y e.choose else false
  have hd : ∀ i, d (p i) = y i := by
    intro i
    have e : ∃ i', p i' = p i := ⟨i, rfl⟩
    simp only [d, dif_pos e]
    rw [hp e.choose_spec]
  have hd' : ∀ j, (∀ i, p i ≠ j) → d j = false := by
    intro j hj
    simp only [d]
    rw [dif_neg]
    rintro ⟨i, hi⟩
    exact hj i hi
  let E : Basis n ≃ Basis n := involEquiv (fun x j => xor (x j) (d j)) (fun x => by funext j; simp)
  rw [← Equiv.sum_comp E]
  unfold weight
  refine Finset.sum_congr rfl fun x _ => ?_
  have e1 : (E x) ∘ p = y ↔ x ∘ p = fun _ => false := by
    constructor
    · intro e
      funext i
      have := congrFun e i
      change xor (x (p i)) (d (p i)) = y i at this
      rw [hd] at this
      show x (p i) = false
      revert this
      cases x (p i) <;> cases y i <;> simp
    · intro e
      funext i
      have := congrFun e i
      change x (p i) = false at this
      show xor (x (p i)) (d (p i)) = y i
      rw [hd, this]
      simp
  have e2 : h (E x) = h x := by
    refine hh _ _ fun j hj => ?_
    show xor (x j) (d j) = x j
    rw [hd' j hj]
    simp
  simp only [e1, e2]

theorem sum_merge {p : Fin m → Fin n} (hp : Function.Injective p) {h : Basis n → ℝ} (hh : Outside p h) (g : Basis m → ℝ) :
    ∑ x, g (x ∘ p) * h x = (∑ y, g y) * weight p h := by
  classical
  have : ∀ x : Basis n, g (x ∘ p) * h x = ∑ y, if x ∘ p = y then g y * h x else 0 := by
    intro x
    simp
  simp only [this]
  rw [Finset.sum_comm, Finset.sum_mul]
  refine Finset.sum_congr rfl fun y _ => ?_
  rw [← weight_any hp hh y, Finset.mul_sum]
  exact Finset.sum_congr rfl fun x _ => by split <;> simp

/-! ## Measurements -/

theorem born_merge {p : Fin m → Fin n} (hp : Function.Injective p) {φ : State n ℂ} (hφ : Outside p φ) (hw : weight p (fun x => Complex.normSq (φ x)) = 1)
    (t : Fin m) (b : Bool) (ψ : State m ℂ) : born (p t) b (merge p φ ψ) = born t b ψ := by
  have hh : Outside p fun x => Complex.normSq (φ x) := fun x y h => by dsimp only; rw [hφ x y h]
  have := sum_merge hp hh fun y => if y t = b then Complex.normSq (ψ y) else 0
  rw [hw, mul_one] at this
  unfold born
  rw [← this]
  refine Finset.sum_congr rfl fun x _ => ?_
  simp only [merge, Complex.normSq_mul, Function.comp_apply]
  split <;> simp

theorem measureAll_merge {p : Fin m → Fin n} (hp : Function.Injective p) {φ : State n ℂ} (hφ : Outside p φ)
    (hw : weight p (fun x => Complex.normSq (φ x)) = 1) (u : Nat → ℝ) : ∀ (ts : List (Fin m)) (k : Nat) (ψ : State m ℂ),
    measureAll u (ts.map p) k (merge p φ ψ) = ((measureAll u ts k ψ).1, merge p φ (measureAll u ts k ψ).2) := by
  intro ts
  induction ts with
  | nil => intro k ψ; rfl
  | cons t ts ih =>
    intro k ψ
    have ho : outcome (p t) (merge p φ ψ) (u k) = outcome t ψ (u k) := by unfold outcome; rw [born_merge hp hφ hw]
    have hpr : ∀ b, project (p t) b (merge p φ ψ) = merge p φ (project t b ψ) := by
      intro b
      funext x
      unfold project
      rw [born_merge hp hφ hw]
      simp only [merge, Function.comp_apply]
      split
      · ring
      · simp
    simp only [List.map_cons, measureAll, ho, hpr, ih]

/-! ## Circuits -/

/-- The state of a simulation of a larger circuit. -/
def mergeState (p : Fin m → Fin n) (φ : State n ℂ) (s : SimState m) : SimState n := ⟨merge p φ s.ψ, s.bits, s.drawn⟩

theorem positions_map {c c' : SCircuit} {p : _} (h : Positions c.qubits c'.qubits p) (ts : List (Fin c.qubits.length)) :
    ts.map (qubitAt c) = (ts.map p).map (qubitAt c') := by
  rw [List.map_map]
  exact List.map_congr_left fun i _ => (h i).symm

theorem positions_injective {qs qs' : List Nat} (hnd : qs.Nodup) {p : _} (h : Positions qs qs' p) : Function.Injective p := by
  intro i j e
  have h1 : qs[i] = qs[j] := (h i).symm.trans ((congrArg (fun k => qs'[k]) e).trans (h j))
  exact Fin.ext ((List.Nodup.getElem_inj_iff hnd).1 h1)

theorem exec_merge {c c' : SCircuit} (hnd : c.qubits.Nodup) {p : _} (h : Positions c.qubits c'.qubits p) {φ : State c'.qubits.length ℂ} (hφ : Outside p φ)
    (hw : weight p (fun x => Complex.normSq (φ x)) = 1) {u : Nat → ℝ} {ops : List SOp} {s s' : SimState c.qubits.length} (he : Exec c u ops s s') :
    Exec c' u ops (mergeState p φ s) (mergeState p φ s') := by
  have hp := positions_injective hnd h
  induction he with
  | nil => exact .nil
  | @cons op ops s s1 s2 hs _ ih =>
    refine .cons ?_ ih
    cases hs with
    | blocked hb => exact .blocked hb
    | @gate ts f hb hq hg =>
      obtain ⟨F, hF, hF'⟩ := gateAct_merge hp hφ hg
      have := Step.gate (c := c') (u := u) (s := mergeState p φ s) hb (hq.trans (positions_map h ts)) hF
      have e : F (mergeState p φ s).ψ = merge p φ (f s.ψ) := hF' s.ψ
      rw [e] at this
      exact this
    | @measure ts hb hk hq =>
      have := Step.measure (c := c') (u := u) (s := mergeState p φ s) hb hk (hq.trans (positions_map h ts))
      have e : measureAll u (ts.map p) (mergeState p φ s).drawn (mergeState p φ s).ψ = _ := measureAll_merge hp hφ hw u ts s.drawn s.ψ
      rw [e, List.length_map] at this
      exact this

/-- Random numbers that were drawn before do not matter. -/
theorem exec_later {c : SCircuit} {u : Nat → ℝ} (k : Nat) {ops : List SOp} {s s' : SimState c.qubits.length} (he : Exec c (fun i => u (k + i)) ops s s') :
    Exec c u ops { s with drawn := k + s.drawn } { s' with drawn := k + s'.drawn } := by
  have hm : ∀ (ts : List (Fin c.qubits.length)) (d : Nat) (ψ : State c.qubits.length ℂ), measureAll (fun i => u (k + i)) ts d ψ = measureAll u ts (k + d) ψ := by
    intro ts
    induction ts with
    | nil => intro d ψ; rfl
    | cons t ts ih => intro d ψ; simp only [measureAll, ih]; rfl
  induction he with
  | nil => exact .nil
  | @cons op ops s s1 s2 hs _ ih =>
    refine .cons ?_ ih
    cases hs with
    | blocked hb => exact .blocked hb
    | @gate ts f hb hq hg => exact Step.gate (c := c) (u := u) (s := { s with drawn := k + s.drawn }) hb hq hg
    | @measure ts hb hk hq =>
      have := Step.measure (c := c) (u := u) (s := { s with drawn := k + s.drawn }) hb hk hq
      simp only [hm]
      rw [← Nat.add_assoc]
      exact this

end DG
