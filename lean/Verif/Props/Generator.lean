import Verif.Props.Kernels
import Verif.Props.Simulator
import Verif.Proofs.GeneratorSets

/-!
# Properties of the code generator: C102, C103

`generateOp normSq k m mask pre norm` is `generate_op` with `k` targets, `m` controls, the sparse mask, the precompiled matrix (if any) and
`collect_norm`; it gives the behaviour of the generated function, or nothing if the C compiler rejects the code. `generateOpSet k m ops` is
`generate_op_set`. `Spec/Generator.lean` says what a matrix on several qubits does.
-/

namespace DG.Props
open Kernel Spec

section gates
variable {R : Type} [Semiring R] [DecidableEq R] {N : Type} [AddCommMonoid N] (normSq : R → N)

/-- A matrix stored in a buffer, row after row. -/
def InBuffer (size : Nat) (gate : List R) (M : Nat → Nat → R) : Prop :=
  gate.length = size * size ∧ ∀ i < size, ∀ j < size, gate[i * size + j]? = some (M i j)

theorem generateOp_eq {k m : Nat} {mask : Nat → Nat → Bool} {pre : Option (Nat → Nat → R)} {cn : Bool} {f : CFun R N}
    (h : generateOp normSq k m mask pre cn = some f) :
    f = run { numTargets := k, numControls := m, precompiled := pre, mask := mask, collectNorm := cn } normSq := by
  unfold generateOp compileC at h
  split at h
  · exact (Option.some.inj h).symm
  · cases h

/-- **C102.** The function generated for `k` targets and `m` controls, with the matrix passed at run time, multiplies the targets with the matrix
(with zeros where the mask is 0) wherever all controls are 1, and changes nothing else: for all numbers of targets and controls, all
different qubits, both index orders, all states and all matrices. -/
theorem C102_gate {k m : Nat} {mask : Nat → Nat → Bool} {f : CFun R N} (hf : generateOp normSq k m mask none false = some f) {n : Nat} (hn : n ≤ 30)
    (le : Bool) (ts cs : List (Fin n)) (hk : ts.length = k) (hm : cs.length = m) (hnd : (ts ++ cs).Nodup) (gate : List R) (M : Nat → Nat → R)
    (hg : InBuffer (2 ^ k) gate M) (factor : R) (mem : List R) (ψ : State n R) (hs : Stores le mem ψ) :
    ∃ mem', f le (BitVec.ofNat 64 n) mem gate (ts.map q64) (cs.map q64) factor = .ok (0, mem') ∧
      Stores le mem' (applyOnTargets ts cs (fun i j => if mask i j then M i j else 0) ψ) := by
  rw [generateOp_eq normSq hf]
  obtain ⟨mem', h1, h2⟩ := runOrder_gen { numTargets := k, numControls := m, precompiled := none, mask := mask, collectNorm := false } normSq rfl le hn
    ts cs hnd hk.symm hm.symm (gate := gate) (by intro _; simp [OpSpec.size, Nat.shiftLeft_eq, hg.1])
    (Gv := M) (by
      intro _ i hi j hj _
      have e : OpSpec.size ({ numTargets := k, numControls := m, precompiled := none, mask := mask, collectNorm := false } : OpSpec R) = 2 ^ k := by
        simp [OpSpec.size, Nat.shiftLeft_eq]
      rw [e] at hi hj ⊢
      exact hg.2 i hi j hj) factor hs id (fun l => .refl l)
  refine ⟨mem', h1, ?_⟩
  rw [gen_eq_applyMatrix (List.nodup_append.1 hnd).1] at h2
  exact h2

/-- **C102**, precompiled matrix: the same with the matrix that was given to the generator; the mask and the gate buffer do not matter. -/
theorem C102_precompiled {k m : Nat} {mask : Nat → Nat → Bool} {M : Nat → Nat → R} {f : CFun R N}
    (hf : generateOp normSq k m mask (some M) false = some f) {n : Nat} (hn : n ≤ 30)
    (le : Bool) (ts cs : List (Fin n)) (hk : ts.length = k) (hm : cs.length = m) (hnd : (ts ++ cs).Nodup) (gate : List R)
    (factor : R) (mem : List R) (ψ : State n R) (hs : Stores le mem ψ) :
    ∃ mem', f le (BitVec.ofNat 64 n) mem gate (ts.map q64) (cs.map q64) factor = .ok (0, mem') ∧ Stores le mem' (applyOnTargets ts cs M ψ) := by
  rw [generateOp_eq normSq hf]
  obtain ⟨mem', h1, h2⟩ := runOrder_gen { numTargets := k, numControls := m, precompiled := some M, mask := mask, collectNorm := false } normSq rfl le hn
    ts cs hnd hk.symm hm.symm (gate := gate) (by intro h; simp at h) (Gv := M) (by intro h; simp at h) factor hs id (fun l => .refl l)
  refine ⟨mem', h1, ?_⟩
  rw [gen_eq_applyMatrix (List.nodup_append.1 hnd).1] at h2
  exact h2

/-- **C102**, `collect_norm`: the function returns the sum of the squared norms of the new amplitudes where all controls are 1 and leaves the
state as it is. -/
theorem C102_norm (h0 : normSq 0 = 0) {k m : Nat} {mask : Nat → Nat → Bool} {pre : Option (Nat → Nat → R)} {f : CFun R N}
    (hf : generateOp normSq k m mask pre true = some f) {n : Nat} (hn : n ≤ 30)
    (le : Bool) (ts cs : List (Fin n)) (hk : ts.length = k) (hm : cs.length = m) (hnd : (ts ++ cs).Nodup) (gate : List R) (M : Nat → Nat → R)
    (hg : pre = some M ∨ pre = none ∧ (∀ i j, mask i j = true) ∧ InBuffer (2 ^ k) gate M) (factor : R) (mem : List R) (ψ : State n R)
    (hs : Stores le mem ψ) :
    f le (BitVec.ofNat 64 n) mem gate (ts.map q64) (cs.map q64) factor =
      .ok (∑ x with ∀ c ∈ cs, x c = true, normSq (applyOnTargets ts cs M ψ x), mem) := by
  rw [generateOp_eq normSq hf]
  have e : OpSpec.size ({ numTargets := k, numControls := m, precompiled := pre, mask := mask, collectNorm := true } : OpSpec R) = 2 ^ k := by
    simp [OpSpec.size, Nat.shiftLeft_eq]
  have h := run_norm_gen { numTargets := k, numControls := m, precompiled := pre, mask := mask, collectNorm := true } normSq h0 rfl le hn
    ts cs hnd hk.symm hm.symm (gate := gate) (Gv := M) (by
      rintro rfl
      rcases hg with h | ⟨_, _, h⟩
      · cases h
      · rw [e, h.1]) (by
      rintro rfl i hi j hj _
      rcases hg with h | ⟨_, _, h⟩
      · cases h
      · rw [e] at hi hj ⊢; exact h.2 i hi j hj) factor hs
  refine h.trans ?_
  rw [gen_eq_applyMatrix (List.nodup_append.1 hnd).1]
  have : (fun i j => effective ({ numTargets := k, numControls := m, precompiled := pre, mask := mask, collectNorm := true } : OpSpec R) M i j) = M := by
    funext i j
    rcases hg with rfl | ⟨rfl, h, _⟩
    · rfl
    · simp [effective, h]
  simp only [Bool.false_eq_true, if_false]
  rw [this]

/-- **C102**, the code compiles for at most three targets, and for a precompiled matrix with any number of targets. -/
theorem C102_compiles (k m : Nat) (mask : Nat → Nat → Bool) (pre : Option (Nat → Nat → R)) (cn : Bool) (h : pre ≠ none ∨ k ≤ 3) :
    (generateOp normSq k m mask pre cn).isSome := by
  unfold generateOp compileC
  rw [if_pos (gateNames_nodup _ h)]
  rfl

/-- **C102** is violated for four or more targets with the matrix passed at run time: the variables of the entries (1, 11) and (11, 1) get the
same name and no compiler accepts the function. -/
theorem C102_names_violated {k : Nat} (hk : 4 ≤ k) (m : Nat) (mask : Nat → Nat → Bool) (h1 : mask 1 11 = true) (h2 : mask 11 1 = true) (cn : Bool) :
    generateOp normSq k m mask none cn = none := by
  unfold generateOp compileC
  have hs : 16 ≤ OpSpec.size ({ numTargets := k, numControls := m, precompiled := none, mask := mask, collectNorm := cn } : OpSpec R) := by
    simp only [OpSpec.size, Nat.shiftLeft_eq, one_mul]
    exact (Nat.pow_le_pow_right (by omega) hk : (2 : Nat) ^ 4 ≤ 2 ^ k)
  rw [if_neg]
  exact gateNames_not_nodup _ rfl (by omega) (by omega) (by omega) (by omega) h1 h2 (by omega) gateName_collision

end gates

/-! ## C103: operator sets -/

section sets
open Sim

theorem generateOpSet_eq {k m : Nat} {ops : List (Nat → Nat → ℂ)} {f : SetFun} (h : generateOpSet k m ops = .ok f) :
    f = opSetN k m ops ∧ ∀ a < 2 ^ k, ∀ b < 2 ^ k, isClose (opSum (2 ^ k) ops a b) (if a = b then 1 else 0) := by
  unfold generateOpSet at h
  split at h
  · rename_i hc
    exact ⟨(Except.ok.inj h).symm, hc⟩
  · cases h

theorem accepted_ne_nil {k m : Nat} {ops : List (Nat → Nat → ℂ)} {f : SetFun} (h : generateOpSet k m ops = .ok f) : ops ≠ [] := by
  rintro rfl
  have := (generateOpSet_eq h).2 0 (by positivity) 0 (by positivity)
  simp only [isClose, opSum, List.map_nil, List.sum_nil, if_true] at this
  norm_num at this

/-- The probability of an operator: the squared norm of its result. -/
noncomputable def outcome {n : Nat} (ts cs : List (Fin n)) (ψ : State n ℂ) (E : Nat → Nat → ℂ) : ℝ := normWhere cs (applyOnTargets ts cs E ψ)

/-- **C103**, total probability: for every set of operators that the generator accepts, the probabilities add up to the norm of the state (where the
controls are 1), up to a relative error of `10^-5 + 2^k 10^-8`. -/
theorem C103_total {k m : Nat} {ops : List (Nat → Nat → ℂ)} {f : SetFun} (hf : generateOpSet k m ops = .ok f) {n : Nat} (ts cs : List (Fin n))
    (hk : ts.length = k) (hnd : (ts ++ cs).Nodup) (ψ : State n ℂ) :
    |(ops.map (outcome ts cs ψ)).sum - normWhere cs ψ| ≤ (1 / 10 ^ 5 + 2 ^ k * (1 / 10 ^ 8)) * normWhere cs ψ := by
  subst hk
  exact total_close hnd (by norm_num) (generateOpSet_eq hf).2 ψ

/-- **C103**, sets that satisfy `∑ E†E = I` exactly are accepted. -/
theorem C103_accepts (k m : Nat) (ops : List (Nat → Nat → ℂ)) (hc : CompleteN (2 ^ k) ops) : ∃ f, generateOpSet k m ops = .ok f := by
  unfold generateOpSet
  rw [if_pos]
  · exact ⟨_, rfl⟩
  · intro a ha b hb
    have : opSum (2 ^ k) ops a b = if a = b then 1 else 0 := hc a ha b hb
    unfold isClose
    rw [this, sub_self, norm_zero]
    positivity

/-- **C103**, a set with an entry of `∑ E†E` that is further than `1.1 10^-5` from the entry of the identity is rejected. -/
theorem C103_rejects (k m : Nat) (ops : List (Nat → Nat → ℂ)) {a b : Nat} (ha : a < 2 ^ k) (hb : b < 2 ^ k)
    (h : 11 / 10 ^ 6 < ‖(ops.map fun E => ∑ i ∈ Finset.range (2 ^ k), star (E i a) * E i b).sum - (if a = b then 1 else 0)‖) :
    generateOpSet k m ops = .error .valueError := by
  unfold generateOpSet
  rw [if_neg]
  intro hc
  have h1 := hc a ha b hb
  unfold isClose at h1
  have h2 : ‖(if a = b then 1 else 0 : ℂ)‖ ≤ 1 := by split <;> simp
  have h3 : 11 / 10 ^ 6 < ‖opSum (2 ^ k) ops a b - (if a = b then 1 else 0)‖ := h
  norm_num at *
  linarith

/-- **C103** (partial: without controls). For every accepted set, every state and every random number, the generated function selects the operator in
whose interval the number lies (the last one, if the number lies beyond all intervals); it fails if that operator has probability 0;
otherwise it returns the index, and the state becomes the normalised result of the operator (or stays as it is, if that is asked for).
Missing: controls, for which the claim is false (below). -/
theorem C103_select_partial {k : Nat} {ops : List (Nat → Nat → ℂ)} {f : SetFun} (hf : generateOpSet k 0 ops = .ok f) {n : Nat} (hn : n ≤ 30) (le : Bool)
    (ts : List (Fin n)) (hk : ts.length = k) (hnd : ts.Nodup) (mem : List ℂ) (ψ : State n ℂ) (hs : Stores le mem ψ) {u : ℝ} (hu : 0 ≤ u) :
    ∃ i, ∃ h : i < ops.length, SelectsOrLast (ops.map (outcome ts [] ψ)) u i ∧
      (outcome ts [] ψ ops[i] = 0 → ∀ a, f le a n mem (ts.map Fin.val) [] u = .error .runtimeError) ∧
      (outcome ts [] ψ ops[i] ≠ 0 → f le false n mem (ts.map Fin.val) [] u = .ok ((i : Int), mem) ∧
        ∃ mem' φ, f le true n mem (ts.map Fin.val) [] u = .ok ((i : Int), mem') ∧ Stores le mem' φ ∧ Spec.normSq φ = 1 ∧
          ∀ x, φ x = ((1 / Real.sqrt (outcome ts [] ψ ops[i]) : ℝ) : ℂ) * applyOnTargets ts [] ops[i] ψ x) := by
  subst hk
  obtain ⟨i, hi, h1, h2, h3⟩ := opSetN_ok hn (accepted_ne_nil hf) le hs (ts := ts) (cs := []) (by simpa using hnd) hu
  rw [(generateOpSet_eq hf).1]
  refine ⟨i, hi, h1, h2, fun hz => ?_⟩
  obtain ⟨e1, mem', e2, e3⟩ := h3 hz
  refine ⟨e1, mem', _, e2, e3, ?_, ?_⟩
  · rw [collapsedN_norm ψ _ hz, normWhere_nil]; ring
  · intro x
    unfold collapsedN
    rw [if_pos (by simp)]
    rfl

/-- **C103**, exact sets without controls on a normalised state: for every random number in [0, 1) exactly one operator is selected, none fails. -/
theorem C103_exact {k : Nat} {ops : List (Nat → Nat → ℂ)} (hc : CompleteN (2 ^ k) ops) {n : Nat} (hn : n ≤ 30) (le : Bool)
    (ts : List (Fin n)) (hk : ts.length = k) (hnd : ts.Nodup) (mem : List ℂ) (ψ : State n ℂ) (hs : Stores le mem ψ) (h1 : Spec.normSq ψ = 1)
    {u : ℝ} (hu : 0 ≤ u) (hu1 : u < 1) :
    ∃ f i, ∃ h : i < ops.length, generateOpSet k 0 ops = .ok f ∧ Selects (ops.map (outcome ts [] ψ)) u i ∧
      (∀ j, Selects (ops.map (outcome ts [] ψ)) u j → j = i) ∧ f le false n mem (ts.map Fin.val) [] u = .ok ((i : Int), mem) ∧
      ∃ mem' φ, f le true n mem (ts.map Fin.val) [] u = .ok ((i : Int), mem') ∧ Stores le mem' φ ∧ Spec.normSq φ = 1 ∧
        ∀ x, φ x = ((1 / Real.sqrt (outcome ts [] ψ ops[i]) : ℝ) : ℂ) * applyOnTargets ts [] ops[i] ψ x := by
  obtain ⟨f, hf⟩ := C103_accepts k 0 ops hc
  obtain ⟨i, hi, h2, _, h4⟩ := C103_select_partial hf hn le ts hk hnd mem ψ hs hu
  have hsum : (ops.map (outcome ts [] ψ)).sum = 1 := by
    subst hk
    rw [show (ops.map (outcome ts [] ψ)).sum = _ from total_complete (cs := []) (by simpa using hnd) hc ψ, normWhere_nil, h1]
  have hsel := SelectsOrLast.selects h2 (by rw [hsum]; exact hu1)
  have hpos := selects_pos hsel
  rw [List.getElem_map] at hpos
  have hall : ∀ p ∈ ops.map (outcome ts [] ψ), 0 ≤ p := by
    intro p hp
    obtain ⟨E, _, rfl⟩ := List.mem_map.1 hp
    exact probN_nonneg ..
  exact ⟨f, i, hi, hf, hsel, fun j hj => selects_unique hall hj hsel, h4 hpos.ne'⟩

/-- **C103** is violated for operator sets with controls: for every set, on every normalised state in which the controls are not all 1 with certainty,
the function leaves a state that is not normalised, whichever operator it selects; it fails for every random number if the controls are never all 1.
The last part: there are random numbers for which it does not fail. -/
theorem C103_controls_violated {k m : Nat} {ops : List (Nat → Nat → ℂ)} {f : SetFun} (hf : generateOpSet k m ops = .ok f) {n : Nat} (hn : n ≤ 30)
    (le : Bool) (ts cs : List (Fin n)) (hk : ts.length = k) (hm : cs.length = m) (hnd : (ts ++ cs).Nodup) (mem : List ℂ) (ψ : State n ℂ)
    (hs : Stores le mem ψ) (h1 : Spec.normSq ψ = 1) (hlt : normWhere cs ψ < 1) {u : ℝ} (hu : 0 ≤ u) :
    (∀ i mem' (φ : State n ℂ), f le true n mem (ts.map Fin.val) (cs.map Fin.val) u = .ok (i, mem') → Stores le mem' φ →
      Spec.normSq φ = 2 - normWhere cs ψ ∧ Spec.normSq φ ≠ 1) ∧
    (normWhere cs ψ = 0 → ∀ a, f le a n mem (ts.map Fin.val) (cs.map Fin.val) u = .error .runtimeError) ∧
    (CompleteN (2 ^ k) ops → 0 < normWhere cs ψ → ∃ i mem' φ, f le true n mem (ts.map Fin.val) (cs.map Fin.val) 0 = .ok (i, mem') ∧
      Stores (n := n) le mem' φ) := by
  subst hk hm
  obtain ⟨i, hi, _, h2, h3⟩ := opSetN_ok hn (accepted_ne_nil hf) le hs hnd hu
  have htot := C103_total hf ts cs rfl hnd ψ
  rw [(generateOpSet_eq hf).1]
  refine ⟨fun j mem' φ hr hst => ?_, fun hz a => h2 ?_ a, fun hc hp => ?_⟩
  · by_cases hp : probN ts cs ψ ops[i] = 0
    · rw [h2 hp] at hr; cases hr
    · obtain ⟨_, mem2, e2, e3⟩ := h3 hp
      rw [e2] at hr
      have := congrArg (fun r : Except Err (Int × List ℂ) => r.toOption.map Prod.snd) hr
      simp only [Except.toOption, Option.map_some, Option.some.injEq] at this
      subst this
      rw [Stores.eq hst e3, collapsedN_norm ψ _ hp, h1]
      constructor
      · ring
      · intro h; linarith
  · rw [hz] at htot
    simp only [mul_zero, sub_zero] at htot
    have hsum := abs_eq_zero.1 (le_antisymm htot (abs_nonneg _))
    have hall : ∀ p ∈ ops.map (outcome ts cs ψ), 0 ≤ p := by
      intro p hp
      obtain ⟨E, _, rfl⟩ := List.mem_map.1 hp
      exact probN_nonneg ..
    have hle := List.single_le_sum hall (outcome ts cs ψ ops[i]) (List.mem_map.2 ⟨_, List.getElem_mem hi, rfl⟩)
    rw [hsum] at hle
    exact le_antisymm hle (probN_nonneg ..)
  · obtain ⟨i, hi, h1, _, h3⟩ := opSetN_ok hn (accepted_ne_nil hf) le hs hnd (le_refl (0 : ℝ))
    have hsel := SelectsOrLast.selects h1 (by rw [total_complete hnd hc ψ]; exact hp)
    have hpos := selects_pos hsel
    rw [List.getElem_map] at hpos
    obtain ⟨_, mem', e, hst⟩ := h3 hpos.ne'
    exact ⟨_, mem', _, e, hst⟩

/-- **C103**, the sets of the module (measurement, dephasing, amplitude damping) are accepted, and the generated functions are those of the simulator
(C70). -/
theorem C103_used (ops : List (Nat → Nat → ℂ)) (hops : ops = measurementOps ∨ ops = dephaseOps ∨ ops = ampDampOps) :
    ∃ f, generateOpSet 1 0 ops = .ok f ∧ ∀ le a m mem t u, f le a m mem [t] [] u = opSet ops le a m mem t u := by
  obtain ⟨f, hf⟩ := C103_accepts 1 0 ops (Complete.completeN (complete_used ops hops))
  refine ⟨f, hf, fun le a m mem t u => ?_⟩
  rw [(generateOpSet_eq hf).1, opSet_eq]

end sets

/-! ## Concrete cases -/

/-- A mask that leaves out two entries of a 4x4 matrix. -/
def demoMask (i j : Nat) : Bool := decide (¬ ((i = 0 ∧ j = 3) ∨ (i = 2 ∧ j = 1)))

example : (generateOp (R := Int) (N := Int) (fun z => z * z) 2 1 demoMask none false).isSome := C102_compiles _ 2 1 demoMask none false (.inr (by decide))

/-- Two targets (qubits 2 and 0), controlled by qubit 1, of three: the amplitudes with qubit 1 set are multiplied with the masked matrix. -/
example : run (N := Int) { numTargets := 2, numControls := 1, mask := demoMask } (fun z => z * z) true 3 [1, 2, 3, 4, 5, 6, 7, 8]
    [1, 0, 0, 9, 0, 1, 1, 0, 0, 9, 2, 0, 0, 0, 1, 1] [2, 0] [1] (1 : Int) = .ok (0, [1, 2, 3, 8, 5, 6, 11, 12]) := by decide +kernel

/-- C102 for this call. -/
example (mem : List Int) (ψ : State 3 Int) (hs : Stores true mem ψ) : ∃ f mem', generateOp (N := Int) (fun z : Int => z * z) 2 1 demoMask none false = some f ∧
    f true (BitVec.ofNat 64 3) mem [1, 0, 0, 9, 0, 1, 1, 0, 0, 9, 2, 0, 0, 0, 1, 1] (([2, 0] : List (Fin 3)).map q64) (([1] : List (Fin 3)).map q64) 1 =
      .ok (0, mem') ∧
    Stores true mem' (applyOnTargets [2, 0] [1] (fun i j => if demoMask i j then ([1, 0, 0, 9, 0, 1, 1, 0, 0, 9, 2, 0, 0, 0, 1, 1] : List Int).getD (i * 4 + j) 0 else 0) ψ) := by
  obtain ⟨f, hf⟩ := Option.isSome_iff_exists.1 (C102_compiles (R := Int) (N := Int) (fun z => z * z) 2 1 demoMask none false (.inr (by decide)))
  obtain ⟨mem', h1, h2⟩ := C102_gate _ hf (by omega) true ([2, 0] : List (Fin 3)) [1] rfl rfl (by decide)
    [1, 0, 0, 9, 0, 1, 1, 0, 0, 9, 2, 0, 0, 0, 1, 1]
    (fun i j => ([1, 0, 0, 9, 0, 1, 1, 0, 0, 9, 2, 0, 0, 0, 1, 1] : List Int).getD (i * 4 + j) 0) ⟨rfl, by decide⟩ 1 mem ψ hs
  exact ⟨f, mem', hf, h1, h2⟩

/-- The projections to even and odd parity of two qubits. -/
def parityOps : List (Nat → Nat → ℂ) :=
  [fun i j => if i = j ∧ (i = 0 ∨ i = 3) then 1 else 0, fun i j => if i = j ∧ (i = 1 ∨ i = 2) then 1 else 0]

theorem complete_parity : CompleteN (2 ^ 2) parityOps := by
  intro a ha b hb
  have ha' : a = 0 ∨ a = 1 ∨ a = 2 ∨ a = 3 := by omega
  have hb' : b = 0 ∨ b = 1 ∨ b = 2 ∨ b = 3 := by omega
  rcases ha' with rfl | rfl | rfl | rfl <;> rcases hb' with rfl | rfl | rfl | rfl <;>
    simp [parityOps, Finset.sum_range_succ]

/-- The uniform superposition of two qubits. -/
noncomputable def uniform2 : State 2 ℂ := fun _ => 1 / 2

theorem uniform2_norm : Spec.normSq uniform2 = 1 := by
  simp [Spec.normSq, uniform2]; norm_num

theorem uniform2_control : normWhere [0] uniform2 = 1 / 2 := by
  have : (Finset.univ.filter fun x : Basis 2 => ∀ c ∈ ([0] : List (Fin 2)), x c = true).card = 2 := by decide +kernel
  simp only [normWhere, uniform2, Finset.sum_const, this]
  norm_num [Complex.normSq]

theorem uniform2_stores : Stores false (List.replicate 4 (1 / 2)) uniform2 := by
  refine ⟨by simp, fun x => ?_⟩
  rw [List.getElem?_replicate, if_pos]
  · rfl
  · exact index_lt false x

/-- C103 for a parity measurement of two qubits. -/
example : ∃ f i, Sim.generateOpSet 2 0 parityOps = .ok f ∧ f false false 2 (List.replicate 4 (1 / 2)) [1, 0] [] (2 / 3) = .ok (i, List.replicate 4 (1 / 2)) := by
  obtain ⟨f, i, _, h1, _, _, h2, _⟩ := C103_exact complete_parity (n := 2) (by omega) false [1, 0] rfl (by decide) _ _ uniform2_stores uniform2_norm
    (u := 2 / 3) (by norm_num) (by norm_num)
  exact ⟨f, i, h1, h2⟩

/-- A controlled measurement in the uniform superposition returns, and the state has norm 3/2 instead of 1. -/
theorem controlled_measurement_demo : ∃ f i mem' φ, Sim.generateOpSet 1 1 Sim.measurementOps = .ok f ∧
    f false true 2 (List.replicate 4 (1 / 2)) [1] [0] 0 = .ok (i, mem') ∧ Stores false mem' φ ∧ Spec.normSq (n := 2) φ = 3 / 2 := by
  have hc : CompleteN (2 ^ 1) Sim.measurementOps := by
    intro a ha b hb
    have ha' : a = 0 ∨ a = 1 := by omega
    have hb' : b = 0 ∨ b = 1 := by omega
    rcases ha' with rfl | rfl <;> rcases hb' with rfl | rfl <;>
      simp [Sim.measurementOps, Sim.measurement0, Sim.measurement1, Finset.sum_range_succ]
  obtain ⟨f, hf⟩ := C103_accepts 1 1 _ hc
  obtain ⟨h1, _, h3⟩ := C103_controls_violated hf (n := 2) (by omega) false [1] [0] rfl rfl (by decide) _ _ uniform2_stores uniform2_norm
    (by rw [uniform2_control]; norm_num) (le_refl (0 : ℝ))
  obtain ⟨i, mem', φ, e, hst⟩ := h3 hc (by rw [uniform2_control]; norm_num)
  refine ⟨f, i, mem', φ, hf, e, hst, ?_⟩
  rw [(h1 i mem' φ e hst).1, uniform2_control]; norm_num

end DG.Props
