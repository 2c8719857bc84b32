import Verif.Proofs.KernelSpec
import Verif.Proofs.KernelSafe
import Mathlib.Algebra.Ring.Int.Defs
import Mathlib.Tactic.FinCases

/-!
# Properties of the generated gate kernels: C35–C41

`run op normSq littleEndian n mem gate targets controls factor` is the C function generated for `op`; qubit numbers are
passed as `uint64_t` (`q64`). `mem` is the state vector, `gate` the buffer behind the gate matrix. Amplitudes come from an
arbitrary semiring `R`, so in particular from the complex numbers. `Spec/Quantum.lean` defines `Stores`, `applyGate`, ...
-/

namespace DG.Props
open Kernel Spec

/-- A qubit number as C argument. -/
abbrev q64 {n : Nat} (q : Fin n) : BitVec 64 := BitVec.ofNat 64 q.val

/-- A 2x2 matrix given by its four entries. -/
def mat2 {R : Type} (g00 g01 g10 g11 : R) : Bool → Bool → R
  | false, false => g00
  | false, true => g01
  | true, false => g10
  | true, true => g11

section
variable {R : Type} [Semiring R] [DecidableEq R] {N : Type} [AddCommMonoid N] (normSq : R → N)

/-- A kernel that reads its 2x2 gate from a buffer. -/
theorem kernel2 (op : OpSpec R) (h1 : op.numTargets = 1) (h2 : op.collectNorm = false) (h3 : op.scale = false)
    (h4 : op.precompiled = none) (h5 : op.mask = fun _ _ => true) {n : Nat} (le : Bool) (hn : n ≤ 30) (t : Fin n) (cs : List (Fin n))
    (hnd : (t :: cs).Nodup) (hc : op.numControls = cs.length)
    (g00 g01 g10 g11 factor : R) (mem : List R) (ψ : State n R) (hm : Stores le mem ψ) :
    ∃ mem', run op normSq le (BitVec.ofNat 64 n) mem [g00, g01, g10, g11] (args [t]) (args cs) factor = .ok (0, mem') ∧
      Stores le mem' (applyControlled cs t (mat2 g00 g01 g10 g11) ψ) := by
  have hsz : op.size = 2 := by simp [OpSpec.size, h1]
  let Gv : Nat → Nat → R := fun i j => mat2 g00 g01 g10 g11 (decide (i = 1)) (decide (j = 1))
  have hg : GateBuf op [g00, g01, g10, g11] Gv := by
    intro _ i hi j hj _
    rw [hsz] at *
    have : (i = 0 ∨ i = 1) ∧ (j = 0 ∨ j = 1) := by omega
    rcases this with ⟨rfl | rfl, rfl | rfl⟩ <;> simp [Gv, mat2]
  obtain ⟨mem', e1, e2⟩ := runOrder_gen op normSq h2 le hn [t] cs (by simpa using hnd) (by simpa using h1) hc
    (gate := [g00, g01, g10, g11]) (by intro _; rw [hsz]; simp) hg factor hm id (fun l => List.Perm.refl l)
  refine ⟨mem', e1, ?_⟩
  rw [gen_single] at e2
  have : (fun a b : Bool => if op.scale = true then factor * effective op Gv a.toNat b.toNat
      else effective op Gv a.toNat b.toNat) = mat2 g00 g01 g10 g11 := by
    funext a b
    simp only [h3, effective, h4, h5, Gv]
    cases a <;> cases b <;> rfl
  rw [this] at e2
  exact e2

/-- **C35.** The single-qubit kernel turns the vector of `ψ` into the vector of the state in which the 2x2 matrix acts on
exactly the addressed qubit, for both index orders. -/
theorem C35_single_qubit {n : Nat} (le : Bool) (hn : n ≤ 30) (t : Fin n) (g00 g01 g10 g11 factor : R) (mem : List R)
    (ψ : State n R) (hm : Stores le mem ψ) :
    ∃ mem', run singleQubit normSq le (BitVec.ofNat 64 n) mem [g00, g01, g10, g11] [q64 t] [] factor = .ok (0, mem') ∧
      Stores le mem' (applyGate t (mat2 g00 g01 g10 g11) ψ) := by
  have := kernel2 normSq singleQubit rfl rfl rfl rfl rfl le hn t [] (by simp) rfl g00 g01 g10 g11 factor mem ψ hm
  rwa [applyControlled_nil] at this

/-- **C36.** The controlled kernel applies the matrix to the target where the control is 1 and leaves the other amplitudes
unchanged. -/
theorem C36_controlled {n : Nat} (le : Bool) (hn : n ≤ 30) (c t : Fin n) (hct : c ≠ t) (g00 g01 g10 g11 factor : R)
    (mem : List R) (ψ : State n R) (hm : Stores le mem ψ) :
    ∃ mem', run gateControl normSq le (BitVec.ofNat 64 n) mem [g00, g01, g10, g11] [q64 t] [q64 c] factor = .ok (0, mem') ∧
      Stores le mem' (fun x => if x c = true then applyGate t (mat2 g00 g01 g10 g11) ψ x else ψ x) := by
  obtain ⟨mem', h1, h2⟩ := kernel2 normSq gateControl rfl rfl rfl rfl rfl le hn t [c] (by simp [Ne.symm hct]) rfl
    g00 g01 g10 g11 factor mem ψ hm
  refine ⟨mem', h1, ?_⟩
  have : applyControlled [c] t (mat2 g00 g01 g10 g11) ψ =
      fun x => if x c = true then applyGate t (mat2 g00 g01 g10 g11) ψ x else ψ x := by
    funext x; simp [applyControlled]
  rwa [this] at h2

/-- **C37.** The doubly controlled kernel with the matrix of X (as `CCX` uses it) exchanges the amplitudes that differ in
the target where both controls are 1 and leaves all others unchanged. -/
theorem C37_ccx {n : Nat} (le : Bool) (hn : n ≤ 30) (c c' t : Fin n) (h1 : c ≠ c') (h2 : c ≠ t) (h3 : c' ≠ t)
    (factor : R) (mem : List R) (ψ : State n R) (hm : Stores le mem ψ) :
    ∃ mem', run gateTwoControl normSq le (BitVec.ofNat 64 n) mem [0, 1, 1, 0] [q64 t] [q64 c, q64 c'] factor = .ok (0, mem') ∧
      Stores le mem' (fun x => if x c = true ∧ x c' = true then ψ (Function.update x t (!x t)) else ψ x) := by
  obtain ⟨mem', e1, e2⟩ := kernel2 normSq gateTwoControl rfl rfl rfl rfl rfl le hn t [c, c']
    (by simp [Ne.symm h2, Ne.symm h3, h1]) rfl 0 1 1 0 factor mem ψ hm
  refine ⟨mem', e1, ?_⟩
  have : applyControlled [c, c'] t (mat2 0 1 1 0) ψ =
      fun x => if x c = true ∧ x c' = true then ψ (Function.update x t (!x t)) else ψ x := by
    funext x
    unfold applyControlled applyGate
    simp only [List.mem_cons, List.not_mem_nil, or_false, forall_eq_or_imp, forall_eq, Fintype.sum_bool]
    cases x t <;> simp [mat2]
  rwa [this] at e2

/-- **C37**, any matrix. -/
theorem C37_two_controls {n : Nat} (le : Bool) (hn : n ≤ 30) (c c' t : Fin n) (h1 : c ≠ c') (h2 : c ≠ t) (h3 : c' ≠ t)
    (g00 g01 g10 g11 factor : R) (mem : List R) (ψ : State n R) (hm : Stores le mem ψ) :
    ∃ mem', run gateTwoControl normSq le (BitVec.ofNat 64 n) mem [g00, g01, g10, g11] [q64 t] [q64 c, q64 c'] factor =
        .ok (0, mem') ∧
      Stores le mem' (fun x => if x c = true ∧ x c' = true then applyGate t (mat2 g00 g01 g10 g11) ψ x else ψ x) := by
  obtain ⟨mem', e1, e2⟩ := kernel2 normSq gateTwoControl rfl rfl rfl rfl rfl le hn t [c, c']
    (by simp [Ne.symm h2, Ne.symm h3, h1]) rfl g00 g01 g10 g11 factor mem ψ hm
  refine ⟨mem', e1, ?_⟩
  have : applyControlled [c, c'] t (mat2 g00 g01 g10 g11) ψ =
      fun x => if x c = true ∧ x c' = true then applyGate t (mat2 g00 g01 g10 g11) ψ x else ψ x := by
    funext x; simp [applyControlled]
  rwa [this] at e2

/-- **C38.** The swap kernel exchanges the two qubits: the new amplitude of `x` is the old amplitude of `x` with bits `a` and
`b` exchanged. The content of the gate buffer does not matter. -/
theorem C38_swap {n : Nat} (le : Bool) (hn : n ≤ 30) (a b : Fin n) (hab : a ≠ b) (gate : List R) (factor : R)
    (mem : List R) (ψ : State n R) (hm : Stores le mem ψ) :
    ∃ mem', run swapOp normSq le (BitVec.ofNat 64 n) mem gate [q64 a, q64 b] [] factor = .ok (0, mem') ∧
      Stores le mem' (fun x => ψ (x ∘ Equiv.swap a b)) := by
  obtain ⟨mem', e1, e2⟩ := runOrder_gen swapOp normSq rfl le hn [a, b] [] (by simp [hab]) rfl rfl
    (gate := gate) (by intro h; simp [swapOp] at h) (Gv := fun _ _ => 0) (by intro h; simp [swapOp] at h) factor hm id
    (fun l => List.Perm.refl l)
  refine ⟨mem', e1, ?_⟩
  have h := gen_swap a b hab [] ψ
  have h' : (fun i j => if (swapOp (R := R)).scale = true then factor * effective swapOp (fun _ _ => (0 : R)) i j
      else effective swapOp (fun _ _ => 0) i j) = swapMatrix := by
    funext i j; simp [swapOp, effective]
  rw [h', h] at e2
  simpa [applySwap] using e2

/-- **C39.** The controlled swap kernel exchanges the two qubits where the control is 1 and changes nothing elsewhere. -/
theorem C39_cswap {n : Nat} (le : Bool) (hn : n ≤ 30) (c a b : Fin n) (hab : a ≠ b) (hca : c ≠ a) (hcb : c ≠ b)
    (gate : List R) (factor : R) (mem : List R) (ψ : State n R) (hm : Stores le mem ψ) :
    ∃ mem', run cswapOp normSq le (BitVec.ofNat 64 n) mem gate [q64 a, q64 b] [q64 c] factor = .ok (0, mem') ∧
      Stores le mem' (fun x => if x c = true then ψ (x ∘ Equiv.swap a b) else ψ x) := by
  obtain ⟨mem', e1, e2⟩ := runOrder_gen cswapOp normSq rfl le hn [a, b] [c]
    (by simp [hab, Ne.symm hca, Ne.symm hcb]) rfl rfl
    (gate := gate) (by intro h; simp [cswapOp] at h) (Gv := fun _ _ => 0) (by intro h; simp [cswapOp] at h) factor hm id
    (fun l => List.Perm.refl l)
  refine ⟨mem', e1, ?_⟩
  have h := gen_swap a b hab [c] ψ
  have h' : (fun i j => if (cswapOp (R := R)).scale = true then factor * effective cswapOp (fun _ _ => (0 : R)) i j
      else effective cswapOp (fun _ _ => 0) i j) = swapMatrix := by
    funext i j; simp [cswapOp, effective]
  rw [h', h] at e2
  simpa [applySwap] using e2

/-- **C40** (partial: at most 30 qubits). A kernel whose operands are qubit numbers below `n` - distinct or not - and whose
state vector has 2^n entries accesses only memory of the vector, and none of its integer operations is undefined: it
returns normally and the vector keeps its size. Missing: n ≥ 31, where the claim is false (next theorem). -/
theorem C40_memory_safe_partial (op : OpSpec R) {n : Nat} (le : Bool) (hn : n ≤ 30) (targets controls : List (Fin n))
    (ht : op.numTargets = targets.length) (hc : op.numControls = controls.length) (gate : List R)
    (hg : op.precompiled = none → 2 ^ op.numTargets * 2 ^ op.numTargets ≤ gate.length) (factor : R) (mem : List R)
    (hm : mem.length = 2 ^ n) :
    ∃ norm mem', run op normSq le (BitVec.ofNat 64 n) mem gate (targets.map q64) (controls.map q64) factor =
      .ok (norm, mem') ∧ mem'.length = 2 ^ n := by
  obtain ⟨⟨r1, r2⟩, h1, h2⟩ := run_safe op normSq le hn (targets.map Fin.val) (controls.map Fin.val) (by
      intro q hq
      rw [← List.map_append] at hq
      obtain ⟨q', _, rfl⟩ := List.mem_map.1 hq
      exact q'.isLt) (by simpa using ht) (by simpa using hc) gate
      (by intro h; have := hg h; simpa [OpSpec.size, Nat.shiftLeft_eq] using this) factor mem hm
  refine ⟨r1, r2, ?_, by rw [← hm]; exact h2⟩
  rw [← h1]
  simp [List.map_map, Function.comp_def]

/-- **C40** is violated from 31 qubits on: the generated code computes `1 << num_qubits` in type `int`, so every kernel runs
into undefined behaviour, for all operands and states. -/
theorem C40_int_overflow_violated (op : OpSpec R) {n : Nat} (le : Bool) (hn : 31 ≤ n) (hn' : n < 2 ^ 64)
    (mem gate : List R) (targets controls : List (BitVec 64)) (factor : R) :
    run op normSq le (BitVec.ofNat 64 n) mem gate targets controls factor = .error .undefinedBehaviour :=
  run_undefined op normSq le hn hn' mem gate targets controls factor

/-- **C41.** Running the iterations of a gate kernel in any order gives the same memory. -/
theorem C41_any_order (op : OpSpec R) (hcn : op.collectNorm = false) {n : Nat} (le : Bool) (hn : n ≤ 30)
    (targets controls : List (Fin n)) (hnd : (targets ++ controls).Nodup)
    (ht : op.numTargets = targets.length) (hc : op.numControls = controls.length) (gate : List R)
    (hg : op.precompiled = none → 2 ^ op.numTargets * 2 ^ op.numTargets ≤ gate.length) (factor : R) (mem : List R)
    (hm : mem.length = 2 ^ n) (order : List (BitVec 64) → List (BitVec 64)) (hord : ∀ l, (order l).Perm l) :
    runOrder op normSq le (BitVec.ofNat 64 n) mem gate (targets.map q64) (controls.map q64) factor order =
      run op normSq le (BitVec.ofNat 64 n) mem gate (targets.map q64) (controls.map q64) factor := by
  have hsz : op.size = 2 ^ op.numTargets := by simp [OpSpec.size, Nat.shiftLeft_eq]
  have hgb : GateBuf op gate (fun i j => gate.getD (i * op.size + j) 0) := by
    intro hp i hi j hj _
    have h1 := hg hp
    rw [← hsz] at h1
    have h2 : i * op.size + j < op.size * op.size := by nlinarith
    simp only [List.getD_eq_getElem?_getD]
    rw [List.getElem?_eq_getElem (by omega)]
    rfl
  have hst : Stores le mem (fun x : Basis n => mem[index le x]'(by rw [hm]; exact index_lt le x)) :=
    ⟨hm, fun x => by rw [List.getElem?_eq_getElem]⟩
  have hlen : op.precompiled = none → op.size * op.size ≤ gate.length := by rw [hsz]; exact hg
  obtain ⟨m1, h1, h2⟩ := runOrder_gen op normSq hcn le hn targets controls hnd ht hc hlen hgb factor hst order hord
  obtain ⟨m2, h3, h4⟩ := runOrder_gen op normSq hcn le hn targets controls hnd ht hc hlen hgb factor hst id
    (fun l => List.Perm.refl l)
  have : m1 = m2 := Stores.mem_eq h2 h4
  unfold run
  show runOrder op normSq le _ mem gate (args targets) (args controls) factor order =
    runOrder op normSq le _ mem gate (args targets) (args controls) factor id
  rw [h1, h3, this]

end

/-! ## Concrete cases

A three-qubit vector with eight different amplitudes meets the hypotheses; the kernels are also run by evaluation, which
shows the resulting vectors literally. -/

/-- The state whose big-endian vector is 1,...,8. -/
def demoState : State 3 Int := fun x => 1 + 4 * (x 0).toNat + 2 * (x 1).toNat + (x 2).toNat

example : Stores false [1, 2, 3, 4, 5, 6, 7, 8] demoState := by
  refine ⟨rfl, ?_⟩; decide +kernel
example : Stores true [1, 5, 3, 7, 2, 6, 4, 8] demoState := by
  refine ⟨rfl, ?_⟩; decide +kernel
example : run (N := Int) singleQubit (fun z => z * z) false 3 [1, 2, 3, 4, 5, 6, 7, 8] [0, 1, 1, 0] [0] [] (1 : Int) =
    .ok (0, [5, 6, 7, 8, 1, 2, 3, 4]) := by decide +kernel
example : run (N := Int) gateControl (fun z => z * z) false 3 [1, 2, 3, 4, 5, 6, 7, 8] [0, 1, 1, 0] [2] [0] (1 : Int) =
    .ok (0, [1, 2, 3, 4, 6, 5, 8, 7]) := by decide +kernel
example : run (N := Int) gateTwoControl (fun z => z * z) true 3 [1, 2, 3, 4, 5, 6, 7, 8] [0, 1, 1, 0] [2] [0, 1] (1 : Int) =
    .ok (0, [1, 2, 3, 8, 5, 6, 7, 4]) := by decide +kernel
example : run (N := Int) swapOp (fun z => z * z) false 3 [1, 2, 3, 4, 5, 6, 7, 8] [] [0, 2] [] (1 : Int) =
    .ok (0, [1, 5, 3, 7, 2, 6, 4, 8]) := by decide +kernel
example : run (N := Int) cswapOp (fun z => z * z) false 3 [1, 2, 3, 4, 5, 6, 7, 8] [] [1, 2] [0] (1 : Int) =
    .ok (0, [1, 2, 3, 4, 5, 7, 6, 8]) := by decide +kernel
/-- C41 with the reversed order. -/
example (mem : List Int) (hm : mem.length = 2 ^ 3) :
    runOrder (N := Int) gateControl (fun z => z * z) false (BitVec.ofNat 64 3) mem [0, 1, 1, 0] (([2] : List (Fin 3)).map q64) (([0] : List (Fin 3)).map q64)
        1 List.reverse =
      run gateControl (fun z => z * z) false (BitVec.ofNat 64 3) mem [0, 1, 1, 0] (([2] : List (Fin 3)).map q64) (([0] : List (Fin 3)).map q64) 1 :=
  C41_any_order _ gateControl rfl false (by omega) ([2] : List (Fin 3)) [0] (by decide) rfl rfl _ (by decide) 1 mem hm
    List.reverse (fun l => List.reverse_perm l)
/-- C40 with repeated operands, as `CX(q, q)` would give. -/
example : ∃ norm mem', run (N := Int) gateControl (fun z => z * z) false (BitVec.ofNat 64 3) [1, 2, 3, 4, 5, 6, 7, 8]
    [0, 1, 1, 0] (([1] : List (Fin 3)).map q64) (([1] : List (Fin 3)).map q64) (1 : Int) = .ok (norm, mem') ∧ mem'.length = 2 ^ 3 :=
  C40_memory_safe_partial _ gateControl false (by omega) ([1] : List (Fin 3)) [1] rfl rfl _ (by decide) 1 _ rfl

end DG.Props
