import Verif.Proofs.CustomExact
import Verif.Props.Simulator

/-!
# Properties of unitaries and matrices: C53–C58, C60, C61, C78

`buildControlled`, `buildUnitary`, `cachedBuild`, `customMatrix`, `opMatrix` model `build_controlled_unitary`, `build_unitary`
(without and with its cache), the matrix of custom operations, and `matrix`. `Spec/Matrix.lean` says what it means that an
array is the matrix of a linear map on qubits (`ActsAs`), what the operations of a circuit mean (`Means`,
`Composed`), and what it means to apply a matrix to some qubits of a larger system (`applyMatrix`).
-/

namespace DG.Props
open Complex Spec Kernel DG.Sim Unitary

/-! ## C53 -/

/-- **C53.** For distinct controls and a target among the `n` qubits, in any order, and any 2x2 matrix: the result is the matrix
that applies the 2x2 matrix to the target when all controls are 1 and is the identity otherwise. -/
theorem C53_controlled_partial {n : Nat} (cs : List (Fin n)) (t : Fin n) (hcs : cs.Nodup) (ht : t ∉ cs) (a : Arr2) :
    ∃ M, buildControlled (cs.map fun c => (c.val : Int)) [(t.val : Int)] (some (ofArr a)) (some (n : Int)) = .ok M ∧
      ActsAs n M (applyControlled cs t (gateOf a)) := by
  obtain ⟨M, h1, h2⟩ := buildControlled_acts cs t hcs ht (ofArr a) rfl (some n) (.inl rfl)
  rw [gateN_ofArr] at h2
  exact ⟨M, h1, h2⟩

/-- Without `num_qubits`, the number of qubits is the largest index plus 1. -/
theorem C53_default_partial {n : Nat} (cs : List (Fin n)) (t : Fin n) (hcs : cs.Nodup) (ht : t ∉ cs) (a : Arr2)
    (hn : t.val + 1 = n ∨ ∃ c ∈ cs, c.val + 1 = n) :
    ∃ M, buildControlled (cs.map fun c => (c.val : Int)) [(t.val : Int)] (some (ofArr a)) none = .ok M ∧
      ActsAs n M (applyControlled cs t (gateOf a)) := by
  have hmax : ∀ m, (cs.map (fun c : Fin n => (c.val : Int)) ++ [(t.val : Int)]).max? = some m → m + 1 = n := by
    intro m hm
    have h1 := (List.max?_eq_some_iff (xs := cs.map (fun c : Fin n => (c.val : Int)) ++ [(t.val : Int)])).1 hm
    have hlt : m < n := by
      rcases List.mem_append.1 h1.1 with h | h
      · obtain ⟨c, _, rfl⟩ := List.mem_map.1 h
        have := c.isLt; omega
      · have := List.mem_singleton.1 h
        have := t.isLt; omega
    have hge : (n : Int) - 1 ≤ m := by
      rcases hn with hn | ⟨c, hc, hn⟩
      · have := h1.2 (t.val : Int) (List.mem_append.2 (.inr (List.mem_singleton.2 rfl)))
        omega
      · have := h1.2 (c.val : Int) (List.mem_append.2 (.inl (List.mem_map.2 ⟨c, hc, rfl⟩)))
        omega
    omega
  obtain ⟨M, h1, h2⟩ := buildControlled_acts cs t hcs ht (ofArr a) rfl none (.inr ⟨rfl, hmax⟩)
  rw [gateN_ofArr] at h2
  exact ⟨M, h1, h2⟩

/-- **C53.** Overlapping control and target are refused, whatever the other arguments. -/
theorem C53_overlap (control target : List Int) (u : Option NMat) (n : Option Int) (q : Int) (h1 : q ∈ control) (h2 : q ∈ target) :
    buildControlled control target u n = .error .valueError := by
  unfold buildControlled
  rw [if_pos]
  exact List.any_eq_true.2 ⟨q, h1, by simpa using h2⟩

/-- **C53.** An index that is too large is refused. -/
theorem C53_too_large (control target : List Int) (u : Option NMat) (n : Int) (q : Int) (h1 : q ∈ control ++ target) (h2 : n ≤ q) :
    buildControlled control target u (some n) = .error .valueError := by
  unfold buildControlled
  split
  · rfl
  · cases hm : (control ++ target).max? with
    | none => rfl
    | some m =>
      have := (List.max?_eq_some_iff (xs := control ++ target)).1 hm
      have hq := this.2 q h1
      dsimp only
      rw [if_pos (by simpa using le_trans h2 hq)]

/-- Several targets are not implemented (also no target, if there is a control). -/
theorem C53_targets (control target : List Int) (u : Option NMat) (n : Int) (h1 : ∀ q ∈ control, q ∉ target)
    (h2 : ∀ q ∈ control ++ target, q < n) (h3 : target.length ≠ 1) (h4 : control ++ target ≠ []) :
    buildControlled control target u (some n) = .error .notImplementedError := by
  unfold buildControlled
  rw [if_neg (by simpa using h1)]
  cases hm : (control ++ target).max? with
  | none => exact absurd (List.max?_eq_none_iff.1 hm) h4
  | some m =>
    have := h2 m ((List.max?_eq_some_iff (xs := control ++ target)).1 hm).1
    dsimp only
    rw [if_neg (by simpa using this), if_pos h3]

/-- Controls 2 and 0, target 1, of three qubits. -/
example : ∃ M, buildControlled [2, 0] [1] (some (ofArr ⟨0, 1, 1, 0, true, true⟩)) (some 3) = .ok M ∧ M.dim = 8 := by
  obtain ⟨M, h1, h2⟩ := C53_controlled_partial (n := 3) [2, 0] 1 (by decide) (by decide) ⟨0, 1, 1, 0, true, true⟩
  exact ⟨M, h1, h2.1⟩
example : ([2, 0] : List (Fin 3)).Nodup ∧ (1 : Fin 3) ∉ ([2, 0] : List (Fin 3)) := by decide
example : buildControlled [0, 1] [1] none (some 5) = .error .valueError := C53_overlap _ _ _ _ 1 (by decide) (by decide)
example : buildControlled [3] [1] none (some 3) = .error .valueError := C53_too_large _ _ _ _ 3 (by decide) (by decide)

/-- C53 fails for negative indices: they are out of range but not refused. -/
theorem C53_negative_violated (u : NMat) (hu : u.dim = 2) : ∃ M, buildControlled [-2] [0] (some u) (some 2) = .ok M := by
  refine ⟨setRows' u (eye 4) (rowPair [-2] [0] []), ?_⟩
  have h : buildControlled [-2] [0] (some u) (some 2) = (product 0).foldlM
      (fun state bits => setRows (some u) state (rowPair [-2] [0] bits)) (eye (2 ^ 2)) := rfl
  rw [h]
  show (setRows (some u) (eye 4) (rowPair [-2] [0] []) >>= fun s => pure s) = _
  rw [setRows_ok _ _ _ hu]; rfl

/-! ## C54 -/

/-- **C54.** For every circuit (any number of qubits and operations) of single-qubit gates and non-parametric controlled gates
with any number of controls: `build_unitary` succeeds and gives the matrix of the composition of the operations, the first
operation applied first. -/
theorem C54_product_partial (c : UCircuit) (hnd : c.qubits.Nodup) (f : State c.qubits.length ℂ → State c.qubits.length ℂ)
    (h : Composed c c.ops f) : ∃ M, buildUnitary c = .ok M ∧ ActsAs c.qubits.length M f :=
  buildUnitary_acts hnd h

/-- **C54.** If the operations are from the library the result is unitary. -/
theorem C54_unitary (c : UCircuit) (hnd : c.qubits.Nodup) (f : State c.qubits.length ℂ → State c.qubits.length ℂ)
    (h : Composed c c.ops f) (hl : ∀ op ∈ c.ops, (∃ b, op.kind = .single b ∧ Library b) ∨ ∃ nc b, op.kind = .controlled nc b ∧ Library b) :
    ∃ M, buildUnitary c = .ok M ∧ NMat.toMatrix M ∈ Matrix.unitaryGroup (Fin M.dim) ℂ ∧ M.dim = 2 ^ c.qubits.length := by
  obtain ⟨M, h1, h2⟩ := buildUnitary_acts hnd h
  refine ⟨M, h1, acts_unitary h2 (composed_norm h ?_), h2.1⟩
  intro op ho
  unfold UnitaryOp
  rcases hl op ho with ⟨b, hk, hb⟩ | ⟨nc, b, hk, hb⟩ <;> rw [hk] <;> obtain ⟨a, h1, _, _, h4⟩ := library_cols hb <;> exact ⟨a, h1, h4⟩

/-- Three qubits 7, 8, 9: H 8, CX 8 -> 7, a doubly controlled Y, RX 9. -/
noncomputable def unitaryDemo : UCircuit :=
  { qubits := [7, 8, 9],
    ops := [
      { oid := 1, kind := .single .hadamard, qubits := [8] },
      { oid := 2, kind := .controlled 1 .x, qubits := [8, 7], control := [8], target := [7] },
      { oid := 3, kind := .controlled 2 .y, qubits := [9, 7, 8], control := [9, 7], target := [8] },
      { oid := 4, kind := .single (.rx (.num 2)), qubits := [9] } ] }

example : ∃ f, Composed unitaryDemo unitaryDemo.ops f :=
  ⟨_, .cons (.single (b := .hadamard) ⟨1, by decide⟩ rfl rfl rfl)
    (.cons (.controlled (b := .x) [⟨1, by decide⟩] ⟨0, by decide⟩ rfl id rfl (by decide) (by decide) rfl rfl)
    (.cons (.controlled (b := .y) [⟨2, by decide⟩, ⟨0, by decide⟩] ⟨1, by decide⟩ rfl id rfl (by decide) (by decide) rfl rfl)
    (.cons (.single (b := .rx (.num 2)) ⟨2, by decide⟩ rfl rfl rfl) .nil)))⟩

/-- **C54.** Exactly: on operations placed on qubits of the circuit, `build_unitary` succeeds, with the matrix of the composition
of the operations, unless there is an operation it does not support; then the first such operation decides the exception. -/
theorem C54_exact (c : UCircuit) (hnd : c.qubits.Nodup) (hp : ∀ op ∈ c.ops, Placed c op) :
    ((∀ op ∈ c.ops, ∀ e, ¬ Unsupported op.kind e) → ∃ f M, Composed c c.ops f ∧ buildUnitary c = .ok M ∧ ActsAs c.qubits.length M f) ∧
    (∀ pre op post e, c.ops = pre ++ op :: post → (∀ o ∈ pre, ∀ e, ¬ Unsupported o.kind e) → Unsupported op.kind e →
      buildUnitary c = .error e) := by
  refine ⟨fun hs => ?_, fun pre op post e hc hpre he => build_stops hnd pre op post hc hp hpre he⟩
  obtain ⟨f, hf⟩ := composed_of_placed c.ops hp hs
  obtain ⟨M, h1, h2⟩ := buildUnitary_acts hnd hf
  exact ⟨f, M, hf, h1, h2⟩

/-- Hadamard, then SWAP, then a measurement: the SWAP decides. -/
noncomputable def unsupportedDemo : UCircuit :=
  { qubits := [7, 8],
    ops := [
      { oid := 1, kind := .single .hadamard, qubits := [8] },
      { oid := 2, kind := .swap, qubits := [8, 7] },
      { oid := 3, kind := .measurement, qubits := [7] } ] }

example : buildUnitary unsupportedDemo = .error .valueError := by
  refine (C54_exact unsupportedDemo (by decide) ?_).2 [_] _ [_] _ rfl ?_ .swap
  · intro op ho
    simp only [unsupportedDemo, List.mem_cons, List.not_mem_nil, or_false] at ho
    rcases ho with rfl | rfl | rfl
    · exact .single (b := .hadamard) ⟨1, by decide⟩ rfl rfl
    · exact .other ⟨1, by decide⟩ [7] (by simp) rfl
    · exact .other ⟨0, by decide⟩ [] (by simp) rfl
  · intro o ho e he
    simp only [List.mem_cons, List.not_mem_nil, or_false] at ho
    subst ho
    cases he with
    | «variable» h => exact h rfl

/-- Not all controlled gates: a parametric one raises `TypeError`. -/
theorem C54_parametric_violated (θ : ℝ) :
    buildUnitary ⟨[0, 1], [{ oid := 1, kind := .controlled 1 (.rx (.num θ)), qubits := [0, 1], control := [0], target := [1] }]⟩ =
      .error .typeError := rfl

/-- Other operations (outside the claim): SWAP gives a `ValueError`, a measurement or barrier a `TypeError`. -/
theorem C54_swap : buildUnitary ⟨[0, 1], [{ oid := 1, kind := .swap, qubits := [0, 1] }]⟩ = .error .valueError := by
  have h : buildUnitary ⟨[0, 1], [{ oid := 1, kind := .swap, qubits := [0, 1] }]⟩ =
    (matmul (kron (ofTable swapTable) (eye (2 ^ 2))) (eye (2 ^ 2)) >>= fun s => pure s) := rfl
  rw [h]
  unfold matmul
  rw [if_neg (by simp [kron, ofTable, eye, swapTable])]
  rfl
theorem C54_measurement : buildUnitary ⟨[0, 1], [{ oid := 1, kind := .measurement, qubits := [0] }]⟩ = .error .typeError := rfl
theorem C54_barrier : buildUnitary ⟨[0, 1], [{ oid := 1, kind := .barrier, qubits := [0, 1] }]⟩ = .error .typeError := rfl

/-! ## C55 -/

/-- **C55.** For every circuit of single-qubit library gates and non-parametric controlled library gates (on 1 to 30 qubits, no
conditions): the simulated state is the first column of the unitary. -/
theorem C55_simulator (c : UCircuit) (hq : GoodQubits c.sim) (hops : ∀ op ∈ c.ops, Common c op) (u : Nat → ℝ)
    (bits : Nat → Option Bool) (records : Nat → Record) :
    ∃ w M, simulate u c.sim false bits records = .ok (some w) ∧ buildUnitary c = .ok M ∧ M.dim = 2 ^ c.qubits.length ∧
      w.mem.length = 2 ^ c.qubits.length ∧ ∀ i < 2 ^ c.qubits.length, w.mem[i]? = some (M.e i 0) := by
  obtain ⟨f, hf, hx⟩ := common_exec u c.ops hops
  have hg : ∀ op ∈ c.sim.ops, GateOp c.sim op := by
    intro op ho
    obtain ⟨o, ho', rfl⟩ := List.mem_map.1 ho
    exact (hops o ho').1
  obtain ⟨w, s, h1, h2, h3, _, _⟩ := simulate_gates hq hg u false bits records
  have hs := exec_det hq.1 h2 (hx ⟨zeroState _, bits, 0⟩)
  subst hs
  obtain ⟨M, h4, h5⟩ := buildUnitary_acts hq.1 hf
  refine ⟨w, M, h1, h4, h5.1, h3.1, fun i hi => ?_⟩
  have h6 : w.mem[index false (basisOf false c.qubits.length i)]? = some (f (zeroState _) (basisOf false c.qubits.length i)) :=
    h3.2 (basisOf false _ i)
  rw [index_basisOf false hi] at h6
  have h7 := acts_first_column h5 (basisOf false _ i)
  rw [index_basisOf false hi] at h7
  rw [h6]
  exact congrArg some h7

example : GoodQubits (UCircuit.sim ⟨[7, 8], [
      { oid := 1, kind := .single .hadamard, qubits := [8] },
      { oid := 2, kind := .controlled 1 .x, qubits := [8, 7], control := [8], target := [7] }]⟩) := ⟨by decide, by decide, by decide⟩
example : ∀ op ∈ ([
      { oid := 1, kind := .single .hadamard, qubits := [8] },
      { oid := 2, kind := .controlled 1 .x, qubits := [8, 7], control := [8], target := [7] }] : List UOp),
    Common ⟨[7, 8], [
      { oid := 1, kind := .single .hadamard, qubits := [8] },
      { oid := 2, kind := .controlled 1 .x, qubits := [8, 7], control := [8], target := [7] }]⟩ op := by
  intro op h
  simp only [List.mem_cons, List.not_mem_nil, or_false] at h
  rcases h with rfl | rfl
  · exact ⟨⟨trivial, rfl, by decide, by decide⟩, rfl, .inl ⟨_, rfl⟩⟩
  · exact ⟨⟨⟨rfl, trivial⟩, rfl, by decide, by decide⟩, rfl, .inr ⟨.x, 8, 7, rfl, id, rfl, rfl, rfl⟩⟩

/-! ## C56 -/

/-- What a program does: build the unitary of a circuit object, or change a circuit object. -/
inductive CacheEvent
  | build (id : Nat)
  | modify (id : Nat) (c : UCircuit)

noncomputable def cacheStep (s : CacheState) : CacheEvent → CacheState
  | .build id => (cachedBuild s id).2
  | .modify id c => modify s id c

/-- The state after a history, starting from an empty cache. -/
noncomputable def cacheRun (circuits : Nat → UCircuit) (h : List CacheEvent) : CacheState := h.foldl cacheStep ⟨circuits, []⟩

/-- Every entry of the cache for circuit `id` is the result for its current content. -/
def Fresh (id : Nat) (s : CacheState) : Prop := ∀ m, (id, m) ∈ s.cache → buildUnitary (s.circuits id) = .ok m

theorem fresh_build {id : Nat} {s : CacheState} (h : Fresh id s) (id' : Nat) : Fresh id (cachedBuild s id').2 := by
  unfold cachedBuild
  split
  · rename_i k m hf
    intro m' hm
    rcases List.mem_cons.1 hm with e | e
    · cases e
      have hk : k = id := by simpa using List.find?_some hf
      subst hk
      exact h _ (List.mem_of_find?_eq_some hf)
    · exact h _ (List.mem_filter.1 e).1
  · split
    · exact h
    · rename_i m hb
      intro m' hm
      rcases List.mem_cons.1 (List.mem_of_mem_take hm) with e | e
      · cases e; exact hb
      · exact h _ e

/-- No entries for `id` before it is built. -/
theorem fresh_run (id : Nat) (circuits : Nat → UCircuit) : ∀ h : List CacheEvent,
    (∀ pre c post, h = pre ++ .modify id c :: post → .build id ∉ pre) →
    Fresh id (cacheRun circuits h) ∧ (.build id ∉ h → ∀ m, (id, m) ∉ (cacheRun circuits h).cache) := by
  intro h
  induction h using List.reverseRecOn with
  | nil => intro _; exact ⟨fun m hm => by simp [cacheRun] at hm, fun _ m hm => by simp [cacheRun] at hm⟩
  | append_singleton h e ih =>
    intro hh
    obtain ⟨i1, i2⟩ := ih (fun pre c post hp => hh pre c (post ++ [e]) (by rw [hp]; simp))
    have hr : cacheRun circuits (h ++ [e]) = cacheStep (cacheRun circuits h) e := by simp [cacheRun]
    rw [hr]
    cases e with
    | build id' =>
      refine ⟨fresh_build i1 id', ?_⟩
      intro hb m hm
      have hb' : CacheEvent.build id ∉ h ∧ id ≠ id' := by
        simp only [List.mem_append, List.mem_singleton, not_or] at hb
        exact ⟨hb.1, fun e => hb.2 (by rw [e])⟩
      have hno := i2 hb'.1
      revert hm
      show (id, m) ∉ (cachedBuild _ id').2.cache
      unfold cachedBuild
      split
      · rename_i k m' hf
        intro hm
        rcases List.mem_cons.1 hm with e | e
        · cases e; exact hb'.2 rfl
        · exact hno _ (List.mem_filter.1 e).1
      · split
        · exact hno m
        · intro hm
          rcases List.mem_cons.1 (List.mem_of_mem_take hm) with e | e
          · cases e; exact hb'.2 rfl
          · exact hno _ e
    | modify id' c =>
      refine ⟨?_, ?_⟩
      · intro m hm
        by_cases hid : id' = id
        · subst hid
          exact absurd hm (i2 (hh h c [] rfl) m)
        · show buildUnitary (Function.update (cacheRun circuits h).circuits id' c id) = _
          rw [Function.update_of_ne (Ne.symm hid)]
          exact i1 m hm
      · intro hb m hm
        exact i2 (fun hm' => hb (List.mem_append.2 (.inl hm'))) m hm

/-- **C56 (part).** After every history in which circuit `id` is not changed once its unitary has been built, `build_unitary`
returns (or raises) what the circuit's current content determines. Missing: changes after the first call. -/
theorem C56_cache_partial (circuits : Nat → UCircuit) (h : List CacheEvent) (id : Nat)
    (hh : ∀ pre c post, h = pre ++ .modify id c :: post → .build id ∉ pre) :
    (cachedBuild (cacheRun circuits h) id).1 = buildUnitary ((cacheRun circuits h).circuits id) := by
  have hf := (fresh_run id circuits h hh).1
  unfold cachedBuild
  split
  · rename_i k m hfind
    have hk : k = id := by simpa using List.find?_some hfind
    subst hk
    exact (hf m (List.mem_of_find?_eq_some hfind)).symm
  · split <;> simp_all

/-- The circuit's content is never changed by building unitaries. -/
theorem C56_content (circuits : Nat → UCircuit) (h : List CacheEvent) (id : Nat) (hh : ∀ c, .modify id c ∉ h) :
    (cacheRun circuits h).circuits id = circuits id := by
  induction h using List.reverseRecOn with
  | nil => rfl
  | append_singleton h e ih =>
    have hr : cacheRun circuits (h ++ [e]) = cacheStep (cacheRun circuits h) e := by simp [cacheRun]
    rw [hr]
    have ih := ih (fun c hc => hh c (List.mem_append.2 (.inl hc)))
    cases e with
    | build id' =>
      have : ((cachedBuild (cacheRun circuits h) id').2).circuits = (cacheRun circuits h).circuits := by
        unfold cachedBuild
        split
        · rfl
        · split <;> rfl
      show ((cachedBuild (cacheRun circuits h) id').2).circuits id = _
      rw [this]; exact ih
    | modify id' c =>
      have : id ≠ id' := by
        rintro rfl
        exact hh c (by simp)
      show Function.update (cacheRun circuits h).circuits id' c id = _
      rw [Function.update_of_ne this]; exact ih

/-- Circuit 3 is filled before it is built; circuit 4 is changed at any time. -/
example (c : UCircuit) : ∀ pre c' post, [CacheEvent.build 4, .modify 4 c, .modify 3 c, .build 3, .modify 4 c, .build 3] =
    pre ++ .modify 3 c' :: post → .build 3 ∉ pre := by
  intro pre c' post h
  match pre, h with
  | [], h => simp
  | [a], h => simp at h
  | [a, b], h => simp at h; simp [← h.1, ← h.2.1]
  | [a, b, d], h => simp at h
  | [a, b, d, e], h => simp at h
  | [a, b, d, e, f], h => simp at h
  | a :: b :: d :: e :: f :: g :: pre, h => simp at h

/-- C56 fails in general: after `build_unitary`, adding an X and calling it again returns the old matrix (the identity). -/
theorem C56_stale_violated :
    let empty : UCircuit := ⟨[0], []⟩
    let full : UCircuit := ⟨[0], [{ oid := 1, kind := .single .x, qubits := [0] }]⟩
    let s := cacheRun (fun _ => empty) [.build 0, .modify 0 full]
    s.circuits 0 = full ∧ (∃ M, (cachedBuild s 0).1 = .ok M ∧ M.e 0 0 = 1) ∧ ∃ M, buildUnitary full = .ok M ∧ M.e 0 0 = 0 := by
  refine ⟨by simp [cacheRun, cacheStep, Unitary.modify], ⟨eye 2, rfl, by simp [eye]⟩, ?_⟩
  refine ⟨_, rfl, ?_⟩
  simp [ofArr, eye]

/-! ## C57 -/

/-- **C57.** The matrix of a custom operation made from a circuit without parameters is the unitary of the circuit. -/
theorem C57_plain (c : UCircuit) (hnd : c.qubits.Nodup) (f : State c.qubits.length ℂ → State c.qubits.length ℂ)
    (h : Composed c c.ops f) (ps : List ℝ) : ∃ M, customMatrix c false ps = .ok M ∧ ActsAs c.qubits.length M f :=
  buildUnitary_acts hnd h

/-- **C57 (part).** If the operations of the circuit use the variables `vars` of the parameter register each once and in order,
the matrix of the custom operation with parameters `xs` is the unitary of the circuit in which variable number `i` is
replaced by `xs[i]`. Missing: repeated variables and other orders. -/
theorem C57_parametric_partial (c : UCircuit) (hnd : c.qubits.Nodup) (vars : List Nat) (xs : List ℝ) (σ : Nat → ℝ)
    (hσ : vars.map σ = xs) (hu : c.ops.flatMap opVars = vars) (f : State c.qubits.length ℂ → State c.qubits.length ℂ)
    (h : Composed c (c.ops.map (substOp σ)) f) : ∃ M, customMatrix c true xs = .ok M ∧ ActsAs c.qubits.length M f := by
  have h1 := popOps_ok σ c.ops []
  rw [hu, hσ, List.append_nil] at h1
  obtain ⟨M, h2, h3⟩ := build_loop hnd _ f h _ id eye_acts
  refine ⟨M, ?_, h3⟩
  have e : customMatrix c true xs = (popOps c.ops xs >>= fun r => buildUnitary { c with ops := r.1 }) := rfl
  rw [e, h1, ok_bind]
  exact h2

/-- RX(v0) on qubit 0; Rotation(v1, 2, v2) on qubit 1. -/
example : (([{ oid := 1, kind := .single (.rx (.var 0)), qubits := [0] },
    { oid := 2, kind := .single (.rotation (.var 1) (.num 2) (.var 2)), qubits := [1] }] : List UOp).flatMap opVars) = [0, 1, 2] := rfl
example (σ : Nat → ℝ) : ∃ f, Composed ⟨[0, 1], []⟩ (([{ oid := 1, kind := .single (.rx (.var 0)), qubits := [0] },
    { oid := 2, kind := .single (.rotation (.var 1) (.num 2) (.var 2)), qubits := [1] }] : List UOp).map (substOp σ)) f :=
  ⟨_, .cons (.single (b := .rx (.num (σ 0))) ⟨0, by decide⟩ rfl rfl rfl)
    (.cons (.single (b := .rotation (.num (σ 1)) (.num 2) (.num (σ 2))) ⟨1, by decide⟩ rfl rfl rfl) .nil)⟩

/-- **C57.** What the matrix of a custom operation with parameters `xs` is in every case: with fewer values than there are
occurrences of variables it raises `IndexError`; otherwise it is what `build_unitary` makes of the circuit in which the
occurrences of variables, told apart and numbered in order of occurrence, have the values `xs[0]`, `xs[1]`, … -/
theorem C57_exact (c : UCircuit) (xs : List ℝ) :
    (xs.length < (c.ops.flatMap opVars).length → customMatrix c true xs = .error .indexError) ∧
    ((c.ops.flatMap opVars).length ≤ xs.length → ∃ ops', Numbered c.ops ops' ∧
      customMatrix c true xs = buildUnitary { c with ops := ops'.map (substOp fun i => xs[i]?.getD 0) }) := by
  have e : customMatrix c true xs = (popOps c.ops xs >>= fun r => buildUnitary { c with ops := r.1 }) := rfl
  refine ⟨fun h => by rw [e, popOps_few c.ops xs h]; rfl, fun h => ?_⟩
  obtain ⟨ops', h1, h2⟩ := numbered_exists c.ops
  refine ⟨ops', ⟨h1, h2⟩, ?_⟩
  have h3 := popOps_ok (fun i => xs[i]?.getD 0) ops' (xs.drop (c.ops.flatMap opVars).length)
  have h4 : (ops'.flatMap opVars).map (fun i => xs[i]?.getD 0) = xs.take (c.ops.flatMap opVars).length := by
    rw [h1]
    refine List.ext_getElem (by rw [List.length_map, List.length_range, List.length_take]; omega) fun k hk hk' => ?_
    have hx : k < xs.length := by rw [List.length_take] at hk'; omega
    simp [List.getElem?_eq_getElem hx]
  rw [h4, List.take_append_drop] at h3
  rw [e, show popOps c.ops xs = popOps ops' xs from (congrArg (popOps · xs) h2).symm.trans (popOps_rename _ ops' xs), h3]
  rfl

/-- RX(v3), Rotation(1, v3, v4) becomes RX(v0), Rotation(1, v1, v2). -/
example : Numbered [{ oid := 1, kind := .single (.rx (.var 3)), qubits := [0] },
      { oid := 2, kind := .single (.rotation (.num 1) (.var 3) (.var 4)), qubits := [1] }]
    [{ oid := 1, kind := .single (.rx (.var 0)), qubits := [0] },
      { oid := 2, kind := .single (.rotation (.num 1) (.var 1) (.var 2)), qubits := [1] }] := ⟨rfl, rfl⟩

/-- C57 fails for every circuit in which every variable occurs and some variable more than once: with a value for each variable
the matrix raises `IndexError`. -/
theorem C57_always_repeated_violated (c : UCircuit) (vars : List Nat) (hv : vars.Nodup) (hall : ∀ v ∈ vars, v ∈ c.ops.flatMap opVars)
    (hrep : ¬ (c.ops.flatMap opVars).Nodup) (xs : List ℝ) (hx : xs.length = vars.length) :
    customMatrix c true xs = .error .indexError := by
  refine (C57_exact c xs).1 ?_
  rw [hx]
  have h1 : vars.length ≤ (c.ops.flatMap opVars).dedup.length :=
    (hv.subperm fun v h => List.mem_dedup.2 (hall v h)).length_le
  have h2 : (c.ops.flatMap opVars).dedup.length ≤ (c.ops.flatMap opVars).length := (List.dedup_sublist _).length_le
  refine lt_of_le_of_ne (h1.trans h2) fun h => hrep ?_
  have h3 : (c.ops.flatMap opVars).dedup = c.ops.flatMap opVars := (List.dedup_sublist _).eq_of_length (by omega)
  exact List.dedup_eq_self.1 h3

example (x : ℝ) : customMatrix ⟨[0, 1], [{ oid := 1, kind := .single (.rx (.var 3)), qubits := [0] },
    { oid := 2, kind := .single (.rotation (.num 1) (.var 3) (.var 4)), qubits := [1] }]⟩ true [x, 2] = .error .indexError :=
  C57_always_repeated_violated _ [4, 3] (by decide) (by decide) (by decide) [x, 2] rfl

/-- C57 fails when a variable is used twice: one parameter is declared and given, the matrix raises `IndexError`. -/
theorem C57_repeated_violated (x : ℝ) : customMatrix ⟨[0], [{ oid := 1, kind := .single (.rx (.var 0)), qubits := [0] },
    { oid := 2, kind := .single (.rx (.var 0)), qubits := [0] }]⟩ true [x] = .error .indexError := rfl

/-- C57 fails when variables are not used in order: RX(v1), RZ(v0) with parameters (π, 0) gives the matrix of RX(π), RZ(0)
instead of RX(0), RZ(π); entry (1, 0) differs. -/
theorem C57_order_violated :
    let ops : List UOp := [{ oid := 1, kind := .single (.rx (.var 1)), qubits := [0] },
      { oid := 2, kind := .single (.rz (.var 0)), qubits := [0] }]
    let σ : Nat → ℝ := fun v => if v = 0 then Real.pi else 0
    ∃ M M', customMatrix ⟨[0], ops⟩ true [σ 0, σ 1] = .ok M ∧ buildUnitary ⟨[0], ops.map (substOp σ)⟩ = .ok M' ∧
      M.e 1 0 ≠ M'.e 1 0 := by
  refine ⟨_, _, rfl, rfl, ?_⟩
  have h1 : Real.sin (Real.pi / 2) = 1 := Real.sin_pi_div_two
  simp [ofArr, eye, Finset.sum_range_succ]

/-! ## C58 -/

/-- **C58.** Outside a context the matrix of every (parametric) controlled operation on one target, with any number of controls
and any library target operation, exists and is unitary. -/
theorem C58_controlled_unitary (nc : Nat) (b : Base) (h : Library b) :
    ∃ M, opMatrix (.controlled nc b) = .ok (some M) ∧ M.dim = 2 ^ (nc + 1) ∧
      NMat.toMatrix M ∈ Matrix.unitaryGroup (Fin M.dim) ℂ := by
  obtain ⟨a, ha, _, _, hc⟩ := library_cols h
  obtain ⟨M, h1, h2⟩ := controlledMatrix_ok nc b a ha
  refine ⟨M, ?_, h2.1, acts_unitary h2 (applyControlled_norm hc _ _ ?_)⟩
  · show (do let m ← controlledMatrix nc 1 b none [] []; pure (some m) : Except Err (Option NMat)) = _
    rw [h1]; rfl
  · intro hm
    obtain ⟨i, _, hi⟩ := List.mem_map.1 hm
    exact absurd hi (Fin.castSucc_lt_last i).ne

example : ∃ M, opMatrix (.controlled 1 (.rotation (.num 1) (.num 2) (.num 3))) = .ok (some M) ∧ M.dim = 4 := by
  obtain ⟨M, h1, h2, _⟩ := C58_controlled_unitary 1 (.rotation (.num 1) (.num 2) (.num 3)) ⟨trivial, trivial, trivial⟩
  exact ⟨M, h1, h2⟩

/-! ## C60 -/

/-- **C60.** For every library gate that the simulator supports (single-qubit, controlled, SWAP, CSWAP, CCX) on distinct qubits of
a circuit, in every state: the instruction applied by the simulator multiplies the state by the operation's matrix, acting on
the operation's qubits with the first one as the most significant bit. -/
theorem C60_matrix_is_simulated (c : SCircuit) (hq : GoodQubits c) (op : SOp) (hop : GateOp c op) (u : Nat → ℝ) (le : Bool)
    (w : World) (ψ : State c.qubits.length ℂ) (hm : Stores le w.mem ψ) (hb : op.cond = none) :
    ∃ (ts : List (Fin c.qubits.length)) (M : NMat) (mem' : List ℂ), op.qubits = ts.map (qubitAt c) ∧
      opMatrix op.kind = .ok (some M) ∧ M.dim = 2 ^ op.qubits.length ∧
      applyInstruction u c.qubits.length op (ts.map Fin.val) le false w = .ok { w with mem := mem' } ∧
      Stores le mem' (applyMatrix ts.get M ψ) := by
  obtain ⟨ts, f, h1, h2⟩ := gateAct_exists hop
  obtain ⟨M, h3, h4, h5⟩ := gateAct_matrix h2
  have hbl : isBlocked op w.bits = false := by unfold isBlocked; rw [hb]
  obtain ⟨mem', h6, h7⟩ := apply_gate_ok hq.2.2 u op h2 (supported_usable hop.1) le false w hm hbl
  refine ⟨ts, M, mem', h1, h3, by rw [h1, List.length_map]; exact h4, h6, ?_⟩
  rw [← h5]
  exact h7

example : GateOp demo { oid := 6, kind := .cswap, qubits := [12, 10, 11] } := ⟨trivial, rfl, by decide, by simp [demo]⟩

/-- Inside a context (outside the claim's reading) `matrix` depends on the circuit: with the control on circuit qubit 1 and
the target on qubit 0 it is the matrix with the roles exchanged, and on qubit 2 or later `ValueError` is raised. -/
theorem C60_context_violated : controlledMatrix 1 1 .x (some [0, 1, 2]) [0] [2] = .error .valueError := rfl
theorem C60_context_parametric_violated (θ : ℝ) : controlledMatrix 1 1 (.rx (.num θ)) (some [0, 1]) [0] [1] = .error .typeError := rfl

/-! ## C61 -/

section
open Arity

/-- The number of qubits that the class declares. -/
def declared (c : Cls) : Option Nat :=
  match c.numQubits, c.numControl, c.numTarget with
  | some k, _, _ => some k
  | none, some a, some b => if c.controlled then some (a + b) else none
  | none, _, _ => none

theorem run_plain (c : Cls) (hc : c.controlled = false) (h : List Event) : run c h = c := by
  have hn : (clsNumQubits c).2 = c := by
    unfold clsNumQubits
    rw [hc]
    cases hq : c.numQubits <;> simp [hq]
  have hch : ∀ m, (checkQubits c m).2 = c := by
    intro m
    unfold checkQubits
    cases hq : c.numQubits with
    | none => rfl
    | some k =>
      have : clsNumQubits c = (.ok k, c) := by unfold clsNumQubits; rw [hc]; simp [hq]
      simp only [this]
      split <;> rfl
  have hi : ∀ act m, (initOperation c act m).2 = c := by
    intro act m
    unfold initOperation
    cases m with
    | none => cases act <;> rfl
    | some m =>
      have := hch m
      dsimp only
      split <;> rename_i h <;> rw [h] at this <;> exact this
  induction h with
  | nil => rfl
  | cons e h ih =>
    have : step c e = c := by
      cases e with
      | construct act args =>
        show (construct c act args).2 = c
        unfold construct
        rw [hc]
        cases args with
        | split a b => rfl
        | qubits m =>
          have := hi act m
          simp only [Bool.false_eq_true, if_false]
          split <;> rename_i h <;> rw [h] at this <;> exact this
      | readNumQubits => exact hn
      | assignQubits m => exact hch m
    show run (step c e) h = c
    rw [this]; exact ih

/-- **C61.** Operations that are not controlled: whatever happened before, an operation with `k` declared qubits can be
constructed with `m` qubits iff `m = k`, otherwise `ValueError` is raised. -/
theorem C61_plain (c : Cls) (hc : c.controlled = false) (k : Nat) (hk : c.numQubits = some k) (h : List Event) (active : Bool) (m : Nat) :
    (construct (run c h) active (.qubits (some m))).1 = if m = k then .ok ⟨some m, none, none⟩ else .error .valueError := by
  rw [run_plain c hc h]
  have : clsNumQubits c = (.ok k, c) := by unfold clsNumQubits; rw [hc]; simp [hk]
  unfold construct initOperation checkQubits
  simp only [hc, hk, this, Bool.false_eq_true, if_false]
  split
  · rename_i h; split at h <;> rename_i h'
    · split at h' <;> cases h' <;> cases h <;> simp_all
    · cases h
  · rename_i h; split at h <;> rename_i h'
    · cases h
    · split at h' <;> cases h' <;> cases h <;> simp_all

/-- What holds of a controlled class once `num_qubits` has been read. -/
def Settled (nc nt : Nat) (c : Cls) : Prop :=
  c.controlled = true ∧ c.numControl = some nc ∧ c.numTarget = some nt ∧ c.numQubits = some (nc + nt)

/-- What always holds of a controlled class. -/
def Declared (nc nt : Nat) (c : Cls) : Prop :=
  c.controlled = true ∧ c.numControl = some nc ∧ c.numTarget = some nt ∧ (c.numQubits = none ∨ c.numQubits = some (nc + nt))

theorem settled_declared {nc nt : Nat} {c : Cls} (h : Settled nc nt c) : Declared nc nt c := ⟨h.1, h.2.1, h.2.2.1, .inr h.2.2.2⟩

theorem clsNumQubits_settles {nc nt : Nat} (hc : 1 ≤ nc) (ht : 1 ≤ nt) {c : Cls} (h : Declared nc nt c) :
    (clsNumQubits c).1 = .ok (nc + nt) ∧ Settled nc nt (clsNumQubits c).2 := by
  obtain ⟨h1, h2, h3, h4⟩ := h
  obtain ⟨a, rfl⟩ := Nat.exists_eq_add_of_le' hc
  obtain ⟨b, rfl⟩ := Nat.exists_eq_add_of_le' ht
  obtain ⟨cc, cq, ca, cb⟩ := c
  simp only at h1 h2 h3 h4
  subst h1 h2 h3
  rcases h4 with rfl | rfl
  · exact ⟨rfl, rfl, rfl, rfl, rfl⟩
  · have : a + 1 + (b + 1) = a + b + 1 + 1 := by omega
    rw [this]
    exact ⟨rfl, rfl, rfl, rfl, congrArg some (by omega)⟩

theorem checkQubits_declared {nc nt : Nat} (hc : 1 ≤ nc) (ht : 1 ≤ nt) {c : Cls} (h : Declared nc nt c) (m : Nat) :
    Declared nc nt (checkQubits c m).2 ∧ (Settled nc nt c → Settled nc nt (checkQubits c m).2 ∧
      (checkQubits c m).1 = if m = nc + nt then .ok m else .error .valueError) := by
  obtain ⟨h1, h2⟩ := clsNumQubits_settles hc ht h
  unfold checkQubits
  rcases h.2.2.2 with hq | hq
  · simp only [hq]
    exact ⟨h, fun hs => absurd (hs.2.2.2.symm.trans hq) (by simp)⟩
  · simp only [hq]
    cases hr : clsNumQubits c with
    | mk r c' =>
      rw [hr] at h1 h2
      simp only at h1 h2
      subst h1
      simp only
      split <;> exact ⟨settled_declared h2, fun _ => ⟨h2, rfl⟩⟩

theorem init_declared {nc nt : Nat} (hc : 1 ≤ nc) (ht : 1 ≤ nt) {c : Cls} (h : Declared nc nt c) (act : Bool) (m : Option Nat) :
    Declared nc nt (initOperation c act m).2 ∧ (Settled nc nt c → Settled nc nt (initOperation c act m).2) := by
  unfold initOperation
  cases m with
  | none => cases act <;> exact ⟨h, id⟩
  | some m =>
    obtain ⟨h1, h2⟩ := checkQubits_declared hc ht h m
    simp only
    split <;> rename_i hr <;> rw [hr] at h1 h2 <;> exact ⟨h1, fun hs => (h2 hs).1⟩

theorem step_declared {nc nt : Nat} (hc : 1 ≤ nc) (ht : 1 ≤ nt) {c : Cls} (h : Declared nc nt c) (e : Event) :
    Declared nc nt (step c e) ∧ (Settled nc nt c → Settled nc nt (step c e)) ∧ (e = .readNumQubits → Settled nc nt (step c e)) := by
  cases e with
  | construct act args =>
    obtain ⟨h1, h2⟩ := init_declared hc ht h act (splitArgs c args).2.2
    have : (construct c act args).2 = (initOperation c act (splitArgs c args).2.2).2 := by
      unfold construct
      rw [if_pos h.1]
      dsimp only
      split <;> rename_i hr <;> rw [hr]
    refine ⟨?_, ?_, by simp⟩
    · show Declared nc nt (construct c act args).2
      rw [this]; exact h1
    · intro hs
      show Settled nc nt (construct c act args).2
      rw [this]; exact h2 hs
  | readNumQubits =>
    have := (clsNumQubits_settles hc ht h).2
    exact ⟨settled_declared this, fun _ => this, fun _ => this⟩
  | assignQubits m =>
    obtain ⟨h1, h2⟩ := checkQubits_declared hc ht h m
    exact ⟨h1, fun hs => (h2 hs).1, by simp⟩

theorem run_settled {nc nt : Nat} (hc : 1 ≤ nc) (ht : 1 ≤ nt) : ∀ (h : List Event) {c : Cls}, Declared nc nt c →
    Declared nc nt (run c h) ∧ (.readNumQubits ∈ h ∨ Settled nc nt c → Settled nc nt (run c h)) := by
  intro h
  induction h with
  | nil => intro c hd; exact ⟨hd, fun hs => hs.elim (by simp) id⟩
  | cons e h ih =>
    intro c hd
    obtain ⟨h1, h2, h3⟩ := step_declared hc ht hd e
    obtain ⟨i1, i2⟩ := ih h1
    refine ⟨i1, fun hs => i2 ?_⟩
    rcases hs with hs | hs
    · rcases List.mem_cons.1 hs with hs | hs
      · exact .inr (h3 hs.symm)
      · exact .inl hs
    · exact .inr (h2 hs)

/-- **C61 (part).** Controlled operations with `nc` controls and `nt` targets declared: after every history in which `num_qubits`
(or `matrix`) has been read, constructing one with `a` controls and `b` targets succeeds iff `a + b = nc + nt`, otherwise
`ValueError` is raised. Missing: histories without such a read, and the split into controls and targets. -/
theorem C61_controlled_partial (nc nt : Nat) (hc : 1 ≤ nc) (ht : 1 ≤ nt) (h : List Event) (hr : .readNumQubits ∈ h) (active : Bool)
    (a b : Nat) (ha : 1 ≤ a) (hb : 1 ≤ b) :
    (construct (run ⟨true, none, some nc, some nt⟩ h) active (.split (some a) (some b))).1 =
      if a + b = nc + nt then .ok ⟨some (a + b), some a, some b⟩ else .error .valueError := by
  have hs := (run_settled hc ht h (c := ⟨true, none, some nc, some nt⟩) ⟨rfl, rfl, rfl, .inl rfl⟩).2 (.inl hr)
  generalize run ⟨true, none, some nc, some nt⟩ h = c at *
  obtain ⟨a, rfl⟩ := Nat.exists_eq_add_of_le' ha
  obtain ⟨b, rfl⟩ := Nat.exists_eq_add_of_le' hb
  have hck := ((checkQubits_declared hc ht (settled_declared hs) (a + 1 + (b + 1))).2 hs).2
  unfold construct
  rw [if_pos hs.1]
  have hsp : splitArgs c (.split (some (a + 1)) (some (b + 1))) = (some (a + 1), some (b + 1), some (a + 1 + (b + 1))) := rfl
  rw [hsp]
  unfold initOperation
  dsimp only
  cases hq : checkQubits c (a + 1 + (b + 1)) with
  | mk r c' =>
    rw [hq] at hck
    simp only at hck
    subst hck
    by_cases he : a + 1 + (b + 1) = nc + nt
    · simp [he]
    · simp [he]

/-- For classes with one control and one target (all controlled operations of the library) the split is then also right. -/
theorem C61_split_partial (h : List Event) (hr : .readNumQubits ∈ h) (active : Bool) (a b : Nat) (ha : 1 ≤ a) (hb : 1 ≤ b) :
    (∃ i, (construct (run ⟨true, none, some 1, some 1⟩ h) active (.split (some a) (some b))).1 = .ok i) ↔ a = 1 ∧ b = 1 := by
  rw [C61_controlled_partial 1 1 le_rfl le_rfl h hr active a b ha hb]
  constructor
  · rintro ⟨i, hi⟩
    split at hi
    · omega
    · cases hi
  · rintro ⟨rfl, rfl⟩
    exact ⟨_, rfl⟩

/-- C61 fails: before `num_qubits` is first read, a controlled operation accepts any number of controls and targets, in any
history of constructions. -/
theorem C61_controlled_violated (nc nt : Nat) (active : Bool) (a b : Nat) (ha : 1 ≤ a) (hb : 1 ≤ b) :
    (construct ⟨true, none, some nc, some nt⟩ active (.split (some a) (some b))).1 = .ok ⟨some (a + b), some a, some b⟩ := by
  obtain ⟨a, rfl⟩ := Nat.exists_eq_add_of_le' ha
  obtain ⟨b, rfl⟩ := Nat.exists_eq_add_of_le' hb
  rfl
/-- C61 fails: CX([q0, q1], q2) is accepted, then `CX.num_qubits` is read, then the same call is refused. -/
theorem C61_history_violated :
    let cx : Cls := ⟨true, none, some 1, some 1⟩
    let call : Event := .construct false (.split (some 2) (some 1))
    declared cx = some 2 ∧
    (construct (run cx []) false (.split (some 2) (some 1))).1 = .ok ⟨some 3, some 2, some 1⟩ ∧
    (construct (run cx [call, .readNumQubits]) false (.split (some 2) (some 1))).1 = .error .valueError := ⟨rfl, rfl, rfl⟩
/-- C61 fails: with two controls and one target declared, one control and two targets are accepted. -/
theorem C61_split_violated :
    (construct (run ⟨true, none, some 2, some 1⟩ [.readNumQubits]) false (.split (some 1) (some 2))).1 = .ok ⟨some 3, some 1, some 2⟩ := rfl

example : (construct (run ⟨false, some 3, none, none⟩ [.readNumQubits, .construct true (.qubits (some 2))]) false (.qubits (some 3))).1 =
    .ok ⟨some 3, none, none⟩ := rfl
end

/-! ## C78 -/

/-- **C78.** X, Y, Z are the Pauli matrices. -/
theorem C78_pauli : (∃ a, Base.x.matrix = .ok a ∧ matOf a = pauliX) ∧ (∃ a, Base.y.matrix = .ok a ∧ matOf a = pauliY) ∧
    (∃ a, Base.z.matrix = .ok a ∧ matOf a = pauliZ) ∧ ∃ a, Base.identity.matrix = .ok a ∧ matOf a = 1 := by
  refine ⟨⟨_, rfl, rfl⟩, ⟨_, rfl, ?_⟩, ⟨_, rfl, rfl⟩, ⟨_, rfl, ?_⟩⟩
  · ext i j; fin_cases i <;> fin_cases j <;> simp [matOf, pauliY]
  · ext i j; fin_cases i <;> fin_cases j <;> simp [matOf]

/-- **C78.** Hadamard is (X + Z) / sqrt 2. -/
theorem C78_hadamard : ∃ a, Base.hadamard.matrix = .ok a ∧ ((Real.sqrt 2 : ℝ) : ℂ) • matOf a = pauliX + pauliZ := by
  refine ⟨_, rfl, ?_⟩
  have h : ((Real.sqrt 2 : ℝ) : ℂ) * ((Real.sqrt 2 / 2 : ℝ) : ℂ) = 1 := by
    rw [← ofReal_mul]
    have : Real.sqrt 2 * (Real.sqrt 2 / 2) = 1 := by
      have := Real.mul_self_sqrt (show (0 : ℝ) ≤ 2 by norm_num)
      nlinarith
    rw [this]; simp
  ext i j
  fin_cases i <;> fin_cases j <;> simp only [matOf, pauliX, pauliZ, Matrix.smul_apply, smul_eq_mul, Matrix.add_apply] <;>
    simp [-ofReal_div] <;> rw [h]

/-- **C78.** S and T leave |0> unchanged and multiply |1> by the phases i = e^{iπ/2} and e^{iπ/4}. -/
theorem C78_phases : (∃ a, Base.s.matrix = .ok a ∧ matOf a = Matrix.diagonal ![1, exp ((Real.pi / 2 : ℝ) * I)]) ∧
    ∃ a, Base.t.matrix = .ok a ∧ matOf a = Matrix.diagonal ![1, exp ((Real.pi / 4 : ℝ) * I)] := by
  refine ⟨⟨_, rfl, ?_⟩, ⟨_, rfl, ?_⟩⟩
  · have : exp ((Real.pi / 2 : ℝ) * I) = I := by rw [ofReal_div]; exact exp_pi_div_two_mul_I
    rw [this]
    ext i j; fin_cases i <;> fin_cases j <;> simp [matOf]
  · have : exp ((Real.pi / 4 : ℝ) * I) = exp (I * Real.pi / 4) := by congr 1; push_cast; ring
    rw [this]
    ext i j; fin_cases i <;> fin_cases j <;> simp [matOf]

/-- **C78.** RX(θ) = exp(-iθ/2 X), RY(θ) = exp(-iθ/2 Y), RZ(θ) = exp(-iθ/2 Z) (matrix exponentials), for all real θ. -/
theorem C78_rotations (θ : ℝ) :
    (∃ a, (Base.rx (.num θ)).matrix = .ok a ∧ matOf a = NormedSpace.exp ((-(I * θ / 2)) • pauliX)) ∧
    (∃ a, (Base.ry (.num θ)).matrix = .ok a ∧ matOf a = NormedSpace.exp ((-(I * θ / 2)) • pauliY)) ∧
    (∃ a, (Base.rz (.num θ)).matrix = .ok a ∧ matOf a = NormedSpace.exp ((-(I * θ / 2)) • pauliZ)) := by
  rw [exp_pauliX, exp_pauliY, exp_pauliZ]
  refine ⟨⟨_, rfl, ?_⟩, ⟨_, rfl, rfl⟩, ⟨_, rfl, rfl⟩⟩
  ext i j; fin_cases i <;> fin_cases j <;> simp [matOf]

/-- **C78.** Rotation(β, γ, δ) = RZ(δ) RY(γ) RZ(β) as matrices. -/
theorem C78_rotation (β γ δ : ℝ) : ∃ a, (Base.rotation (.num β) (.num γ) (.num δ)).matrix = .ok a ∧
    matOf a = NormedSpace.exp ((-(I * δ / 2)) • pauliZ) * NormedSpace.exp ((-(I * γ / 2)) • pauliY) *
      NormedSpace.exp ((-(I * β / 2)) • pauliZ) := by
  rw [exp_pauliY, exp_pauliZ, exp_pauliZ]
  refine ⟨_, rfl, ?_⟩
  have e1 : exp (-(I / 2) * ((β : ℂ) + (δ : ℂ))) = exp (-1 * I * (δ : ℂ) / 2) * exp (-1 * I * (β : ℂ) / 2) := by
    rw [← exp_add]; congr 1; ring
  have e2 : exp (I / 2 * ((β : ℂ) - (δ : ℂ))) = exp (-1 * I * (δ : ℂ) / 2) * exp (I * (β : ℂ) / 2) := by
    rw [← exp_add]; congr 1; ring
  have e3 : exp (-(I / 2) * ((β : ℂ) - (δ : ℂ))) = exp (I * (δ : ℂ) / 2) * exp (-1 * I * (β : ℂ) / 2) := by
    rw [← exp_add]; congr 1; ring
  have e4 : exp (I / 2 * ((β : ℂ) + (δ : ℂ))) = exp (I * (δ : ℂ) / 2) * exp (I * (β : ℂ) / 2) := by
    rw [← exp_add]; congr 1; ring
  rw [e1, e2, e3, e4]
  generalize exp (-1 * I * (δ : ℂ) / 2) = A
  generalize exp (-1 * I * (β : ℂ) / 2) = B
  generalize exp (I * (δ : ℂ) / 2) = C
  generalize exp (I * (β : ℂ) / 2) = D
  generalize ((Real.cos (γ / 2) : ℝ) : ℂ) = x
  generalize ((Real.sin (γ / 2) : ℝ) : ℂ) = y
  ext i j
  fin_cases i <;> fin_cases j <;> simp [matOf, Matrix.mul_apply] <;> ring

/-- The matrices are non-trivial: a rotation by π about X is -iX, not the identity. -/
example : ∃ a, (Base.rx (.num Real.pi)).matrix = .ok a ∧ a.e00 = 0 := ⟨_, rfl, by simp⟩

end DG.Props
