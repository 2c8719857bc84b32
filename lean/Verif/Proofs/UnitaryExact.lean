import Verif.Proofs.UnitaryCircuit

/-!
# Which operations `build_unitary` can handle
-/

namespace DG.Unitary
open Complex Spec Kernel DG.Sim

theorem matrix_of_vars {b : Base} : (baseVars b = [] → ∃ a, b.matrix = .ok a) ∧ (baseVars b ≠ [] → b.matrix = .error .typeError) := by
  cases b with
  | rx p => cases p with
    | num x => exact ⟨fun _ => ⟨_, rfl⟩, fun h => absurd rfl h⟩
    | var v => exact ⟨fun h => by simp [baseVars, paramVars] at h, fun _ => rfl⟩
  | ry p => cases p with
    | num x => exact ⟨fun _ => ⟨_, rfl⟩, fun h => absurd rfl h⟩
    | var v => exact ⟨fun h => by simp [baseVars, paramVars] at h, fun _ => rfl⟩
  | rz p => cases p with
    | num x => exact ⟨fun _ => ⟨_, rfl⟩, fun h => absurd rfl h⟩
    | var v => exact ⟨fun h => by simp [baseVars, paramVars] at h, fun _ => rfl⟩
  | rotation p q r =>
    cases p <;> cases q <;> cases r <;> first
      | exact ⟨fun _ => ⟨_, rfl⟩, fun h => absurd rfl h⟩
      | exact ⟨fun h => by simp [baseVars, paramVars] at h, fun _ => rfl⟩
  | _ => exact ⟨fun _ => ⟨_, rfl⟩, fun h => absurd rfl h⟩

theorem vars_of_nonparametric {b : Base} (h : ¬ Parametric b) : baseVars b = [] := by
  cases b <;> first
    | rfl
    | exact absurd trivial h

/-- A supported operation has a meaning. -/
theorem means_of_placed {c : UCircuit} {op : UOp} (hp : Placed c op) (hs : ∀ e, ¬ Unsupported op.kind e) : ∃ f, Means c op f := by
  cases hp with
  | @single b t hk hq =>
    rw [hk] at hs
    obtain ⟨a, ha⟩ := matrix_of_vars.1 (by by_contra h; exact hs _ (.variable h) : baseVars b = [])
    exact ⟨_, .single t hk ha hq⟩
  | @controlled nc b cs t hk hcs ht h1 h2 =>
    rw [hk] at hs
    have hb : ¬ Parametric b := fun h => hs _ (.parametric h)
    obtain ⟨a, ha⟩ := matrix_of_vars.1 (vars_of_nonparametric hb)
    exact ⟨_, .controlled cs t hk hb ha hcs ht h1 h2⟩
  | other t rest hk hq =>
    exfalso
    simp only [List.mem_cons, List.not_mem_nil, or_false] at hk
    rcases hk with hk | hk | hk | hk | hk | hk <;> rw [hk] at hs
    · exact hs _ .swap
    · exact hs _ .cswap
    · exact hs _ .ccx
    · exact hs _ .measurement
    · exact hs _ .barrier
    · exact hs _ .opaque

theorem foldlM_error {α β : Type} (f : β → α → Except Err β) (e : Err) (x : α) : ∀ (l : List α) (b : β), x ∈ l → (∀ b, f b x = .error e) →
    (∀ b a, (∃ b', f b a = .ok b') ∨ f b a = .error e) → l.foldlM f b = .error e
  | y :: l, b, hx, h1, h2 => by
    rw [List.foldlM_cons]
    rcases h2 b y with ⟨b', hb⟩ | hb
    · rw [hb]
      rcases List.mem_cons.1 hx with rfl | hx
      · rw [h1] at hb; cases hb
      · exact foldlM_error f e x l b' hx h1 h2
    · rw [hb]; rfl

/-- An operation whose factor fails. -/
theorem applySingle_error {op : UOp} {qubits : List Nat} {q : Nat} {rest : List Nat} (hq : q ∈ qubits) (hop : op.qubits = q :: rest) {e : Err}
    (hf : factor op = .error e) (S : NMat) : applySingle op qubits S = .error e := by
  have hfor : factorFor op q = .error e := by
    unfold factorFor; rw [hop]; simpa using hf
  have hall : ∀ qb, (∃ m, factorFor op qb = .ok m) ∨ factorFor op qb = .error e := by
    intro qb
    unfold factorFor
    split
    · exact .inr hf
    · exact .inl ⟨_, rfl⟩
  cases qubits with
  | nil => cases hq
  | cons q0 qs =>
    unfold applySingle
    dsimp only
    rcases hall q0 with ⟨m, hm⟩ | hm
    · rw [hm, ok_bind]
      rcases List.mem_cons.1 hq with rfl | hq
      · rw [hfor] at hm; cases hm
      · rw [foldlM_error (fun mat qb => do
          let m ← factorFor op qb
          pure (kron mat m)) e q qs m hq (fun b => by rw [hfor]; rfl) (fun b a => by
            rcases hall a with ⟨m', hm'⟩ | hm'
            · exact .inl ⟨_, by rw [hm']; rfl⟩
            · exact .inr (by rw [hm']; rfl))]
        rfl
    · rw [hm]; rfl

theorem kron_dim (A B : NMat) : (kron A B).dim = A.dim * B.dim := rfl

/-- A gate with a matrix on several qubits: the product has the wrong dimension. -/
theorem applySingle_wide {op : UOp} {qubits : List Nat} (hne : qubits ≠ []) {m : NMat} {k : Nat} (hk : 2 ≤ k) (hm : m.dim = 2 ^ k)
    (hf : factor op = .ok m) (hn : numQubitsOf op.toSOp = k) {S : NMat} (hS : S.dim = 2 ^ qubits.length) :
    applySingle op qubits S = .error .valueError := by
  have hall : ∀ qb, factorFor op qb = .ok (if op.qubits.head? = some qb then m else eye (2 ^ k)) := by
    intro qb
    unfold factorFor
    rw [hf, hn]
    split <;> rfl
  have hdim : ∀ qb, (if op.qubits.head? = some qb then m else eye (2 ^ k)).dim = 2 ^ k := by
    intro qb
    split
    · exact hm
    · rfl
  cases qubits with
  | nil => exact absurd rfl hne
  | cons q0 qs =>
    unfold applySingle
    dsimp only
    rw [hall, ok_bind, foldlM_ok (fun mat qb => do
          let m ← factorFor op qb
          pure (kron mat m)) (fun mat qb => kron mat (if op.qubits.head? = some qb then m else eye (2 ^ k))) (fun b a => by rw [hall]; rfl), ok_bind]
    have hfold : ∀ (l : List Nat) (M : NMat), (l.foldl (fun mat qb => kron mat (if op.qubits.head? = some qb then m else eye (2 ^ k))) M).dim =
        M.dim * 2 ^ (k * l.length) := by
      intro l
      induction l with
      | nil => intro M; simp
      | cons a l ih =>
        intro M
        rw [List.foldl_cons, ih, kron_dim, hdim, List.length_cons, Nat.mul_add, Nat.pow_add, Nat.mul_one]
        ring
    unfold matmul
    rw [if_neg]
    rw [hfold, hdim, hS, ← Nat.pow_add, List.length_cons]
    intro h
    have := Nat.pow_right_injective (le_refl 2) h
    have h2 : qs.length ≤ k * qs.length := Nat.le_mul_of_pos_left _ (by omega)
    omega

/-- A controlled gate whose target operation has no matrix without parameters. -/
theorem buildControlled_none {n : Nat} (cs : List (Fin n)) (t : Fin n) (hcs : cs.Nodup) (ht : t ∉ cs) :
    buildControlled (cs.map fun c : Fin n => (c.val : Int)) [(t.val : Int)] none (some (n : Int)) = .error .typeError := by
  obtain ⟨m, hm, hm0, hmn⟩ := max?_append cs t
  have hle : cs.length + 1 ≤ n := by
    have : (t :: cs).Nodup := List.nodup_cons.2 ⟨ht, hcs⟩
    have := this.length_le_card
    simpa using this
  unfold buildControlled
  have hd : (cs.map fun c : Fin n => (c.val : Int)).any (· ∈ [(t.val : Int)]) = false := by
    rw [List.any_eq_false]
    intro x hx hxt
    simp only [List.mem_singleton, decide_eq_true_eq] at hxt
    obtain ⟨c, hc, rfl⟩ := List.mem_map.1 hx
    have h' : (c.val : Int) = t.val := hxt
    exact ht (Fin.ext (show c.val = t.val by omega) ▸ hc)
  rw [hd, hm]
  have hr : ¬ ((n : Int) - (((cs.map fun c : Fin n => (c.val : Int)).length : Int) + ([(t.val : Int)].length : Int)) < 0) := by
    simp; omega
  simp only [Bool.false_eq_true, if_false, decide_eq_true_eq]
  rw [if_neg (by omega), if_neg (by simp)]
  have hn0 : ¬ ((n : Int) = 0) := by omega
  simp only [hn0, if_false]
  rw [if_neg (by omega), if_neg hr]
  obtain ⟨b, hb⟩ : ∃ b, b ∈ product ((n : Int) - (((cs.map fun c : Fin n => (c.val : Int)).length : Int) + ([(t.val : Int)].length : Int))).toNat :=
    ⟨List.replicate _ false, mem_product.2 (List.length_replicate ..)⟩
  exact foldlM_error _ _ b _ _ hb (fun _ => rfl) (fun _ _ => .inr rfl)

theorem classMatrix_param {b : Base} (h : Parametric b) : classMatrix b = .ok none := by
  cases b <;> first
    | rfl
    | exact absurd h id

/-- An operation that is not supported. -/
theorem applyOp_unsupported {c : UCircuit} (hnd : c.qubits.Nodup) {op : UOp} (hp : Placed c op) {e : Err} (he : Unsupported op.kind e)
    {S : NMat} (hS : S.dim = 2 ^ c.qubits.length) : applyOp c.qubits S op = .error e := by
  cases hp with
  | @single b t hk hq =>
    rw [hk] at he
    cases he with
    | «variable» hv =>
      unfold applyOp
      rw [hk]
      refine applySingle_error (List.getElem_mem _) hq ?_ S
      unfold factor
      rw [hk]
      show (do match (← (do let a ← b.matrix; pure (some (ofArr a)) : Except Err (Option NMat))) with
        | some m => pure m
        | none => .error .typeError) = _
      rw [matrix_of_vars.2 hv]; rfl
  | @controlled nc b cs t hk hcs ht h1 h2 =>
    rw [hk] at he
    cases he with
    | parametric hb =>
      unfold applyOp
      rw [hk]
      show applyControlledGate op b c.qubits S = _
      unfold applyControlledGate
      have ht' := positions_ok hnd [t]
      simp only [List.map_cons, List.map_nil] at ht'
      rw [h1, positions_ok hnd, ok_bind, h2, ht', ok_bind, classMatrix_param hb, ok_bind]
      rw [show (none : Option Arr2).map ofArr = none from rfl, buildControlled_none cs t hcs ht]
      rfl
  | other t rest hk hq =>
    have hne : c.qubits ≠ [] := List.ne_nil_of_length_pos (Nat.zero_lt_of_lt t.isLt)
    have hmem : c.qubits[t] ∈ c.qubits := List.getElem_mem _
    simp only [List.mem_cons, List.not_mem_nil, or_false] at hk
    unfold applyOp
    rcases hk with hk | hk | hk | hk | hk | hk <;> rw [hk] at he <;> cases he <;> rw [hk]
    · exact applySingle_wide hne (m := ofTable swapTable) (k := 2) (le_refl _) rfl (by unfold factor; rw [hk]; rfl) (by unfold numQubitsOf; rw [hk]) hS
    · exact applySingle_wide hne (m := ofTable cswapTable) (k := 3) (by omega) rfl (by unfold factor; rw [hk]; rfl) (by unfold numQubitsOf; rw [hk]) hS
    · exact applySingle_wide hne (m := ofTable ccxTable) (k := 3) (by omega) rfl (by unfold factor; rw [hk]; rfl) (by unfold numQubitsOf; rw [hk]) hS
    · exact applySingle_error hmem hq (by unfold factor; rw [hk]; rfl) S
    · exact applySingle_error hmem hq (by unfold factor; rw [hk]; rfl) S
    · exact applySingle_error hmem hq (by unfold factor; rw [hk]; rfl) S

theorem composed_of_placed {c : UCircuit} : ∀ (ops : List UOp), (∀ op ∈ ops, Placed c op) → (∀ op ∈ ops, ∀ e, ¬ Unsupported op.kind e) →
    ∃ f, Composed c ops f
  | [], _, _ => ⟨_, .nil⟩
  | op :: ops, h1, h2 => by
    obtain ⟨f, hf⟩ := means_of_placed (h1 op (List.mem_cons_self ..)) (h2 op (List.mem_cons_self ..))
    obtain ⟨g, hg⟩ := composed_of_placed ops (fun o ho => h1 o (List.mem_cons_of_mem _ ho)) (fun o ho => h2 o (List.mem_cons_of_mem _ ho))
    exact ⟨_, .cons hf hg⟩

theorem build_stops {c : UCircuit} (hnd : c.qubits.Nodup) (pre : List UOp) (op : UOp) (post : List UOp) (hc : c.ops = pre ++ op :: post)
    (hp : ∀ o ∈ c.ops, Placed c o) (hpre : ∀ o ∈ pre, ∀ e, ¬ Unsupported o.kind e) {e : Err} (he : Unsupported op.kind e) :
    buildUnitary c = .error e := by
  rw [hc] at hp
  obtain ⟨f, hf⟩ := composed_of_placed pre (fun o ho => hp o (List.mem_append_left _ ho)) hpre
  obtain ⟨M, h1, h2⟩ := build_loop hnd pre f hf _ id eye_acts
  unfold buildUnitary
  rw [hc, List.foldlM_append, h1, ok_bind, List.foldlM_cons, applyOp_unsupported hnd (hp op (by simp)) he h2.1]
  rfl

end DG.Unitary
