import Verif.Proofs.Eval
import Verif.Proofs.CallCirc

/-! What `ParametricCircuit.eval` does. -/

namespace DG
open Spec
variable {K : Type}

theorem nthParams_cases (given : Option (List (List K))) (i : Nat) :
    (Covered given i ∧ ∃ g, nthParams given i = .ok g) ∨ (¬ Covered given i ∧ nthParams given i = .error .indexError) := by
  unfold nthParams Covered
  rcases given with _ | _ | ⟨y, ys⟩
  · exact .inl ⟨by simp, none, rfl⟩
  · exact .inl ⟨by simp, none, rfl⟩
  · by_cases h : i < (y :: ys).length
    · refine .inl ⟨fun g hg _ => by cases hg; exact h, ?_⟩
      dsimp only
      rw [List.getElem?_eq_getElem h]
      exact ⟨_, rfl⟩
    · refine .inr ⟨fun hh => h (hh _ rfl (by simp)), ?_⟩
      dsimp only
      rw [List.getElem?_eq_none (by omega)]

variable [DecidableEq K] [Zero K]

/-- Evaluation of the parameters of the operation at position `i`, in all cases. -/
theorem evalLoop_numbers (w : World K) {given : Option (List (List K))} {i : Nat} {g : Option (List K)} (hg : nthParams given i = .ok g) (ps : List (OpParam K)) :
    (HasNumbers w given i ps ∧ ∃ qs, evalLoop w.varVal g 0 ps = (.ok (), qs) ∧ Replaced w.varVal (givenFor given i) ps qs) ∨
    (¬ HasNumbers w given i ps ∧ ∃ qs, evalLoop w.varVal g 0 ps = (.error (noNumber given i), qs)) := by
  have key : (givenFor given i = none ∧ (g = none ∨ g = some [])) ∨ ∃ l, l ≠ [] ∧ givenFor given i = some l ∧ g = some l := by
    unfold nthParams at hg
    unfold givenFor
    rcases given with _ | _ | ⟨y, ys⟩
    · cases hg; exact .inl ⟨rfl, .inl rfl⟩
    · cases hg; exact .inl ⟨rfl, .inl rfl⟩
    · dsimp only at hg ⊢
      cases hi : (y :: ys)[i]? with
      | none => rw [hi] at hg; cases hg
      | some l =>
        rw [hi] at hg
        cases hg
        cases l with
        | nil => exact .inl ⟨rfl, .inr rfl⟩
        | cons z zs => exact .inr ⟨_, by simp, rfl, rfl⟩
  unfold HasNumbers noNumber
  rcases key with ⟨h1, h2⟩ | ⟨l, h1, h2, rfl⟩
  · rw [h1]
    rcases evalLoop_none w.varVal h2 0 ps with ⟨h3, h4⟩ | ⟨h3, qs, h4⟩
    · exact .inl ⟨h3, _, h4, evaluates_replaced h3⟩
    · exact .inr ⟨h3, qs, h4⟩
  · rw [h2]
    rcases evalLoop_given w.varVal h1 0 ps with ⟨h3, qs, h4, h5, h6⟩ | ⟨h3, qs, h4⟩
    · simp only [Nat.zero_add] at h3 h6
      exact .inl ⟨h3, qs, h4, h5, fun j p hp => by have := h6 j p hp; cases p <;> exact this⟩
    · simp only [Nat.zero_add] at h3
      exact .inr ⟨h3, qs, h4⟩

omit [DecidableEq K] [Zero K] in
/-- After evaluation there are only numbers. -/
theorem Replaced.nums {val : Nat → Option K} {given : Option (List K)} {ps qs : List (OpParam K)} (h : Replaced val given ps qs) :
    ∀ q ∈ qs, ∃ x, q = .num x := by
  intro q hq
  obtain ⟨i, hi⟩ := List.getElem?_of_mem hq
  have hlt : i < ps.length := by rw [← h.1]; exact (List.getElem?_eq_some_iff.1 hi).1
  have := h.2 i ps[i] (List.getElem?_eq_getElem hlt)
  cases hp : ps[i] with
  | num x => rw [hp] at this; dsimp only at this; rw [hi] at this; exact ⟨x, by simpa using this⟩
  | var v =>
    rw [hp] at this
    cases given with
    | none => obtain ⟨y, -, h2⟩ := this; rw [hi] at h2; exact ⟨y, by simpa using h2⟩
    | some l => obtain ⟨y, -, h2⟩ := this; rw [hi] at h2; exact ⟨y, by simpa using h2⟩

/-- Numbers stay as they are. -/
theorem evalLoop_nums (val : Nat → Option K) (g : Option (List K)) : ∀ (ps : List (OpParam K)) (i : Nat), (∀ q ∈ ps, ∃ x, q = .num x) →
    evalLoop val g i ps = (.ok (), ps)
  | [], _, _ => rfl
  | q :: ps, i, h => by
    obtain ⟨x, rfl⟩ := h q (by simp)
    unfold evalLoop
    rw [evalLoop_nums val g ps (i + 1) fun q hq => h q (by simp [hq])]

/-- Evaluation of copies of the variables. -/
theorem evalLoop_shift {val val' : Nat → Option K} {n : Nat} (hv : ∀ v, val' (v + n) = val v) (g : Option (List K)) : ∀ (ps : List (OpParam K)) (i : Nat),
    evalLoop val' g i (ps.map (OpParam.shift n)) = ((evalLoop val g i ps).1, (evalLoop val g i ps).2.map (OpParam.shift n))
  | [], _ => rfl
  | .num x :: ps, i => by
    simp only [List.map_cons, OpParam.shift, evalLoop, evalLoop_shift hv g ps (i + 1)]
  | .var v :: ps, i => by
    simp only [List.map_cons, OpParam.shift, evalLoop, evalLoop_shift hv g ps (i + 1)]
    rcases g with _ | _ | ⟨y, ys⟩
    · simp only [hv]
      cases val v with
      | none => rfl
      | some x => dsimp only; split <;> rfl
    · simp only [hv]
      cases val v with
      | none => rfl
      | some x => dsimp only; split <;> rfl
    · dsimp only
      cases (y :: ys)[i]? <;> rfl

omit [DecidableEq K] [Zero K] in
theorem shift_nums {n : Nat} {qs : List (OpParam K)} (h : ∀ q ∈ qs, ∃ x, q = .num x) : qs.map (OpParam.shift n) = qs := by
  conv_rhs => rw [← List.map_id qs]
  refine List.map_congr_left fun q hq => ?_
  obtain ⟨x, rfl⟩ := h q hq
  rfl

omit [DecidableEq K] [Zero K] in
theorem prefix_get {α : Type} {l l' : List α} (h : l <+: l') {i : Nat} {a : α} (hi : l[i]? = some a) : l'[i]? = some a := by
  obtain ⟨m, rfl⟩ := h
  rw [List.getElem?_append_left (List.getElem?_eq_some_iff.1 hi).1, hi]

omit [DecidableEq K] [Zero K] in
theorem Spec.CopyBits.mono {w v v' : World K} {g : Nat → Nat} (h : CopyBits w v g) (hb : v.bits <+: v'.bits) : CopyBits w v' g := by
  refine ⟨h.1, fun b => ⟨(h.2 b).1, fun hb' => ?_⟩⟩
  have := (h.2 b).2 hb'
  rw [List.getElem?_eq_getElem hb'] at this ⊢
  exact prefix_get hb this

omit [DecidableEq K] in
theorem Spec.EvaluatedAs.mono {w v v' : World K} {f : Nat → Nat} {given : Option (List (List K))} {i o o' : Nat} (h : EvaluatedAs w v f given i o o')
    (hb : v.bits <+: v'.bits) (ho : v.ops <+: v'.ops) : EvaluatedAs w v' f given i o o' := by
  obtain ⟨op, op', k, h1, h2, h3, h4, h5⟩ := h
  refine ⟨op, op', k, h1, prefix_get ho h2, h3, h4, ?_⟩
  split
  · rename_i hp
    rw [if_pos hp] at h5
    obtain ⟨h5, h6, g, h7, h8, h9⟩ := h5
    exact ⟨h5, h6, g, h7.mono hb, h8, h9⟩
  · rename_i hp
    rwa [if_neg hp] at h5

/-- The state of `eval` on a copy of `C` before position `i`. -/
structure Mid (w v : World K) (C : Circ) (given : Option (List (List K))) (i : Nat) : Prop where
  classes : v.classes = w.classes
  bits : (w.bits ++ w.bits) <+: v.bits
  vars : v.vars = w.vars ++ w.vars
  ops : (w.copied C).ops <+: v.ops
  ctxs : v.ctxs = (w.copied C).ctxs
  circ : ∃ N : List Nat, v.circs = w.circs ++ [{ w.copyOf C with ops := N }] ∧ N.length = C.ops.length ∧
    N.drop i = (C.ops.map (· + w.ops.length)).drop i ∧
    ∀ j o, j < i → C.ops[j]? = some o → ∃ o', N[j]? = some o' ∧ EvaluatedAs w v (· + w.bits.length) given j o o'

omit [DecidableEq K] in
theorem Mid.start (w : World K) (C : Circ) (given : Option (List (List K))) : Mid w (w.copied C) C given 0 where
  classes := rfl
  bits := List.prefix_rfl
  vars := rfl
  ops := List.prefix_rfl
  ctxs := rfl
  circ := ⟨(w.copyOf C).ops, rfl, by simp [World.copyOf], rfl, fun _ _ h => absurd h (by omega)⟩

omit [DecidableEq K] in
theorem Mid.varVal {w v : World K} {C : Circ} {given : Option (List (List K))} {i : Nat} (h : Mid w v C given i) (u : Nat) :
    v.varVal (u + w.vars.length) = w.varVal u := by
  unfold World.varVal
  rw [h.vars, List.getElem?_append_right (by omega), Nat.add_sub_cancel]

omit [DecidableEq K] in
theorem Mid.op {w v : World K} {C : Circ} {given : Option (List (List K))} {i : Nat} (h : Mid w v C given i) {o : Nat} {op : OpObj K}
    (ho : w.ops[o]? = some op) : v.ops[o + w.ops.length]? = some (op.shift w.bits.length w.vars.length) := by
  refine prefix_get h.ops ?_
  rw [World.copied, List.getElem?_append_right (by omega), Nat.add_sub_cancel, List.getElem?_map, ho]
  rfl

omit [DecidableEq K] [Zero K] in
theorem copyBits_shift (w : World K) {v : World K} (h : (w.bits ++ w.bits) <+: v.bits) : CopyBits w v (· + w.bits.length) := by
  refine ⟨fun a b h => by simpa using h, fun b => ⟨by dsimp only; omega, fun hb => ?_⟩⟩
  rw [List.getElem?_eq_getElem hb]
  refine prefix_get h ?_
  dsimp only
  rw [List.getElem?_append_right (by omega), Nat.add_sub_cancel, List.getElem?_eq_getElem hb]

/-- One step of `eval` on a copy. -/
theorem Mid.step {w v : World K} {C : Circ} {given : Option (List (List K))} {i : Nat} (h : Mid w v C given i) {o : Nat} (hi : C.ops[i]? = some o)
    {op : OpObj K} {k : OpCls} (ho : w.ops[o]? = some op) (hk : w.classes[op.cls]? = some k) :
    (Ready w given [] i o ∧ ∃ v', evalAt w.circs.length given false i (o + w.ops.length) v = (.ok (), v') ∧ Mid w v' C given (i + 1)) ∨
    (∃ e, FailsWith w given [] i o e ∧ evalAt w.circs.length given false i (o + w.ops.length) v = (.error e, v)) := by
  have ho' := h.op ho
  have hk' : v.classes[(op.shift w.bits.length w.vars.length).cls]? = some k := by rw [h.classes]; exact hk
  obtain ⟨N, n1, n2, n3, n4⟩ := h.circ
  have hlt := (List.getElem?_eq_some_iff.1 hi).1
  have hNi : N[i]? = some (o + w.ops.length) := by
    have := congrArg (fun l => l[0]?) n3
    simp only [List.getElem?_drop, Nat.add_zero, List.getElem?_map, hi] at this
    exact this
  have hN1 : N.drop (i + 1) = (C.ops.map (· + w.ops.length)).drop (i + 1) := by
    have := congrArg (List.drop 1) n3
    rwa [List.drop_drop, List.drop_drop] at this
  have hold : ∀ {v' : World K}, v.bits <+: v'.bits → v.ops <+: v'.ops → ∀ {N' : List Nat}, (∀ j, j < i → N'[j]? = N[j]?) →
      (∃ o', N'[i]? = some o' ∧ EvaluatedAs w v' (· + w.bits.length) given i o o') → ∀ j o, j < i + 1 → C.ops[j]? = some o →
      ∃ o', N'[j]? = some o' ∧ EvaluatedAs w v' (· + w.bits.length) given j o o' := by
    intro v' hb hv N' hN' hnew j x hj hx
    rcases Nat.lt_succ_iff_lt_or_eq.1 hj with hj | rfl
    · obtain ⟨o', k1, k2⟩ := n4 j x hj hx
      exact ⟨o', by rw [hN' j hj, k1], k2.mono hb hv⟩
    · rw [hi] at hx; cases hx; exact hnew
  unfold evalAt opObj clsObj
  simp only [bind_def, M.deref, ho', hk']
  rcases nthParams_cases given i with ⟨c1, g, c2⟩ | ⟨c1, c2⟩
  · rw [c2]
    dsimp only
    cases hp : k.kind.isParametric with
    | false =>
      refine .inl ⟨⟨c1, fun _ op' k' e1 e2 e3 => ?_⟩, v, rfl, h.classes, h.bits, h.vars, h.ops, h.ctxs, N, n1, n2, hN1, ?_⟩
      · rw [ho] at e1; cases e1; rw [hk] at e2; cases e2; rw [hp] at e3; cases e3
      · refine hold List.prefix_rfl List.prefix_rfl (fun _ _ => rfl) ⟨_, hNi, op, _, k, ho, ho', hk, by omega, ?_⟩
        rw [if_neg (by simp [hp])]
        exact ⟨by simp [OpObj.shift], rfl⟩
    | true =>
      have hloop := evalLoop_shift (n := w.vars.length) (fun u => h.varVal u) g op.params 0
      have hd : v.circs[w.circs.length]? = some { w.copyOf C with ops := N } := by rw [n1]; simp
      rcases evalLoop_numbers w c2 op.params with ⟨p1, qs, p2, p3⟩ | ⟨p1, qs, p2⟩
      · rw [p2] at hloop
        dsimp only at hloop
        rw [shift_nums (Replaced.nums p3)] at hloop
        refine .inl ⟨⟨c1, fun _ op' k' e1 e2 _ => by rw [ho] at e1; cases e1; exact p1⟩, ?_⟩
        have hrun : (evalOpCopy (o + w.ops.length) g >>= fun o' => modCirc w.circs.length fun D => { D with ops := D.ops.set i o' }) v =
            (.ok (), v.replaced w.circs.length i { w.copyOf C with ops := N } (op.shift w.bits.length w.vars.length) qs) := by
          have : evalLoop v.varVal g 0 (op.shift w.bits.length w.vars.length).params = (.ok (), qs) := hloop
          simp [bind_def, evalOpCopy, ho', this, modCirc, M.write, hd, World.setCirc, World.replaced]
        refine ⟨_, hrun, h.classes, h.bits.trans (List.prefix_append _ _), h.vars, h.ops.trans (List.prefix_append _ _), h.ctxs, N.set i v.ops.length, ?_, ?_, ?_, ?_⟩
        · rw [World.replaced, n1]; simp
        · simp [n2]
        · rw [List.drop_set_of_lt (by omega)]; exact hN1
        · refine hold (List.prefix_append _ _) (List.prefix_append _ _) (fun j hj => List.getElem?_set_ne (by omega)) ⟨v.ops.length, ?_, op, { (op.shift w.bits.length w.vars.length).shift v.bits.length 0 with params := qs }, k, ho, ?_, hk, ?_, ?_⟩
          · rw [List.getElem?_set_self (by omega)]
          · simp [World.replaced]
          · obtain ⟨m, hm⟩ := h.ops
            rw [← hm]; simp [World.copied]
          · rw [if_pos hp]
            refine ⟨p1, p3, fun b => b + w.bits.length + v.bits.length, ⟨fun a b e => by simpa using e, fun b => ⟨by dsimp only; omega, fun hb => ?_⟩⟩, fun b b' hb' => ?_, ?_⟩
            · have e1 : v.bits[b + w.bits.length]? = w.bits[b]? := ((copyBits_shift w h.bits).2 b).2 hb
              dsimp only
              rw [← e1, World.replaced, List.getElem?_append_right (by omega), Nat.add_sub_cancel]
            · have := h.bits.length_le
              rw [List.length_append] at this
              dsimp only
              omega
            · simp [onBits, OpObj.shift, Function.comp_def]
      · rw [p2] at hloop
        refine .inr ⟨noNumber given i, .inr ⟨c1, rfl, by simp, op, k, ho, hk, hp, p1⟩, ?_⟩
        have : evalLoop v.varVal g 0 (op.shift w.bits.length w.vars.length).params = (.error (noNumber given i), qs.map (OpParam.shift w.vars.length)) := hloop
        simp [bind_def, evalOpCopy, ho', this]
  · rw [c2]
    exact .inr ⟨.indexError, .inl ⟨c1, rfl⟩, rfl⟩

/-- The loop of `eval` on a copy. -/
theorem Mid.loop {w : World K} {C : Circ} {given : Option (List (List K))} (hops : ∀ o ∈ C.ops, ∃ op k, w.ops[o]? = some op ∧ w.classes[op.cls]? = some k) :
    ∀ (n i : Nat) (v : World K), Mid w v C given i → i + n = C.ops.length →
    ((∀ j o, i ≤ j → C.ops[j]? = some o → Ready w given [] j o) ∧ ∃ v', evalOps w.circs.length given false i ((C.ops.map (· + w.ops.length)).drop i) v = (.ok (), v') ∧
      Mid w v' C given C.ops.length) ∨
    (∃ j o e v', i ≤ j ∧ C.ops[j]? = some o ∧ (∀ j' o, i ≤ j' → j' < j → C.ops[j']? = some o → Ready w given [] j' o) ∧ FailsWith w given [] j o e ∧
      evalOps w.circs.length given false i ((C.ops.map (· + w.ops.length)).drop i) v = (.error e, v')) := by
  intro n
  induction n with
  | zero =>
    intro i v hm hi
    refine .inl ⟨fun j o hj ho => absurd (List.getElem?_eq_some_iff.1 ho).1 (by omega), v, ?_, by rw [← hi]; exact hm⟩
    rw [List.drop_eq_nil_of_le (by simp; omega)]
    rfl
  | succ n ih =>
    intro i v hm hi
    have hlt : i < C.ops.length := by omega
    have hget : C.ops[i]? = some C.ops[i] := List.getElem?_eq_getElem hlt
    have hdrop : (C.ops.map (· + w.ops.length)).drop i = (C.ops[i] + w.ops.length) :: (C.ops.map (· + w.ops.length)).drop (i + 1) := by
      rw [List.drop_eq_getElem_cons (by simpa using hlt)]; simp
    obtain ⟨op, k, h1, h2⟩ := hops C.ops[i] (List.getElem_mem hlt)
    rw [hdrop]
    unfold evalOps
    rw [bind_def]
    rcases hm.step hget h1 h2 with ⟨r, v', e1, e2⟩ | ⟨e, r, e1⟩
    · rw [e1]
      rcases ih (i + 1) v' e2 (by omega) with ⟨k1, v2, k2, k3⟩ | ⟨j, o, e, v2, k1, k2, k3, k4, k5⟩
      · refine .inl ⟨fun j o hj ho => ?_, v2, k2, k3⟩
        rcases Nat.eq_or_lt_of_le hj with rfl | hj
        · rw [hget] at ho; cases ho; exact r
        · exact k1 j o hj ho
      · refine .inr ⟨j, o, e, v2, by omega, k2, fun j' o hj hj' ho => ?_, k4, k5⟩
        rcases Nat.eq_or_lt_of_le hj with rfl | hj
        · rw [hget] at ho; cases ho; exact r
        · exact k3 j' o hj hj' ho
    · rw [e1]
      exact .inr ⟨i, _, e, v, Nat.le_refl _, hget, fun j' o hj hj' => absurd hj' (by omega), r, rfl⟩

omit [DecidableEq K] in
theorem Spec.EvaluatedUpTo.start (w : World K) (ops : List Nat) (given : Option (List (List K))) : EvaluatedUpTo w w ops given 0 none where
  same := rfl
  length := rfl
  others := fun _ _ _ => rfl
  done := fun i _ _ _ h => absurd h (by omega)

omit [DecidableEq K] [Zero K] in
theorem exists_first {l : List Nat} {o : Nat} : ∀ {i : Nat}, o ∈ l.take i → ∃ j, j < i ∧ l[j]? = some o ∧ o ∉ l.take j := by
  intro i
  induction i with
  | zero => simp
  | succ i ih =>
    intro h
    by_cases h1 : o ∈ l.take i
    · obtain ⟨j, h2, h3⟩ := ih h1
      exact ⟨j, by omega, h3⟩
    · rw [List.take_add_one, List.mem_append] at h
      rcases h with h | h
      · exact absurd h h1
      · exact ⟨i, by omega, by simpa using h, h1⟩

/-- One step of `eval` in place. -/
theorem Spec.EvaluatedUpTo.step {w v : World K} {ops : List Nat} {given : Option (List (List K))} {i : Nat} (d : Nat) (h : EvaluatedUpTo w v ops given i none) {o : Nat}
    (hi : ops[i]? = some o) {op : OpObj K} {k : OpCls} (ho : w.ops[o]? = some op) (hk : w.classes[op.cls]? = some k) :
    (Ready w given (ops.take i) i o ∧ ∃ v', evalAt d given true i o v = (.ok (), v') ∧ EvaluatedUpTo w v' ops given (i + 1) none) ∨
    (∃ e v', FailsWith w given (ops.take i) i o e ∧ evalAt d given true i o v = (.error e, v') ∧ EvaluatedUpTo w v' ops given i (some o)) := by
  have hlt := (List.getElem?_eq_some_iff.1 hi).1
  have htake : ∀ x, x ∈ ops.take (i + 1) ↔ x ∈ ops.take i ∨ x = o := by
    intro x
    rw [List.take_add_one, hi]
    simp
  have hcls : v.classes = w.classes := by rw [h.same]
  have hvar : v.varVal = w.varVal := by funext u; rw [h.same]; rfl
  have holt := (List.getElem?_eq_some_iff.1 ho).1
  have hweak : EvaluatedUpTo w v ops given i (some o) := ⟨h.same, h.length, fun x hx _ => h.others x hx (by simp), h.done⟩
  have cur : ∃ x, v.ops[o]? = some x ∧ x.cls = op.cls ∧ (o ∉ ops.take i → x = op) ∧
      (o ∈ ops.take i → k.kind.isParametric = true → ∀ q ∈ x.params, ∃ y, q = OpParam.num y) := by
    by_cases hmem : o ∈ ops.take i
    · obtain ⟨j, j1, j2, j3⟩ := exists_first hmem
      have := h.done j o op k j1 j2 j3 ho hk
      cases hp : k.kind.isParametric with
      | false => rw [if_neg (by simp [hp])] at this; exact ⟨op, this, rfl, fun hn => absurd hmem hn, fun _ e => by cases e⟩
      | true =>
        rw [if_pos hp] at this
        obtain ⟨qs, h1, h2⟩ := this
        exact ⟨_, h2, rfl, fun hn => absurd hmem hn, fun _ _ => Replaced.nums h1⟩
    · exact ⟨op, by rw [h.others o hmem (by simp), ho], rfl, fun _ => rfl, fun hn => absurd hn hmem⟩
  obtain ⟨x, x1, x2, x3, x4⟩ := cur
  have hkx : v.classes[x.cls]? = some k := by rw [hcls, x2, hk]
  have hnext : (o ∉ ops.take i → k.kind.isParametric = false) → EvaluatedUpTo w v ops given (i + 1) none := by
    intro hn
    refine ⟨h.same, h.length, fun y hy _ => h.others y (fun hh => hy ((htake y).2 (.inl hh))) (by simp), fun j y op' k' j1 j2 j3 e1 e2 => ?_⟩
    rcases Nat.lt_succ_iff_lt_or_eq.1 j1 with j1 | rfl
    · exact h.done j y op' k' j1 j2 j3 e1 e2
    · rw [hi] at j2; cases j2
      rw [ho] at e1; cases e1
      rw [hk] at e2; cases e2
      rw [if_neg (by simp [hn j3]), x1, x3 j3]
  unfold evalAt opObj clsObj
  simp only [bind_def, M.deref, x1, hkx]
  rcases nthParams_cases given i with ⟨c1, g, c2⟩ | ⟨c1, c2⟩
  swap
  · rw [c2]; exact .inr ⟨.indexError, v, .inl ⟨c1, rfl⟩, rfl, hweak⟩
  rw [c2]
  dsimp only
  cases hp : k.kind.isParametric with
  | false =>
    refine .inl ⟨⟨c1, fun _ op' k' e1 e2 e3 => ?_⟩, v, rfl, hnext fun _ => hp⟩
    rw [ho] at e1; cases e1; rw [hk] at e2; cases e2; rw [hp] at e3; cases e3
  | true =>
    have hrun : evalInPlace o g v = ((evalLoop v.varVal g 0 x.params).1, v.setOp o { x with params := (evalLoop v.varVal g 0 x.params).2 }) := by
      unfold evalInPlace
      simp [x1, hkx, hp]
    simp only [if_true, hrun]
    by_cases hmem : o ∈ ops.take i
    · rw [evalLoop_nums _ _ _ _ (x4 hmem hp)]
      refine .inl ⟨⟨c1, fun hn => absurd hmem hn⟩, v, ?_, hnext fun hn => absurd hmem hn⟩
      have : v.ops.set o x = v.ops := by
        obtain ⟨hl, he⟩ := List.getElem?_eq_some_iff.1 x1
        rw [← he]
        exact List.set_getElem_self hl
      simp only [World.setOp, this]
    · have hx := x3 hmem
      subst hx
      rw [hvar]
      have hupd : ∀ (n : Nat) (z : Option Nat) (qs : List (OpParam K)), (n = i ∧ z = some o) ∨ (n = i + 1 ∧ z = none ∧ Replaced w.varVal (givenFor given i) x.params qs) →
          EvaluatedUpTo w (v.setOp o { x with params := qs }) ops given n z := by
        intro n z qs hz
        refine ⟨?_, by simp [World.setOp, h.length], fun y hy hyz => ?_, fun j y op' k' j1 j2 j3 e1 e2 => ?_⟩
        · rw [h.same]; rfl
        · have hne : o ≠ y := by
            rintro rfl
            rcases hz with ⟨rfl, rfl⟩ | ⟨rfl, rfl, -⟩
            · exact hyz rfl
            · exact hy ((htake _).2 (.inr rfl))
          have hy' : y ∉ ops.take i := by
            rcases hz with ⟨rfl, rfl⟩ | ⟨rfl, rfl, -⟩
            · exact hy
            · exact fun hh => hy ((htake _).2 (.inl hh))
          simp only [World.setOp]
          rw [List.getElem?_set_ne hne]
          exact h.others y hy' (by simp)
        · by_cases hj : j < i
          · have hne : o ≠ y := by
              rintro rfl
              exact hmem (List.mem_of_getElem? (by rw [List.getElem?_take_of_lt hj]; exact j2))
            simp only [World.setOp]
            rw [List.getElem?_set_ne hne]
            exact h.done j y op' k' hj j2 j3 e1 e2
          · rcases hz with ⟨rfl, rfl⟩ | ⟨rfl, rfl, hq⟩
            · exact absurd j1 hj
            · have : j = i := by omega
              subst this
              rw [hi] at j2; cases j2
              rw [ho] at e1; cases e1
              rw [hk] at e2; cases e2
              rw [if_pos hp]
              refine ⟨qs, hq, ?_⟩
              simp only [World.setOp]
              rw [List.getElem?_set_self (by rw [h.length]; exact holt)]
      rcases evalLoop_numbers w c2 x.params with ⟨p1, qs, p2, p3⟩ | ⟨p1, qs, p2⟩
      · rw [p2]
        refine .inl ⟨⟨c1, fun _ op' k' e1 e2 _ => by rw [ho] at e1; cases e1; exact p1⟩, _, rfl, hupd _ _ _ (.inr ⟨rfl, rfl, p3⟩)⟩
      · rw [p2]
        exact .inr ⟨noNumber given i, _, .inr ⟨c1, rfl, hmem, x, k, ho, hk, hp, p1⟩, rfl, hupd _ _ _ (.inl ⟨rfl, rfl⟩)⟩

/-- The loop of `eval` in place. -/
theorem Spec.EvaluatedUpTo.loop {w : World K} {ops : List Nat} {given : Option (List (List K))} (d : Nat) (hops : ∀ o ∈ ops, ∃ op k, w.ops[o]? = some op ∧ w.classes[op.cls]? = some k) :
    ∀ (n i : Nat) (v : World K), EvaluatedUpTo w v ops given i none → i + n = ops.length →
    ((∀ j o, i ≤ j → ops[j]? = some o → Ready w given (ops.take j) j o) ∧ ∃ v', evalOps d given true i (ops.drop i) v = (.ok (), v') ∧
      EvaluatedUpTo w v' ops given ops.length none) ∨
    (∃ j o e v', i ≤ j ∧ ops[j]? = some o ∧ (∀ j' o, i ≤ j' → j' < j → ops[j']? = some o → Ready w given (ops.take j') j' o) ∧ FailsWith w given (ops.take j) j o e ∧
      evalOps d given true i (ops.drop i) v = (.error e, v') ∧ EvaluatedUpTo w v' ops given j (some o)) := by
  intro n
  induction n with
  | zero =>
    intro i v hm hi
    refine .inl ⟨fun j o hj ho => absurd (List.getElem?_eq_some_iff.1 ho).1 (by omega), v, ?_, by rw [← hi]; exact hm⟩
    rw [List.drop_eq_nil_of_le (by omega)]
    rfl
  | succ n ih =>
    intro i v hm hi
    have hlt : i < ops.length := by omega
    have hget : ops[i]? = some ops[i] := List.getElem?_eq_getElem hlt
    obtain ⟨op, k, h1, h2⟩ := hops ops[i] (List.getElem_mem hlt)
    rw [List.drop_eq_getElem_cons hlt]
    unfold evalOps
    rw [bind_def]
    rcases hm.step d hget h1 h2 with ⟨r, v', e1, e2⟩ | ⟨e, v', r, e1, e2⟩
    · rw [e1]
      rcases ih (i + 1) v' e2 (by omega) with ⟨k1, v2, k2, k3⟩ | ⟨j, o, e, v2, k1, k2, k3, k4, k5⟩
      · refine .inl ⟨fun j o hj ho => ?_, v2, k2, k3⟩
        rcases Nat.eq_or_lt_of_le hj with rfl | hj
        · rw [hget] at ho; cases ho; exact r
        · exact k1 j o hj ho
      · refine .inr ⟨j, o, e, v2, by omega, k2, fun j' o hj hj' ho => ?_, k4, k5⟩
        rcases Nat.eq_or_lt_of_le hj with rfl | hj
        · rw [hget] at ho; cases ho; exact r
        · exact k3 j' o hj hj' ho
    · rw [e1]
      exact .inr ⟨i, _, e, v', Nat.le_refl _, hget, fun j' o hj hj' => absurd hj' (by omega), r, rfl, e2⟩

end DG
