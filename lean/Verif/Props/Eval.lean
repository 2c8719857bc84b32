import Verif.Proofs.EvalCirc
import Verif.Spec.EvalRun
import Verif.Proofs.QirEffect
import Verif.Props.Run

/-!
# Property C94: evaluating parametric circuits

`evalCirc c given inplace` is `circuit.eval(given, inplace)` for circuit `c`: without `inplace` the result is a new circuit, which is the last one of the
new state. See `Spec/Eval.lean` for the vocabulary.
-/

noncomputable section

namespace DG.Props
open Spec Sim
variable {K : Type} [DecidableEq K] [Zero K]

/-! ## On a copy -/

/-- C94: whatever the outcome of `circuit.eval(given)`, all objects that existed before are as they were. -/
theorem C94_copy_untouched (c : Nat) (given : Option (List (List K))) (w : World K) : Untouched w (evalCirc c given false w).2 :=
  evalCirc_untouched c given w

/-- C94 for conditions only on operations without parameters, see `C94_condition_violated`: if every operation has the numbers it needs,
`circuit.eval(given)` returns a new parametric circuit that has the same qubit registers, the same registers with copies of the bits, copies of the
variables, and at every position the same operation with the variables replaced. -/
theorem C94_copy_partial {w : World K} {c : Nat} {C : Circ} (hC : w.circs[c]? = some C) (hp : C.param = true)
    (hops : ∀ o ∈ C.ops, ∃ op k, w.ops[o]? = some op ∧ w.classes[op.cls]? = some k) {L : Layout} (hL : Shows C.c L) {given : Option (List (List K))}
    (hr : ∀ i o, C.ops[i]? = some o → Ready w given [] i o) :
    ∃ w' D f, evalCirc c given false w = (.ok w.circs.length, w') ∧ w'.circs = w.circs ++ [D] ∧ D.param = true ∧ D.q = C.q ∧ D.locked = C.locked ∧
      CopyBits w w' f ∧ Shows D.c (List.map (fun p => (p.1, p.2.map f)) L) ∧
      List.Forall₂ (fun v v' => w.vars.length ≤ v' ∧ (v < w.vars.length → w'.vars[v']? = w.vars[v]?)) C.vars D.vars ∧
      D.ops.length = C.ops.length ∧ ∀ i o, C.ops[i]? = some o → ∃ o', D.ops[i]? = some o' ∧ EvaluatedAs w w' f given i o o' := by
  rcases Mid.loop (given := given) hops _ 0 _ (.start w C given) (by rw [Nat.zero_add]) with ⟨-, v', h1, h2⟩ | ⟨j, o, e, v', -, h1, -, h2, -⟩
  · obtain ⟨N, n1, n2, -, n4⟩ := h2.circ
    refine ⟨v', { w.copyOf C with ops := N }, (· + w.bits.length), ?_, n1, hp, rfl, rfl, copyBits_shift w h2.bits, Shows.shift hL _, ?_, n2, ?_⟩
    · rw [evalCirc_copy_eq hC hp]
      have : (w.copyOf C).ops = (C.ops.map (· + w.ops.length)).drop 0 := rfl
      rw [this, h1]
    · show List.Forall₂ _ C.vars (C.vars.map _)
      rw [List.forall₂_map_right_iff, List.forall₂_same]
      refine fun v _ => ⟨by omega, fun hv => ?_⟩
      rw [h2.vars, List.getElem?_append_right (by omega), Nat.add_sub_cancel]
    · exact fun i o hi => n4 i o (List.getElem?_eq_some_iff.1 hi).1 hi
  · obtain ⟨r1, r2⟩ := hr j o h1
    rcases h2 with ⟨h2, -⟩ | ⟨-, -, h2, op, k, h3, h4, h5, h6⟩
    · exact absurd r1 h2
    · exact absurd (r2 h2 op k h3 h4 h5) h6

omit [DecidableEq K] in
private theorem not_both {w : World K} {given : Option (List (List K))} {done : List Nat} {i o : Nat} {e : Err} (h : FailsWith w given done i o e) :
    ¬ Ready w given done i o := by
  rintro ⟨r1, r2⟩
  rcases h with ⟨h1, -⟩ | ⟨-, -, h1, op, k, h2, h3, h4, h5⟩
  · exact h1 r1
  · exact h5 (r2 h1 op k h2 h3 h4)

omit [DecidableEq K] in
private theorem fails_unique {w : World K} {given : Option (List (List K))} {done : List Nat} {i o : Nat} {e e' : Err} (h : FailsWith w given done i o e)
    (h' : FailsWith w given done i o e') : e = e' := by
  rcases h with ⟨h1, rfl⟩ | ⟨h1, rfl, -⟩ <;> rcases h' with ⟨h2, rfl⟩ | ⟨h2, rfl, -⟩
  · rfl
  · exact absurd h2 h1
  · exact absurd h1 h2
  · rfl

/-- C94: otherwise the exception is that of the first operation that does not have the numbers it needs: `IndexError` if there is no list of numbers for its
position or if its list is too short, `ValueError` if no numbers are given and one of its variables has no value or the value 0. -/
theorem C94_copy_exception {w : World K} {c : Nat} {C : Circ} (hC : w.circs[c]? = some C) (hp : C.param = true)
    (hops : ∀ o ∈ C.ops, ∃ op k, w.ops[o]? = some op ∧ w.classes[op.cls]? = some k) {given : Option (List (List K))} {i o : Nat} {e : Err}
    (hi : C.ops[i]? = some o) (hf : FailsWith w given [] i o e) (hr : ∀ j o, j < i → C.ops[j]? = some o → Ready w given [] j o) :
    (evalCirc c given false w).1 = .error e := by
  rw [evalCirc_copy_eq hC hp]
  have : (w.copyOf C).ops = (C.ops.map (· + w.ops.length)).drop 0 := rfl
  rw [this]
  rcases Mid.loop (given := given) hops _ 0 _ (.start w C given) (by rw [Nat.zero_add]) with ⟨h1, -⟩ | ⟨j, o', e', v', -, h1, h2, h3, h4⟩
  · exact absurd (h1 i o (Nat.zero_le _) hi) (not_both hf)
  · rw [h4]
    rcases Nat.lt_trichotomy i j with hij | rfl | hij
    · exact absurd (h2 i o (Nat.zero_le _) hij hi) (not_both hf)
    · rw [hi] at h1; cases h1
      rw [fails_unique hf h3]
    · exact absurd (hr j o' hij h1) (not_both h3)

/-- C94: circuits that are not parametric cannot be evaluated. -/
theorem C94_attribute {w : World K} {c : Nat} {C : Circ} (hC : w.circs[c]? = some C) (hp : C.param = false) (given : Option (List (List K))) (inplace : Bool) :
    evalCirc c given inplace w = (.error .attributeError, w) := by
  obtain ⟨e, h1, h2 | h2⟩ := evalCirc_none (w := w) (c := c) (fun D hD => by rw [hC] at hD; cases hD; exact hp) given inplace
  · rw [h1, h2]
  · rw [hC] at h2; cases h2

/-! ## In place -/

/-- C94 in place: if every operation has the numbers it needs when it occurs first, `circuit.eval(given, inplace=True)` returns the circuit itself.
The variables of its operations are replaced in the operations, and nothing else is changed. -/
theorem C94_inplace {w : World K} {c : Nat} {C : Circ} (hC : w.circs[c]? = some C) (hp : C.param = true)
    (hops : ∀ o ∈ C.ops, ∃ op k, w.ops[o]? = some op ∧ w.classes[op.cls]? = some k) {given : Option (List (List K))}
    (hr : ∀ i o, C.ops[i]? = some o → Ready w given (C.ops.take i) i o) :
    ∃ w', evalCirc c given true w = (.ok c, w') ∧ EvaluatedUpTo w w' C.ops given C.ops.length none := by
  rw [evalCirc_inplace_eq hC hp]
  rcases EvaluatedUpTo.loop (given := given) c hops _ 0 _ (.start w C.ops given) (by rw [Nat.zero_add]) with ⟨-, v', h1, h2⟩ | ⟨j, o, e, v', -, h1, -, h2, -⟩
  · rw [List.drop_zero] at h1
    exact ⟨v', by rw [h1], h2⟩
  · exact absurd (hr j o h1) (not_both h2)

/-- C94 in place is violated by every call that fails: the operations in front of the first one that does not have the numbers it needs stay evaluated. -/
theorem C94_inplace_violated {w : World K} {c : Nat} {C : Circ} (hC : w.circs[c]? = some C) (hp : C.param = true)
    (hops : ∀ o ∈ C.ops, ∃ op k, w.ops[o]? = some op ∧ w.classes[op.cls]? = some k) {given : Option (List (List K))} {i o : Nat} {e : Err}
    (hi : C.ops[i]? = some o) (hf : FailsWith w given (C.ops.take i) i o e) (hr : ∀ j o, j < i → C.ops[j]? = some o → Ready w given (C.ops.take j) j o) :
    ∃ w', evalCirc c given true w = (.error e, w') ∧ EvaluatedUpTo w w' C.ops given i (some o) := by
  rw [evalCirc_inplace_eq hC hp]
  rcases EvaluatedUpTo.loop (given := given) c hops _ 0 _ (.start w C.ops given) (by rw [Nat.zero_add]) with ⟨h1, -⟩ | ⟨j, o', e', v', -, h1, h2, h3, h4, h5⟩
  · exact absurd (h1 i o (Nat.zero_le _) hi) (not_both hf)
  · rw [List.drop_zero] at h4
    rcases Nat.lt_trichotomy i j with hij | rfl | hij
    · exact absurd (h2 i o (Nat.zero_le _) hij hi) (not_both hf)
    · rw [hi] at h1; cases h1
      rw [fails_unique hf h3]
      exact ⟨v', by rw [h4], h5⟩
    · exact absurd (hr j o' hij h1) (not_both h3)

/-! ## Conditions -/

/-- C94 is violated for all operations with parameters and a condition: in the returned circuit the bits of the condition are other objects than those in
the registers (though they have the same id) and other objects than those that are measured into. So the condition does not see the outcomes of the
measurements. -/
theorem C94_condition_violated {w : World K} {c : Nat} {C : Circ} (hC : w.circs[c]? = some C) (hp : C.param = true)
    (hops : ∀ o ∈ C.ops, ∃ op k, w.ops[o]? = some op ∧ w.classes[op.cls]? = some k) {L : Layout} (hL : Shows C.c L) (hlt : ∀ b ∈ L.items, b < w.bits.length)
    {given : Option (List (List K))} (hr : ∀ i o, C.ops[i]? = some o → Ready w given [] i o) {i o : Nat} {op : OpObj K} {k : OpCls} {bs : List Nat}
    (hi : C.ops[i]? = some o) (ho : w.ops[o]? = some op) (hk : w.classes[op.cls]? = some k) (hpar : k.kind.isParametric = true) (hbs : op.cond = some bs) :
    ∃ w' D LD o' op' bs', evalCirc c given false w = (.ok w.circs.length, w') ∧ w'.circs[w.circs.length]? = some D ∧ Shows D.c LD ∧
      LD.items.length = L.items.length ∧ D.ops[i]? = some o' ∧ w'.ops[o']? = some op' ∧ op'.cond = some bs' ∧ bs'.length = bs.length ∧ (∀ b ∈ bs', b ∉ LD.items) ∧
      ∀ (j u : Nat) (z : OpObj K) (l : OpCls) (ns : List Nat), C.ops[j]? = some u → w.ops[u]? = some z → w.classes[z.cls]? = some l →
        l.kind = .measurement → z.bits = some ns → (∀ n ∈ ns, n < w.bits.length) →
        ∃ x y ms, D.ops[j]? = some x ∧ w'.ops[x]? = some y ∧ y.bits = some ms ∧ ms.length = ns.length ∧ ∀ b ∈ bs', b ∉ ms := by
  obtain ⟨w', D, f, h1, h2, -, -, -, h3, h4, -, -, h5⟩ := C94_copy_partial hC hp hops hL hr
  obtain ⟨o', h6, op0, op', k0, e1, e2, e3, e4, e5⟩ := h5 i o hi
  rw [ho] at e1; cases e1
  rw [hk] at e3; cases e3
  rw [if_pos hpar] at e5
  obtain ⟨-, -, g, e6, e7, e8⟩ := e5
  have hcond : op'.cond = some (bs.map g) := by
    have := congrArg OpObj.cond e8
    simpa [onBits, hbs] using this
  have hitems : Layout.items (List.map (fun p => (p.1, p.2.map f)) L) = L.items.map f := by
    unfold Layout.items
    simp [List.flatMap_map, List.map_flatMap]
  refine ⟨w', D, _, o', op', _, h1, by rw [h2]; simp, h4, by rw [hitems]; simp, h6, e2, hcond, by simp, ?_, ?_⟩
  · intro b hb hb'
    rw [hitems] at hb'
    obtain ⟨a, -, rfl⟩ := List.mem_map.1 hb
    obtain ⟨a', ha', h'⟩ := List.mem_map.1 hb'
    exact e7 a a' (hlt a' ha') h'.symm
  · intro j u z l ns hu hz hl hl' hns hlt'
    obtain ⟨x, x1, z', y, l', y1, y2, y3, -, y5⟩ := h5 j u hu
    rw [hz] at y1; cases y1
    rw [hl] at y3; cases y3
    rw [if_neg (by simp [hl', OpKind.isParametric])] at y5
    refine ⟨x, y, ns.map f, x1, y2, ?_, by simp, fun b hb hb' => ?_⟩
    · have := congrArg OpObj.bits y5.2
      simpa [onBits, hns] using this
    · obtain ⟨a, -, rfl⟩ := List.mem_map.1 hb
      obtain ⟨a', ha', h'⟩ := List.mem_map.1 hb'
      exact e7 a a' (hlt' a' ha') h'.symm

/-! ## Simulation -/

omit [DecidableEq K] [Zero K] in
private theorem Replaced.unique {val : Nat → Option K} {given : Option (List K)} {ps qs qs' : List (OpParam K)} (h : Replaced val given ps qs)
    (h' : Replaced val given ps qs') : qs = qs' := by
  apply List.ext_getElem?
  intro i
  by_cases hi : i < ps.length
  · have a := h.2 i _ (List.getElem?_eq_getElem hi)
    have b := h'.2 i _ (List.getElem?_eq_getElem hi)
    cases hp : ps[i] with
    | num x => rw [hp] at a b; dsimp only at a b; rw [a, b]
    | var v =>
      rw [hp] at a b
      cases given with
      | none => obtain ⟨y, a1, a2⟩ := a; obtain ⟨z, b1, b2⟩ := b; rw [a1] at b1; cases b1; rw [a2, b2]
      | some l => obtain ⟨y, a1, a2⟩ := a; obtain ⟨z, b1, b2⟩ := b; rw [a1] at b1; cases b1; rw [a2, b2]
  · rw [List.getElem?_eq_none (by rw [h.1]; omega), List.getElem?_eq_none (by rw [h'.1]; omega)]

private theorem reads_evaluated {w w' : World ℝ} {f : Nat → Nat} {given : Option (List (List ℝ))} {i o o' : Nat} {s : SOp} (hc : w'.classes = w.classes)
    (h : ReadsWith w given i o s) (he : EvaluatedAs w w' f given i o o') :
    Reads w' o' ⟨o', s.kind, s.qubits, s.cond.map fun l => l.map f, s.bits.map fun l => l.map f⟩ := by
  obtain ⟨op, k, h1, h2, h3, h4, h5, h6⟩ := h
  obtain ⟨op0, op', k0, e1, e2, e3, -, e5⟩ := he
  rw [h1] at e1; cases e1
  rw [h2] at e3; cases e3
  cases hk : k.kind.isParametric with
  | false =>
    rw [if_neg (by simp [hk])] at e5
    obtain ⟨e5, e6⟩ := e5
    have a1 : op'.cls = op.cls := by have := congrArg OpObj.cls e6; exact this
    have a2 : op'.qubits = op.qubits := by have := congrArg OpObj.qubits e6; exact this
    have a3 : op'.cond = op.cond.map fun l => l.map f := by have := congrArg OpObj.cond e6; exact this
    have a4 : op'.bits = op.bits.map fun l => l.map f := by have := congrArg OpObj.bits e6; exact this
    refine ⟨op', k, e2, by rw [hc, a1, h2], rfl, by rw [a2, h3], by rw [a3, h4], by rw [a4, h5], ?_⟩
    rcases h6 with h6 | ⟨xs, g1, g2, g3⟩
    · exact .inl h6
    · rw [if_neg (by simp [hk])] at g3
      have : op'.params = [] := List.eq_nil_of_length_eq_zero (by rw [e5, g3]; rfl)
      refine .inr ⟨xs, ?_, g1, g2⟩
      have : xs = [] := by
        generalize k.name = nm, k.kind = kd, s.kind = sk at g1 hk
        cases g1 <;> first | rfl | (simp [OpKind.isParametric] at hk)
      simp_all
  | true =>
    rw [if_pos hk] at e5
    obtain ⟨-, e5, g, -, -, e6⟩ := e5
    rcases h6 with ⟨h6, -⟩ | ⟨xs, g1, g2, g3⟩
    · rw [h6] at hk; cases hk
    · rw [if_pos hk] at g3
      obtain ⟨g3, g4, g5⟩ := g3
      have a1 : op'.cls = op.cls := by have := congrArg OpObj.cls e6; exact this
      have a2 : op'.qubits = op.qubits := by have := congrArg OpObj.qubits e6; exact this
      have a3 : op'.cond = op.cond.map fun l => l.map g := by have := congrArg OpObj.cond e6; exact this
      have a4 : op'.bits = op.bits.map fun l => l.map g := by have := congrArg OpObj.bits e6; exact this
      refine ⟨op', k, e2, by rw [hc, a1, h2], rfl, by rw [a2, h3], by rw [a3, h4, g4]; rfl, by rw [a4, h5, g5]; rfl, .inr ⟨xs, ?_, g1, g2⟩⟩
      exact Replaced.unique e5 g3

/-- C94 and C81 for conditions only on operations without parameters: evaluating a parametric circuit and simulating the result gives the state of the
textbook semantics for the operations of the parametric circuit with the numbers put in. -/
theorem C94_simulate_partial {w : World ℝ} (h : Reach (fun e => KeepsRegisters e ∧ KeepsOperands e) w) {c : Nat} {C : Circ} (hC : w.circs[c]? = some C)
    (hp : C.param = true) (hact : w.active = none ∨ ¬ NeedsNoContext w C.ops) {L LC : Layout} (hL : Shows C.q L) (hLC : Shows C.c LC)
    (h1 : 1 ≤ L.items.length) (h30 : L.items.length ≤ 30) {given : Option (List (List ℝ))} (hr : ∀ i o, C.ops[i]? = some o → Ready w given [] i o)
    {S : List SOp} (hlen : S.length = C.ops.length) (hS : ∀ i o s, C.ops[i]? = some o → S[i]? = some s → ReadsWith w given i o s)
    (hg : ∀ s ∈ S, GoodOperands s) (u : Nat → ℝ) (hu : ∀ k, 0 ≤ u k ∧ u k < 1) (records : Nat → Record) :
    ∃ (w' : World ℝ) (f : Nat → Nat) (S' : List SOp) (mem : List ℂ) (recs : Nat → Record) (D' : Circ) (s : SimState L.items.length),
      evalCirc c given false w = (.ok w.circs.length, w') ∧ CopyBits w w' f ∧ List.Forall₂ (SameWithBits f) S S' ∧
      simulateCirc u w.circs.length false records w' = (.ok (some (mem, recs)), { w'.setCirc w.circs.length D' with bits := withValues w' s.bits }) ∧
      Exec ⟨L.items, S'⟩ u S' ⟨zeroState _, bitValue w', 0⟩ s ∧ Stores false mem s.ψ := by
  have hops : ∀ o ∈ C.ops, ∃ op k, w.ops[o]? = some op ∧ w.classes[op.cls]? = some k := by
    intro o ho
    obtain ⟨i, hi⟩ := List.getElem?_of_mem ho
    have hlt : i < S.length := by rw [hlen]; exact (List.getElem?_eq_some_iff.1 hi).1
    obtain ⟨op, k, g1, g2, -⟩ := hS i o _ hi (List.getElem?_eq_getElem hlt)
    exact ⟨op, k, g1, g2⟩
  obtain ⟨w', D, f, e1, e2, -, e4, -, e5, -, -, e8, e9⟩ := C94_copy_partial hC hp hops hLC hr
  have hunt : Untouched w w' := by have := C94_copy_untouched c given w; rwa [e1] at this
  have hw' : Reach (fun e => KeepsRegisters e ∧ KeepsOperands e) w' := by
    refine reach_after h (q := .call (.evalCirc c given false)) ⟨trivial, trivial⟩ ?_
    show (evalCirc c given false).void w = _
    rw [M.void, e1]
  let S' : List SOp := List.zipWith (fun o' s => ⟨o', s.kind, s.qubits, s.cond.map fun l => l.map f, s.bits.map fun l => l.map f⟩) D.ops S
  have hS'len : S'.length = S.length := by simp [S', e8, hlen]
  have hD : w'.circs[w.circs.length]? = some D := by rw [e2]; simp
  have hget : ∀ i (hi : i < S.length) (hi' : i < D.ops.length), S'[i]? = some ⟨D.ops[i], S[i].kind, S[i].qubits, S[i].cond.map fun l => l.map f, S[i].bits.map fun l => l.map f⟩ := by
    intro i hi hi'
    simp [S', hi, hi']
  have hSS' : List.Forall₂ (SameWithBits f) S S' := by
    rw [List.forall₂_iff_get]
    refine ⟨hS'len.symm, fun i hi hi' => ?_⟩
    have := hget i hi (by rw [e8, ← hlen]; exact hi)
    rw [List.getElem?_eq_getElem hi'] at this
    simp only [List.get_eq_getElem]
    rw [Option.some.inj this]
    exact ⟨rfl, rfl, rfl, rfl⟩
  have hReads : List.Forall₂ (Reads w') D.ops S' := by
    rw [List.forall₂_iff_get]
    refine ⟨by rw [hS'len, hlen, e8], fun i hi hi' => ?_⟩
    have hi2 : i < S.length := by rw [← hS'len]; exact hi'
    have hi3 : i < C.ops.length := by rw [← e8]; exact hi
    have := hget i hi2 hi
    rw [List.getElem?_eq_getElem hi'] at this
    simp only [List.get_eq_getElem]
    rw [Option.some.inj this]
    obtain ⟨o', k1, k2⟩ := e9 i _ (List.getElem?_eq_getElem hi3)
    rw [List.getElem?_eq_getElem hi] at k1
    cases k1
    exact reads_evaluated hunt.classes (hS i _ _ (List.getElem?_eq_getElem hi3) (List.getElem?_eq_getElem hi2)) k2
  have hgood : ∀ s ∈ S', GoodOperands s := by
    intro s' hs'
    obtain ⟨s, hs, k1, k2, -, -⟩ := forall₂_mem_right hSS' hs'
    have := hg s hs
    unfold GoodOperands at this ⊢
    rwa [k1, k2]
  have hact' : w'.active = none ∨ ¬ NeedsNoContext w' D.ops := by
    rcases hact with ha | ha
    · exact .inl (by rw [hunt.active, ha])
    · refine .inr fun ⟨o', ho', op', k, k1, k2, k3⟩ => ha ?_
      obtain ⟨i, hi⟩ := List.getElem?_of_mem ho'
      have hi3 : i < C.ops.length := by rw [← e8]; exact (List.getElem?_eq_some_iff.1 hi).1
      obtain ⟨o2, m1, op, op2, k', m2, m3, m4, -, m6⟩ := e9 i _ (List.getElem?_eq_getElem hi3)
      rw [hi] at m1; cases m1
      rw [k1] at m3; cases m3
      have hcls : op'.cls = op.cls := by
        split at m6
        · obtain ⟨-, -, g, -, -, m7⟩ := m6
          have := congrArg OpObj.cls m7; exact this
        · have := congrArg OpObj.cls m6.2; exact this
      rw [hunt.classes, hcls, m4] at k2
      cases k2
      exact ⟨_, List.getElem_mem hi3, op, _, m2, m4, k3⟩
  obtain ⟨mem, recs, D', s, n1, -, n3, n4⟩ := C81_simulate (fun _ he => he) hw' hD hact' (by rw [e4]; exact hL) h1 h30 hReads hgood u hu records
  exact ⟨w', f, S', mem, recs, D', s, e1, e5, hSS', n1, n3, n4⟩

/-! ## Examples -/

/-- A parametric circuit with a measurement of its qubit into its bit, `RX(x).conditional(bit)`, `RX(y)` and `X.conditional(bit)`. -/
def evaluateDemo : Prog Int :=
  .seq (.call (.newClass ⟨"RX", .parametric, ⟨false, some 1, none, none⟩, some 1⟩)) <|
  .seq (.call (.newClass ⟨"Measurement", .measurement, ⟨false, none, none, none⟩, none⟩)) <|
  .seq (.call (.newClass ⟨"X", .plain, ⟨false, some 1, none, none⟩, none⟩)) <|
  .seq (.call (.newCirc true (some 1) (some 1))) <|
  .withCtx 0 <|
  .seq (.call (.getParam 0 1)) <|
  .seq (.call (.construct 1 none (.qubits (some [0])))) <|
  .seq (.call (.measureInto 0 [0])) <|
  .seq (.call (.construct 0 (some [.var 0]) (.qubits (some [0])))) <|
  .seq (.call (.conditional 1 [0])) <|
  .seq (.call (.construct 0 (some [.var 1]) (.qubits (some [0])))) <|
  .seq (.call (.construct 2 none (.qubits (some [0])))) <|
  .call (.conditional 3 [0])

/-- The numbers 5 and 6 for the two rotations; the other operations need none. -/
def evaluateNumbers : Option (List (List Int)) := some [[], [5], [6], []]

private theorem demo_circ : ∃ C, evaluateDemo.final.circs[0]? = some C ∧ C.param = true ∧ C.ops = [0, 1, 2, 3] ∧ Shows C.c [(.str "creg0", [0])] := by
  obtain ⟨C, h1, h2⟩ := shows_circ (w := evaluateDemo.final) (c := 0) Circ.c (L := [(.str "creg0", [0])]) (by decide +kernel)
  have h3 : (evaluateDemo.final.circs[0]?).map (fun C => (C.param, C.ops)) = some (true, [0, 1, 2, 3]) := by decide +kernel
  rw [h1] at h3
  simp only [Option.map_some, Option.some.injEq, Prod.mk.injEq] at h3
  exact ⟨C, h1, h3.1, h3.2, h2⟩

private theorem demo_ops : ∀ o ∈ [0, 1, 2, 3], ∃ op k, evaluateDemo.final.ops[o]? = some op ∧ evaluateDemo.final.classes[op.cls]? = some k := by
  have key : ∀ o ∈ [0, 1, 2, 3], ((evaluateDemo.final.ops[o]?).bind fun op => evaluateDemo.final.classes[op.cls]?).isSome = true := by decide +kernel
  intro o ho
  have := key o ho
  cases h1 : evaluateDemo.final.ops[o]? with
  | none => rw [h1] at this; cases this
  | some op =>
    rw [h1] at this
    exact ⟨op, _, rfl, Option.eq_some_of_isSome this⟩

omit [DecidableEq K] in
/-- `Ready`, computed for operations whose parameters are given. -/
private theorem ready_given {w : World K} {given : List (List K)} {done : List Nat} {i o : Nat} {l : List K} {op : OpObj K} (hi : given[i]? = some l) (ho : w.ops[o]? = some op)
    (h : op.params.length ≤ l.length) : Ready w (some given) done i o := by
  refine ⟨fun g hg _ => by cases hg; exact (List.getElem?_eq_some_iff.1 hi).1, fun _ op' k h1 h2 h3 => ?_⟩
  rw [ho] at h1; cases h1
  unfold HasNumbers givenFor
  simp only [hi]
  cases l with
  | nil =>
    have : op.params = [] := List.eq_nil_of_length_eq_zero (by simpa using h)
    simp [this]
  | cons y ys =>
    intro j v hj
    have := (List.getElem?_eq_some_iff.1 hj).1
    omega

private theorem demo_ready (done : Nat → List Nat) : ∀ i o, [0, 1, 2, 3][i]? = some o → Ready evaluateDemo.final evaluateNumbers (done i) i o := by
  have key : ∀ i ∈ [0, 1, 2, 3], ∃ l ∈ ([[], [5], [6], []] : List (List Int))[i]?, ∃ op ∈ evaluateDemo.final.ops[i]?, op.params.length ≤ l.length := by decide +kernel
  intro i o hi
  have hlt := (List.getElem?_eq_some_iff.1 hi).1
  have hio : o = i := by
    have : ∀ i < 4, [0, 1, 2, 3][i]? = some i := by decide
    rw [this i hlt] at hi
    exact (Option.some.inj hi).symm
  subst hio
  obtain ⟨l, h1, op, h2, h3⟩ := key o (List.mem_of_getElem? hi)
  exact ready_given h1 h2 h3

/-- The hypotheses of `C94_copy_partial`, `C94_inplace` and `C94_condition_violated` are met by the circuit of `evaluateDemo`. -/
example : ∃ C, evaluateDemo.final.circs[0]? = some C ∧ C.param = true ∧ Shows C.c [(.str "creg0", [0])] ∧
    (∀ o ∈ C.ops, ∃ op k, evaluateDemo.final.ops[o]? = some op ∧ evaluateDemo.final.classes[op.cls]? = some k) ∧
    (∀ i o, C.ops[i]? = some o → Ready evaluateDemo.final evaluateNumbers [] i o) ∧
    (∀ i o, C.ops[i]? = some o → Ready evaluateDemo.final evaluateNumbers (C.ops.take i) i o) ∧
    C.ops[1]? = some 1 ∧ (evaluateDemo.final.ops[1]?).map (fun op => (op.cls, op.params, op.cond)) = some (0, [.var 0], some [0]) := by
  obtain ⟨C, h1, h2, h3, h4⟩ := demo_circ
  exact ⟨C, h1, h2, h4, by rw [h3]; exact demo_ops, by rw [h3]; exact demo_ready fun _ => [], by rw [h3]; exact demo_ready _, by rw [h3]; rfl, by decide +kernel⟩

/-- The operations of circuit `c`. -/
def opObjsOf (w : World Int) (c : Nat) : List (Option (OpObj Int)) := (opsOf w c).map fun o => w.ops[o]?

/-- The circuit is evaluated: the measurement uses bit 1 of the new circuit, the condition of `RX(5)` does not. -/
example : (evalCirc 0 evaluateNumbers false evaluateDemo.final).1 = .ok 1 ∧ opObjsOf (evalCirc 0 evaluateNumbers false evaluateDemo.final).2 1 =
      [some { cls := 1, qubits := some [0], numQubits := some 1, bits := some [1] },
       some { cls := 0, qubits := some [0], numQubits := some 1, params := [.num 5], cond := some [3] },
       some { cls := 0, qubits := some [0], numQubits := some 1, params := [.num 6] },
       some { cls := 2, qubits := some [0], numQubits := some 1, cond := some [1] }] := by
  decide +kernel

/-- All exceptions occur: there is no list of numbers for a position, a list is too short, and variables without values. -/
example : (evalCirc 0 (some [[], [5], [6]]) false evaluateDemo.final).1 = .error .indexError ∧
    (evalCirc 0 (some [[], [5], [], []]) false evaluateDemo.final).1 = .error .valueError ∧
    (evalCirc 0 none false evaluateDemo.final).1 = .error .valueError := by
  decide +kernel

/-- C94 in place is violated: after the `IndexError` the circuit is half evaluated. -/
theorem C94_half_violated : (evalCirc 0 (some [[], [5]]) true evaluateDemo.final).1 = .error .indexError ∧
    opsOf (evalCirc 0 (some [[], [5]]) true evaluateDemo.final).2 0 = [0, 1, 2, 3] ∧
    (evalCirc 0 (some [[], [5]]) true evaluateDemo.final).2.ops.map (·.params) = [[], [.num 5], [.var 1], []] := by
  decide +kernel

/-- The hypotheses of `C94_inplace_violated` and `C94_copy_exception` are met by this call. -/
example : FailsWith evaluateDemo.final (some [[], [5]]) ([0, 1, 2, 3].take 2) 2 2 .indexError ∧ FailsWith evaluateDemo.final (some [[], [5]]) [] 2 2 .indexError ∧
    ∀ j o, j < 2 → [0, 1, 2, 3][j]? = some o → Ready evaluateDemo.final (some [[], [5]]) ([0, 1, 2, 3].take j) j o ∧ Ready evaluateDemo.final (some [[], [5]]) [] j o := by
  have hc : ¬ Covered (some [[], [5]] : Option (List (List Int))) 2 := fun h => absurd (h _ rfl (by simp)) (by decide)
  refine ⟨.inl ⟨hc, rfl⟩, .inl ⟨hc, rfl⟩, ?_⟩
  have key : ∀ i ∈ [0, 1], ∃ l ∈ ([[], [5]] : List (List Int))[i]?, ∃ op ∈ evaluateDemo.final.ops[i]?, op.params.length ≤ l.length := by decide +kernel
  intro j o hj ho
  have hjo : o = j := by
    have : ∀ i < 4, [0, 1, 2, 3][i]? = some i := by decide
    rw [this j (by omega)] at ho
    exact (Option.some.inj ho).symm
  subst hjo
  obtain ⟨l, h1, op, h2, h3⟩ := key o (by simp; omega)
  exact ⟨ready_given h1 h2 h3, ready_given h1 h2 h3⟩

/-- `evaluateDemo`, then in its frozen context the circuit is evaluated, and later an operation is created in the context of the result. -/
def evaluateFrozen : Prog Int :=
  .seq evaluateDemo <| .seq (.call (.unlock 0)) <|
  .seq (.withCtx 0 (.withFreeze (.call (.evalCirc 0 evaluateNumbers false)))) <| .seq (.call (.unlock 1)) <|
  .withCtx 1 (.call (.construct 2 none (.qubits (some [0]))))

/-- The same without the frozen context. -/
def evaluateUnfrozen : Prog Int :=
  .seq evaluateDemo <| .seq (.call (.unlock 0)) <| .seq (.withCtx 0 (.call (.evalCirc 0 evaluateNumbers false))) <| .seq (.call (.unlock 1)) <| .withCtx 1 (.call (.construct 2 none (.qubits (some [0]))))

/-- C94 is violated: a circuit that was evaluated while its context was frozen gets a frozen context of its own, which nobody ends. An operation created in
it is not appended, though it is if the context was not frozen. -/
theorem C94_frozen_violated : (evaluateFrozen.run {}).1 = .ok () ∧ (opsOf evaluateFrozen.final 1).length = 4 ∧
    (evaluateUnfrozen.run {}).1 = .ok () ∧ (opsOf evaluateUnfrozen.final 1).length = 5 := by
  decide +kernel

/-- A parametric circuit with `RX(x)`. -/
def spinDemo : Prog ℝ :=
  .seq (.call (.newClass ⟨"RX", .parametric, ⟨false, some 1, none, none⟩, some 1⟩)) <|
  .seq (.call (.newCirc true (some 1) none)) <|
  .withCtx 0 (.seq (.call (.getParam 0 0)) (.call (.construct 0 (some [.var 0]) (.qubits (some [0])))))

/-- The index of a variable. -/
def varIndex : OpParam ℝ → Option Nat
  | .num _ => none
  | .var v => some v

private theorem spinDemo_op : ∃ op k, spinDemo.final.ops[0]? = some op ∧ spinDemo.final.classes[op.cls]? = some k ∧ op.qubits = some [0] ∧ op.cond = none ∧
    op.bits = none ∧ op.params = [.var 0] ∧ k.name = "RX" ∧ k.kind = .parametric := by
  have h1 : (spinDemo.final.ops.map fun op => (op.cls, op.qubits, op.params.map varIndex)) = [(0, some [0], [some 0])] := by decide +kernel
  have h1' : (spinDemo.final.ops.map fun op => (op.cond, op.bits)) = [(none, none)] := by decide +kernel
  have h2 : (spinDemo.final.classes.map fun k => (k.name, k.kind)) = [("RX", .parametric)] := by decide +kernel
  have h3 := congrArg (fun l => l[0]?) h1
  have h3' := congrArg (fun l => l[0]?) h1'
  have h4 := congrArg (fun l => l[0]?) h2
  simp only [List.getElem?_map, List.getElem?_cons_zero, Option.map_eq_some_iff, Prod.mk.injEq] at h3 h3' h4
  obtain ⟨op, e1, e2, e3, e6⟩ := h3
  rw [e1] at h3'
  obtain ⟨op', e0, e4, e5⟩ := h3'
  cases e0
  obtain ⟨k, f1, f2, f3⟩ := h4
  refine ⟨op, k, e1, by rw [e2]; exact f1, e3, e4, e5, ?_, f2, f3⟩
  cases hp : op.params with
  | nil => rw [hp] at e6; cases e6
  | cons p ps =>
    rw [hp] at e6
    simp only [List.map_cons, List.cons.injEq, List.map_eq_nil_iff] at e6
    obtain ⟨e7, rfl⟩ := e6
    cases p with
    | num x => cases e7
    | var v => cases e7; rfl

/-- `C94_simulate_partial` for `RX(x)` evaluated with any number. -/
example (a : ℝ) (u : Nat → ℝ) (hu : ∀ k, 0 ≤ u k ∧ u k < 1) (records : Nat → Record) :
    ∃ (w' : World ℝ) (f : Nat → Nat) (S' : List SOp) (mem : List ℂ) (recs : Nat → Record) (D' : Circ) (s : SimState 1),
      evalCirc 0 (some [[a]]) false spinDemo.final = (.ok 1, w') ∧ CopyBits spinDemo.final w' f ∧
      List.Forall₂ (SameWithBits f) [⟨0, .single (.rx (.num a)), [0], none, none⟩] S' ∧
      simulateCirc u 1 false records w' = (.ok (some (mem, recs)), { w'.setCirc 1 D' with bits := withValues w' s.bits }) ∧
      Exec ⟨[0], S'⟩ u S' ⟨zeroState _, bitValue w', 0⟩ s ∧ Stores false mem s.ψ := by
  obtain ⟨op, k, h1, h2, h3, h4, h5, h6, h7, h8⟩ := spinDemo_op
  obtain ⟨C, hC, hL⟩ := shows_circ (w := spinDemo.final) (c := 0) Circ.q (L := [(.str "qreg0", [0])]) (by decide +kernel)
  have hs : ((spinDemo.final.circs[0]?).map fun C => (C.param, C.ops, C.c.regs.length)) = some (true, [0], 0) := by decide +kernel
  have hn : spinDemo.final.circs.length = 1 := by decide +kernel
  rw [hC] at hs
  simp only [Option.map_some, Option.some.injEq, Prod.mk.injEq] at hs
  obtain ⟨hp, ho, hc⟩ := hs
  have hLC : Shows C.c [] := by
    unfold Shows
    rw [List.length_eq_zero_iff.1 hc]
    exact .nil
  have hg : givenFor (some [[a]]) 0 = some [a] := rfl
  have := C94_simulate_partial (w := spinDemo.final) ⟨spinDemo, by simp [spinDemo, Prog.All, KeepsRegisters, KeepsOperands], spinDemo.visits_run _⟩ hC hp
    (.inl (by decide +kernel)) hL hLC (by decide) (by decide) (given := some [[a]]) ?_ (S := [⟨0, .single (.rx (.num a)), [0], none, none⟩]) (by rw [ho]; rfl) ?_
    (by simp [GoodOperands, arity]) u hu records
  · rw [hn] at this
    exact this
  · intro i o hi
    rw [ho] at hi
    obtain ⟨rfl, rfl⟩ : i = 0 ∧ o = 0 := by
      rcases i with _ | i
      · exact ⟨rfl, by simpa using hi.symm⟩
      · simp at hi
    exact ready_given (l := [a]) rfl h1 (by rw [h6]; simp)
  · intro i o s hi hs
    rw [ho] at hi
    obtain ⟨rfl, rfl⟩ : i = 0 ∧ o = 0 := by
      rcases i with _ | i
      · exact ⟨rfl, by simpa using hi.symm⟩
      · simp at hi
    cases hs
    refine ⟨op, k, h1, h2, h3, h4.symm, h5.symm, .inr ⟨[a], by rw [h7, h8]; exact .rx a, by rw [h8]; simp, ?_⟩⟩
    rw [if_pos (by rw [h8]; rfl)]
    refine ⟨?_, h4, h5⟩
    rw [h6, hg]
    refine ⟨rfl, fun i p hp => ?_⟩
    rcases i with _ | i
    · cases hp; exact ⟨a, rfl, rfl⟩
    · simp at hp

end DG.Props
