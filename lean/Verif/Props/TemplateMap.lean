import Verif.Proofs.Template
import Verif.Proofs.SimExtra
import Verif.Props.Run
import Verif.Props.Templates

/-!
# Property C83: a circuit called as a template applies its map to the given qubits
-/

noncomputable section

namespace DG.Props
open Spec Sim

/-- After every state of an execution there can be another call. -/
theorem visits_call {K : Type} [DecidableEq K] [Zero K] {A : Call K → Prop} {e : Call K} (he : A e) : ∀ (p : Prog K), p.All A → ∀ w w', p.Visits w w' →
    ∃ q : Prog K, q.All A ∧ q.Visits w (execCall e w').2
  | .skip, _, w, w', h => by
    cases h
    exact ⟨.call e, he, .inr rfl⟩
  | .call e1, h1, w, w', h => by
    rcases h with rfl | rfl
    · exact ⟨.call e, he, .inr rfl⟩
    · exact ⟨.seq (.attempt (.call e1)) (.call e), ⟨h1, he⟩, .inr ⟨_, rfl, .inr rfl⟩⟩
  | .seq p q, h1, w, w', h => by
    rcases h with h | ⟨w1, h2, h⟩
    · exact visits_call he p h1.1 w w' h
    · obtain ⟨q', g1, g2⟩ := visits_call he q h1.2 w1 w' h
      exact ⟨.seq p q', ⟨h1.1, g1⟩, .inr ⟨w1, h2, g2⟩⟩
  | .withCtx c p, h1, w, w', h => by
    rcases h with rfl | rfl | ⟨x, w1, h2, h | rfl⟩
    · exact ⟨.call e, he, .inr rfl⟩
    · rcases ho : openCtx c w with ⟨_ | x, w1⟩
      · refine ⟨.seq (.attempt (.withCtx c p)) (.call e), ⟨h1, he⟩, .inr ⟨w1, ?_, .inr rfl⟩⟩
        show tryPass (withStmt (openCtx c) p.run exitCtx) w = _
        simp only [tryPass, withStmt, ho]
      · exact ⟨.withCtx c (.call e), he, .inr (.inr ⟨x, w1, ho, .inl (.inr rfl)⟩)⟩
    · obtain ⟨q', g1, g2⟩ := visits_call he p h1 w1 w' h
      exact ⟨.withCtx c q', g1, .inr (.inr ⟨x, w1, h2, .inl g2⟩)⟩
    · refine ⟨.seq (.attempt (.withCtx c p)) (.call e), ⟨h1, he⟩, .inr ⟨_, ?_, .inr rfl⟩⟩
      show tryPass (withStmt (openCtx c) p.run exitCtx) w = _
      simp only [tryPass, withStmt, h2]
      rcases exitCtx x (p.run w1).2 with ⟨_ | _, _⟩ <;> rfl
  | .withFreeze p, h1, w, w', h => by
    rcases h with rfl | rfl | ⟨w1, h2, h | rfl⟩
    · exact ⟨.call e, he, .inr rfl⟩
    · rcases ho : freezeEnter w with ⟨_ | ⟨⟩, w1⟩
      · refine ⟨.seq (.attempt (.withFreeze p)) (.call e), ⟨h1, he⟩, .inr ⟨w1, ?_, .inr rfl⟩⟩
        show tryPass (withStmt freezeEnter p.run fun _ => freezeExit) w = _
        simp only [tryPass, withStmt, ho]
      · exact ⟨.withFreeze (.call e), he, .inr (.inr ⟨w1, ho, .inl (.inr rfl)⟩)⟩
    · obtain ⟨q', g1, g2⟩ := visits_call he p h1 w1 w' h
      exact ⟨.withFreeze q', g1, .inr (.inr ⟨w1, h2, .inl g2⟩)⟩
    · refine ⟨.seq (.attempt (.withFreeze p)) (.call e), ⟨h1, he⟩, .inr ⟨_, ?_, .inr rfl⟩⟩
      show tryPass (withStmt freezeEnter p.run fun _ => freezeExit) w = _
      simp only [tryPass, withStmt, h2]
      rcases freezeExit (p.run w1).2 with ⟨_ | _, _⟩ <;> rfl
  | .attempt p, h1, w, w', h => visits_call he p h1 w w' h

theorem Reach.call {K : Type} [DecidableEq K] [Zero K] {A : Call K → Prop} {w : World K} (h : Reach A w) {e : Call K} (he : A e) :
    Reach A (execCall e w).2 := by
  obtain ⟨p, h1, h2⟩ := h
  exact visits_call he p h1 _ _ h2

/-- The same place in two lists of qubits, the first without repetitions. -/
theorem samePlace_at {items qs : List Nat} (hnd : items.Nodup) {l l' : List Nat} (h : List.Forall₂ (SamePlace (items.map Lbl.obj) qs) l l')
    (ts : List (Fin items.length)) (hts : l = ts.map fun i => items[i]) : List.Forall₂ (fun (i : Fin items.length) q => qs[i.val]? = some q) ts l' := by
  subst hts
  rw [List.forall₂_map_left_iff] at h
  refine h.imp fun i q hq => ?_
  obtain ⟨j, h1, h2⟩ := hq
  rw [List.getElem?_map] at h1
  cases hj : items[j]? with
  | none => rw [hj] at h1; cases h1
  | some q0 =>
    rw [hj] at h1
    simp only [Option.map_some, Option.some.injEq, Lbl.obj.injEq] at h1
    have hlt : j < items.length := (List.getElem?_eq_some_iff.1 hj).1
    have : j = i.val := by
      apply (List.Nodup.getElem_inj_iff hnd (hi := hlt) (hj := i.isLt)).1
      rw [List.getElem?_eq_getElem hlt] at hj
      simp only [Option.some.injEq] at hj
      rw [hj, h1]
      rfl
    rw [← this]
    exact h2

theorem appended_classes {w w' : World ℝ} {B : Nat} {new : List (OpObj ℝ)} (h : Appended w w' B new) {k : Nat} {C : OpCls} (hC : w.classes[k]? = some C) :
    ∃ C', w'.classes[k]? = some C' ∧ C'.name = C.name ∧ C'.kind = C.kind ∧ C'.ar.numControl = C.ar.numControl := by
  have := congrArg (fun l => l[k]?) h.classes
  simp only [List.getElem?_map, hC, Option.map_some] at this
  cases h' : w'.classes[k]? with
  | none => rw [h'] at this; cases this
  | some C' =>
    rw [h'] at this
    simp only [Option.map_some, Option.some.injEq, Prod.mk.injEq] at this
    exact ⟨C', rfl, this.1, this.2.1, this.2.2.2⟩

/-- Operations that exist are read as before. -/
theorem reads_appended {w w' : World ℝ} {B : Nat} {new : List (OpObj ℝ)} (h : Appended w w' B new) {o : Nat} {s : SOp} (hr : Reads w o s) : Reads w' o s := by
  obtain ⟨op, k, h1, h2, h3, h4, h5, h6, h7⟩ := hr
  obtain ⟨k', g1, g2, g3, g4⟩ := appended_classes h h2
  refine ⟨op, k', ?_, g1, h3, h4, h5, h6, ?_⟩
  · rw [h.ops, List.getElem?_append_left (List.getElem?_eq_some_iff.1 h1).1]
    exact h1
  · rw [g2, g3, g4]
    exact h7

theorem replaced_nums {val : Nat → Option ℝ} {xs : List ℝ} {ps : List (OpParam ℝ)} (h : Replaced val none (xs.map OpParam.num) ps) :
    ps = xs.map OpParam.num := by
  obtain ⟨h1, h2⟩ := h
  apply List.ext_getElem?
  intro i
  cases hi : (xs.map OpParam.num : List (OpParam ℝ))[i]? with
  | none =>
    rw [List.getElem?_eq_none_iff] at hi ⊢
    omega
  | some p =>
    have := h2 i p hi
    rw [List.getElem?_map] at hi
    cases hx : xs[i]? with
    | none => rw [hx] at hi; cases hi
    | some x =>
      rw [hx] at hi
      cases hi
      exact this

theorem named_plain {name : String} {k : OpKind} {xs : List ℝ} {K : Kind} (h : GateNamed name k xs K) (hk : k.isParametric = false) : xs = [] := by
  cases h <;> first | rfl | cases hk

/-- The copies are read as the same gates on the new qubits. -/
theorem reads_copy {w w' : World ℝ} {B : Nat} {new : List (OpObj ℝ)} (h : Appended w w' B new) {o o' : Nat} {s : SOp} (hr : Reads w o s)
    (hc : s.cond = none) (hk : s.kind ≠ .measurement) {op op' : OpObj ℝ} {C : OpCls} {P : Prop} {Q : Nat → Nat → Prop} {R : Option (Nat → Nat → Prop)}
    (ho : w.ops[o]? = some op) (hC : w.classes[op.cls]? = some C) (hcp : CopyOf w C P Q R op op') (ho' : w'.ops[o']? = some op') :
    ∃ s' : SOp, Reads w' o' s' ∧ s'.kind = s.kind ∧ s'.cond = none ∧ List.Forall₂ Q s.qubits s'.qubits := by
  obtain ⟨op1, k, h1, h2, h3, h4, h5, h6, h7⟩ := hr
  rw [ho] at h1
  cases h1
  rw [hC] at h2
  cases h2
  obtain ⟨k', g1, g2, g3, g4⟩ := appended_classes h hC
  obtain ⟨qs, e1, e2⟩ := hcp.qubits
  rw [h4] at e2
  refine ⟨⟨o', s.kind, qs, op'.cond, op'.bits⟩, ⟨op', k', ho', by rw [hcp.cls]; exact g1, rfl, e1, rfl, rfl, ?_⟩, rfl, hcp.cond (by rw [← h5]; exact hc), e2⟩
  rcases h7 with ⟨-, h7⟩ | ⟨xs, h7, h8, h9⟩
  · exact absurd h7 hk
  · refine .inr ⟨xs, ?_, by rw [g2, g3]; exact h8, by rw [g3, g4]; exact h9⟩
    cases hp : C.kind.isParametric with
    | false =>
      rw [hcp.plain hp]
      rw [named_plain h8 hp]
      rfl
    | true =>
      by_cases hv : C.kind = .parametric ∧ P
      · have := hcp.values hv.1 hv.2
        rw [h7] at this
        exact replaced_nums this
      · rw [hcp.params hp hv, h7]

/-- C83: a call `template(qubits)` in the context of another circuit, where the template consists of library gates without conditions: the template
means some map `U` of states of its qubits, and the operations that the call appends mean the map `U` on the given qubits. -/
theorem C83_call {A : Call ℝ → Prop} (hA : ∀ e, A e → KeepsRegisters e ∧ KeepsOperands e) {w w' : World ℝ} (h : Reach A w) {a B : Nat} {T D : Circ}
    (hT : w.circs[a]? = some T) (hD : w.circs[B]? = some D) {LT L : Layout} (hLT : Shows T.q LT) (hL : Shows D.q L) (ht : w.target = some B)
    {S : List SOp} (hS : List.Forall₂ (Reads w) T.ops S) (hg : ∀ s ∈ S, GoodOperands s ∧ s.kind ≠ .measurement ∧ s.cond = none) {qs : List Nat}
    {bits : Option (List Nat)} (hcall : callCirc a qs bits w = (.ok (), w')) :
    qs.length = LT.items.length ∧
    ∀ ι : Fin LT.items.length → Fin L.items.length, Function.Injective ι → (∀ i, qs[i.val]? = some L.items[ι i]) →
      ∃ (U : _) (new : List Nat) (S' : List SOp), MeansMap LT.items S U ∧ opsOf w' B = opsOf w B ++ new ∧
        List.Forall₂ (Reads w') new S' ∧ (∀ s ∈ S', GoodOperands s ∧ s.kind ≠ .measurement ∧ s.cond = none) ∧ MeansMap L.items S' (onQubits ι U) := by
  obtain ⟨D', items, R, new, h1, h2, h3, h4, h5, h6, h7, h8⟩ := C28_call_partial h ht hcall
  rw [hD] at h1
  cases h1
  obtain ⟨g1, g2, g3⟩ := ops_inside hA h hT hLT hS fun s hs => (hg s hs).1
  rw [g1] at h3
  cases h3
  have hlen : qs.length = LT.items.length := by simpa using h4.symm
  refine ⟨hlen, fun ι hι hat => ?_⟩
  have hops : opsOf w a = T.ops := by simp [opsOf, hT]
  rw [hops] at h8
  -- the new operations
  have hnew : ∃ S' : List SOp, List.Forall₂ (Reads w') (List.range' w.ops.length new.length) S' ∧
      List.Forall₂ (fun s s' : SOp => s'.kind = s.kind ∧ s'.cond = none ∧ List.Forall₂ (SamePlace (LT.items.map Lbl.obj) qs) s.qubits s'.qubits) S S' := by
    have key : ∀ (os : List Nat) (S : List SOp) (ns : List (OpObj ℝ)) (m : Nat), List.Forall₂ (Reads w) os S →
        (∀ s ∈ S, GoodOperands s ∧ s.kind ≠ .measurement ∧ s.cond = none) →
        List.Forall₂ (fun o op' => ∃ op C, w.ops[o]? = some op ∧ w.classes[op.cls]? = some C ∧
          CopyOf w C (D.parametric = false) (SamePlace (LT.items.map Lbl.obj) qs) R op op') os ns →
        (∀ i (op' : OpObj ℝ), ns[i]? = some op' → w'.ops[m + i]? = some op') →
        ∃ S' : List SOp, List.Forall₂ (Reads w') (List.range' m ns.length) S' ∧
          List.Forall₂ (fun s s' : SOp => s'.kind = s.kind ∧ s'.cond = none ∧ List.Forall₂ (SamePlace (LT.items.map Lbl.obj) qs) s.qubits s'.qubits) S S' := by
      intro os S ns m hr hg hcp
      induction hr generalizing ns m with
      | nil =>
        cases hcp
        exact fun _ => ⟨[], .nil, .nil⟩
      | @cons o s os S r1 r2 ih =>
        cases hcp with
        | @cons _ n1 _ ns c1 c2 =>
          intro hget
          obtain ⟨op, C, k1, k2, k3⟩ := c1
          obtain ⟨-, e2, e3⟩ := hg s (by simp)
          obtain ⟨s', f1, f2⟩ := reads_copy h7 r1 e3 e2 k1 k2 k3 (o' := m) (hget 0 n1 rfl)
          obtain ⟨S', i1, i2⟩ := ih ns (m + 1) (fun s hs => hg s (by simp [hs])) c2 (fun i op' hi => by
            rw [show m + 1 + i = m + (i + 1) by omega]
            exact hget (i + 1) op' (by simpa using hi))
          exact ⟨s' :: S', .cons f1 i1, .cons f2 i2⟩
    refine key T.ops S new w.ops.length hS hg h8 fun i op' hi => ?_
    rw [h7.ops, List.getElem?_append_right (by omega), Nat.add_sub_cancel_left]
    exact hi
  obtain ⟨S', n1, n2⟩ := hnew
  have hplace : ∀ (s s' : SOp) (ts : List (Fin LT.items.length)), s.qubits = ts.map (fun i => LT.items[i]) →
      List.Forall₂ (SamePlace (LT.items.map Lbl.obj) qs) s.qubits s'.qubits → s'.qubits = (ts.map ι).map fun j => L.items[j] := by
    intro s s' ts hts hq
    have := samePlace_at g2 hq ts hts
    clear hq hts
    generalize s'.qubits = l at this
    induction this with
    | nil => rfl
    | @cons i q ts l e _ ih =>
      rw [hat i] at e
      cases e
      simp only [List.map_cons]
      rw [ih]
  obtain ⟨U, u1, u2⟩ := template_exec (c := ⟨LT.items, S⟩) (c' := ⟨L.items, S'⟩) (ι := ι) hι S S'
    (fun s hs => by
      obtain ⟨e1, e2, e3⟩ := hg s hs
      rcases g3 s hs with g | g
      · exact ⟨g, e3⟩
      · exact absurd g.1 e2)
    (n2.imp fun s s' hs => ⟨hs.1, hs.2.1, fun ts hts => hplace s s' ts hts hs.2.2⟩)
  refine ⟨U, List.range' w.ops.length new.length, S', u1, ?_, n1, ?_, u2⟩
  · obtain ⟨D'', k1, k2⟩ := h7.circs
    rw [hD] at k1
    cases k1
    have := congrArg (fun l => (l[B]?).map Circ.ops) k2
    simp only [List.getElem?_map, List.getElem?_set_self (List.getElem?_eq_some_iff.1 hD).1, Option.map_map, Option.map_some] at this
    simp only [opsOf, hD]
    cases hB : w'.circs[B]? with
    | none => rw [hB] at this; cases this
    | some D1 =>
      rw [hB] at this
      simpa [bare] using this
  · intro s' hs'
    obtain ⟨s, hs, e1, e2, e3⟩ := forall₂_mem_right n2 hs'
    obtain ⟨k1, k2, k3⟩ := hg s hs
    refine ⟨.inr ?_, by rw [e1]; exact k2, e2⟩
    rcases k1 with k1 | ⟨k4, k5⟩
    · exact absurd k1 k2
    · refine ⟨by rw [e1, ← e3.length_eq]; exact k4, ?_⟩
      have hin : ∀ q ∈ s.qubits, q ∈ LT.items := by
        rcases g3 s hs with g | g
        · exact g.2.2.2
        · exact g.2
      obtain ⟨ts, hts⟩ := exists_targets ⟨LT.items, S⟩ s.qubits hin
      rw [hplace s s' ts hts e3]
      rw [hts] at k5
      have hi := QInv.reach (s := true) (u := true) (by simp) (h.imp fun e he => keeps_true_true e (hA e he))
      obtain ⟨L', l1, -⟩ := hi.bank D (mem_of_get? hD)
      cases Bank.shows_unique l1.shows hL
      exact ((k5.of_map _).map hι).map fun i j e => Fin.ext ((List.Nodup.getElem_inj_iff l1.nodup).1 e)

/-- C83: so if a circuit of gates is simulated before and after the call, then the second state is the first one after the template's map on the given
qubits, for both orders of the qubits. (In a context, controlled gates with parameters cannot be simulated, see `C81_context_violated`.) -/
theorem C83_simulated {A : Call ℝ → Prop} (hA : ∀ e, A e → KeepsRegisters e ∧ KeepsOperands e) {w w' : World ℝ} (h : Reach A w) {a B : Nat} {T D : Circ}
    (hT : w.circs[a]? = some T) (hD : w.circs[B]? = some D) {LT L : Layout} (hLT : Shows T.q LT) (hL : Shows D.q L) (ht : w.target = some B)
    {S SD : List SOp} (hS : List.Forall₂ (Reads w) T.ops S) (hg : ∀ s ∈ S, GoodOperands s ∧ s.kind ≠ .measurement ∧ s.cond = none)
    (hSD : List.Forall₂ (Reads w) D.ops SD) (hgD : ∀ s ∈ SD, GoodOperands s ∧ s.kind ≠ .measurement) {qs : List Nat}
    {bits : Option (List Nat)} (hcall : callCirc a qs bits w = (.ok (), w')) (hact : ¬ NeedsNoContext w' (opsOf w' B)) (h30 : L.items.length ≤ 30)
    (h1 : 1 ≤ L.items.length) {ι : Fin LT.items.length → Fin L.items.length} (hι : Function.Injective ι) (hat : ∀ i, qs[i.val]? = some L.items[ι i])
    (u : Nat → ℝ) (le : Bool) (records : Nat → Record) :
    ∃ (U : _) (ψ : State L.items.length ℂ) (mem mem' : List ℂ), MeansMap LT.items S U ∧
      (∃ r w1, simulateCirc u B le records w = (.ok (some (mem, r)), w1)) ∧ Stores le mem ψ ∧
      (∃ r w1, simulateCirc u B le records w' = (.ok (some (mem', r)), w1)) ∧ Stores le mem' (onQubits ι U ψ) := by
  obtain ⟨U, new, S', c1, c2, c3, c4, c5⟩ := (C83_call hA h hT hD hLT hL ht hS hg hcall).2 ι hι hat
  obtain ⟨_, _, _, ns, -, -, -, -, -, -, hap, -⟩ := C28_call_partial h ht hcall
  -- the circuit after the call
  obtain ⟨D', hD', hq, hops⟩ : ∃ D', w'.circs[B]? = some D' ∧ D'.q.regs = D.q.regs ∧ D'.ops = D.ops ++ new := by
    obtain ⟨D'', k1, k2⟩ := hap.circs
    rw [hD] at k1
    cases k1
    have := congrArg (fun l => l[B]?) k2
    simp only [List.getElem?_map, List.getElem?_set_self (List.getElem?_eq_some_iff.1 hD).1, Option.map_some] at this
    cases hB : w'.circs[B]? with
    | none => rw [hB] at this; cases this
    | some D1 =>
      rw [hB] at this
      simp only [Option.map_some, Option.some.injEq] at this
      refine ⟨D1, rfl, ?_, ?_⟩
      · exact congrArg (fun c => c.q.regs) this
      · simpa only [opsOf, hB, hD] using c2
  have hL' : Shows D'.q L := by
    unfold Shows
    rw [hq]
    exact hL
  have hr' : Reach (fun e => KeepsRegisters e ∧ KeepsOperands e) w' := by
    have := Reach.call (h.imp hA) (e := .call a qs bits) ⟨trivial, trivial⟩
    simp only [execCall, hcall] at this
    exact this
  have hSD' : List.Forall₂ (Reads w') D'.ops (SD ++ S') := by
    rw [hops]
    exact List.rel_append (hSD.imp fun _ _ => reads_appended hap) c3
  have hact' : ¬ NeedsNoContext w' D'.ops := by simpa only [opsOf, hD'] using hact
  have hactw : ¬ NeedsNoContext w D.ops := by
    rintro ⟨o, ho, op, k, k1, k2, k3⟩
    obtain ⟨k', g1, -, g3, -⟩ := appended_classes hap k2
    refine hact' ⟨o, by rw [hops]; simp [ho], op, k', ?_, g1, g3.trans k3⟩
    rw [hap.ops, List.getElem?_append_left (List.getElem?_eq_some_iff.1 k1).1]
    exact k1
  obtain ⟨mem, r, C1, s, e1, -, e2, e3⟩ := C81_gates hA h hD (.inr hactw) hL h1 h30 hSD hgD u le records
  obtain ⟨mem', r', C2, s', f1, -, f2, f3⟩ := C81_gates (fun _ h => h) hr' hD' (.inr hact') hL' h1 h30 hSD' (by
    intro s hs
    rcases List.mem_append.1 hs with hs | hs
    · exact hgD s hs
    · exact ⟨(c4 s hs).1, (c4 s hs).2.1⟩) u le records
  refine ⟨U, s.ψ, mem, mem', c1, ⟨r, _, e1⟩, e3, ⟨r', _, f1⟩, ?_⟩
  have hb : bitValue w' = bitValue w := by
    funext b
    unfold bitValue
    rw [hap.bits]
  rw [hb] at f2
  have hnd : L.items.Nodup := (ops_inside hA h hD hL hSD fun s hs => (hgD s hs).1).2.1
  obtain ⟨s1, x1, x2⟩ := exec_append.1 f2
  have y1 : s1 = s := exec_det (c := ⟨L.items, SD⟩) hnd (exec_congr (c := ⟨L.items, SD ++ S'⟩) (o := SD) x1) e2
  subst y1
  have y2 := exec_det (c := ⟨L.items, S'⟩) hnd (exec_congr (c := ⟨L.items, SD ++ S'⟩) (o := S') x2) (c5 u s1.ψ s1.bits s1.drawn)
  subst y2
  exact f3

/-! ## Example: a template `Hadamard(0)`, `CX(0, 1)`, called with the qubits 4 and 2 of a circuit with the qubits 2, 3, 4 -/

theorem eq_pair {α β : Type} {x : α × β} {a : α} (h : x.1 = a) : x = (a, x.2) := Prod.ext h rfl

theorem final_ok {K : Type} [DecidableEq K] [Zero K] {p : Prog K} (h : (p.run {}).1 = .ok ()) : p.run {} = (.ok (), p.final) := Prod.ext h rfl

/-- The two circuits. -/
def mapDemo : Prog ℝ :=
  .seq (.call (.newClass ⟨"Hadamard", .plain, ⟨false, some 1, none, none⟩, none⟩)) <|
  .seq (.call (.newClass ⟨"CX", .controlled, ⟨true, none, some 1, some 1⟩, none⟩)) <|
  .seq (.call (.newCirc false (some 2) none)) <|
  .seq (.call (.newCirc false (some 3) none)) <|
  .withCtx 0 <|
  .seq (.call (.construct 0 none (.qubits (some [0])))) <|
  .call (.construct 1 none (.split (some [0]) (some [1])))

/-- The context of the second circuit is open, and has a first gate. -/
def mapDemoState : World ℝ := (execCall (.construct 0 none (.qubits (some [3]))) (openCtx 1 mapDemo.final).2).2

theorem mapDemo_reach : Reach (fun e => KeepsRegisters e ∧ KeepsOperands e) mapDemoState := by
  have h1 : mapDemo.run {} = (.ok (), mapDemo.final) := final_ok (by decide +kernel)
  have h2 : openCtx 1 mapDemo.final = (.ok 1, (openCtx 1 mapDemo.final).2) := eq_pair (by decide +kernel)
  refine ⟨.seq mapDemo (.withCtx 1 (.call (.construct 0 none (.qubits (some [3]))))), ?_, ?_⟩
  · simp [mapDemo, Prog.All, KeepsRegisters, KeepsOperands]
  · exact .inr ⟨mapDemo.final, h1, .inr (.inr ⟨1, (openCtx 1 mapDemo.final).2, h2, .inl (.inr rfl)⟩)⟩

theorem mapDemo_shows : ∃ C, mapDemoState.circs[0]? = some C ∧ Shows C.q [(.str "qreg0", [0, 1])] := shows_circ Circ.q (by decide +kernel)
theorem mapDemo_shows' : ∃ C, mapDemoState.circs[1]? = some C ∧ Shows C.q [(.str "qreg0", [2, 3, 4])] := shows_circ Circ.q (by decide +kernel)

theorem mapDemo_ops : opsOf mapDemoState 0 = [0, 1] ∧ opsOf mapDemoState 1 = [2] ∧ mapDemoState.target = some 1 := by decide +kernel

theorem mapDemo_objects : (mapDemoState.ops.map fun op => (op.cls, op.qubits, op.params.length)) = [(0, some [0], 0), (1, some [0, 1], 0), (0, some [3], 0)] := by
  decide +kernel

theorem mapDemo_none : (mapDemoState.ops.map fun op => (op.cond, op.bits)) = [(none, none), (none, none), (none, none)] := by decide +kernel

theorem mapDemo_classes : (mapDemoState.classes.map fun k => (k.name, k.kind, k.ar.numControl)) =
    [("Hadamard", .plain, none), ("CX", .controlled, some 1)] := by decide +kernel

/-- The call succeeds, and three new objects exist. -/
theorem mapDemo_call : (callCirc 0 [4, 2] none mapDemoState).1 = .ok () := by decide +kernel

theorem mapDemo_after : opsOf (callCirc 0 [4, 2] none mapDemoState).2 1 = [2, 3, 4] := by decide +kernel
theorem mapDemo_kinds : ((callCirc 0 [4, 2] none mapDemoState).2.classes.map fun k => k.kind) = [.plain, .controlled] := by decide +kernel

/-- `C83_simulated` for the demo program. -/
example (u : Nat → ℝ) (le : Bool) (records : Nat → Record) : ∃ (U : State 2 ℂ → State 2 ℂ) (ψ : State 3 ℂ) (mem mem' : List ℂ),
    MeansMap [0, 1] [⟨0, .single .hadamard, [0], none, none⟩, ⟨1, .controlled 1 .x, [0, 1], none, none⟩] U ∧
    (∃ r w1, simulateCirc u 1 le records mapDemoState = (.ok (some (mem, r)), w1)) ∧ Stores le mem ψ ∧
    (∃ r w1, simulateCirc u 1 le records (callCirc 0 [4, 2] none mapDemoState).2 = (.ok (some (mem', r)), w1)) ∧
    Stores le mem' (onQubits ![2, 0] U ψ) := by
  obtain ⟨T, hT, hLT⟩ := mapDemo_shows
  obtain ⟨D, hD, hL⟩ := mapDemo_shows'
  have hTo : T.ops = [0, 1] := by simpa only [opsOf, hT] using mapDemo_ops.1
  have hDo : D.ops = [2] := by simpa only [opsOf, hD] using mapDemo_ops.2.1
  have h1 := mapDemo_objects
  have h2 := mapDemo_none
  have h3 := mapDemo_classes
  match hops : mapDemoState.ops, hcl : mapDemoState.classes with
  | [o0, o1, o2], [k0, k1] =>
    rw [hops] at h1 h2
    rw [hcl] at h3
    simp only [List.map_cons, List.map_nil, List.cons.injEq, Prod.mk.injEq, and_true] at h1 h2 h3
    obtain ⟨⟨a1, a2, a3⟩, ⟨b1, b2, b3⟩, c1, c2, c3⟩ := h1
    obtain ⟨⟨a4, a5⟩, ⟨b4, b5⟩, c4, c5⟩ := h2
    obtain ⟨⟨k01, k02, k03⟩, k11, k12, k13⟩ := h3
    have r0 : Reads mapDemoState 0 ⟨0, .single .hadamard, [0], none, none⟩ :=
      ⟨o0, k0, by rw [hops]; rfl, by rw [hcl, a1]; rfl, rfl, a2, a4.symm, a5.symm, .inr ⟨[], List.length_eq_zero_iff.1 a3, by rw [k01, k02]; exact .hadamard, by rw [k02]; simp⟩⟩
    have r1 : Reads mapDemoState 1 ⟨1, .controlled 1 .x, [0, 1], none, none⟩ :=
      ⟨o1, k1, by rw [hops]; rfl, by rw [hcl, b1]; rfl, rfl, b2, b4.symm, b5.symm, .inr ⟨[], List.length_eq_zero_iff.1 b3, by rw [k11, k12]; exact .cx, fun _ => k13⟩⟩
    have r2 : Reads mapDemoState 2 ⟨2, .single .hadamard, [3], none, none⟩ :=
      ⟨o2, k0, by rw [hops]; rfl, by rw [hcl, c1]; rfl, rfl, c2, c4.symm, c5.symm, .inr ⟨[], List.length_eq_zero_iff.1 c3, by rw [k01, k02]; exact .hadamard, by rw [k02]; simp⟩⟩
    refine C83_simulated (fun e he => he) mapDemo_reach hT hD hLT hL mapDemo_ops.2.2 (qs := [4, 2]) (bits := none) (by rw [hTo]; exact .cons r0 (.cons r1 .nil))
      (by simp [GoodOperands, arity]) (SD := [⟨2, .single .hadamard, [3], none, none⟩]) (by rw [hDo]; exact .cons r2 .nil) (by simp [GoodOperands, arity])
      (eq_pair mapDemo_call) ?_ (by decide) (by decide) (ι := (![2, 0] : Fin 2 → Fin 3)) (show Function.Injective (![2, 0] : Fin 2 → Fin 3) by decide)
      (show ∀ i : Fin 2, [4, 2][i.val]? = some ([2, 3, 4][(![2, 0] : Fin 2 → Fin 3) i]) by decide) u le records
    rintro ⟨o, -, op, k, -, g2, g3⟩
    have := congrArg (fun l => l[op.cls]?) mapDemo_kinds
    simp only [List.getElem?_map, g2, Option.map_some, g3] at this
    have hm := List.mem_of_getElem? this.symm
    simp at hm
  | [], _ => rw [hops] at h1; cases h1
  | [_], _ => rw [hops] at h1; simp at h1
  | [_, _], _ => rw [hops] at h1; simp at h1
  | _ :: _ :: _ :: _ :: _, _ => rw [hops] at h1; simp at h1
  | [_, _, _], [] => rw [hcl] at h3; cases h3
  | [_, _, _], [_] => rw [hcl] at h3; simp at h3
  | [_, _, _], _ :: _ :: _ :: _ => rw [hcl] at h3; simp at h3

end DG.Props
