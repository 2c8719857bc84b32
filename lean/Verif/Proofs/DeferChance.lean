import Verif.Proofs.Defer
import Verif.Proofs.Branches

/-! Lemmas for C112: probabilities. -/

noncomputable section

namespace DG
open Complex Sim Spec

open Classical in
/-- The sum over the courses of one operation. -/
def one (c : SCircuit) (op : SOp) (G : State c.qubits.length ℂ → (Nat → Option Bool) → ℝ) (ψ : State c.qubits.length ℂ) (bits : Nat → Option Bool) : ℝ :=
  if Blocked op bits then G ψ bits
  else if h : ∃ ts : List (Fin c.qubits.length), op.kind = .measurement ∧ op.qubits = ts.map (qubitAt c) then
    ((allRows h.choose.length).map fun ms => G (restrict h.choose ms ψ) (writeBits bits ((op.bits.getD []).zip ms))).sum
  else if h : ∃ f : State c.qubits.length ℂ → State c.qubits.length ℂ, ∃ ts : List (Fin c.qubits.length), op.qubits = ts.map (qubitAt c) ∧ GateAct op.kind ts f then
    G (h.choose ψ) bits
  else 0

/-- The sum over the courses of a sequence of operations. -/
def tot (c : SCircuit) (G : State c.qubits.length ℂ → (Nat → Option Bool) → ℝ) : List SOp → State c.qubits.length ℂ → (Nat → Option Bool) → ℝ
  | [] => G
  | op :: ops => one c op (tot c G ops)

variable {c : SCircuit} {G : State c.qubits.length ℂ → (Nat → Option Bool) → ℝ}

theorem one_blocked {op : SOp} {ψ : State c.qubits.length ℂ} {bits : Nat → Option Bool} (h : Blocked op bits) : one c op G ψ bits = G ψ bits := by
  unfold one
  rw [if_pos h]

theorem one_measure (hnd : c.qubits.Nodup) {op : SOp} {ψ : State c.qubits.length ℂ} {bits : Nat → Option Bool} (h : ¬ Blocked op bits) (hk : op.kind = .measurement)
    {ts : List (Fin c.qubits.length)} (ht : op.qubits = ts.map (qubitAt c)) :
    one c op G ψ bits = ((allRows ts.length).map fun ms => G (restrict ts ms ψ) (writeBits bits ((op.bits.getD []).zip ms))).sum := by
  unfold one
  have hx : ∃ ts : List (Fin c.qubits.length), op.kind = .measurement ∧ op.qubits = ts.map (qubitAt c) := ⟨ts, hk, ht⟩
  rw [if_neg h, dif_pos hx]
  have : hx.choose = ts := map_qubitAt_inj hnd (hx.choose_spec.2.symm.trans ht)
  rw [this]

theorem one_gate (hnd : c.qubits.Nodup) {op : SOp} {ψ : State c.qubits.length ℂ} {bits : Nat → Option Bool} (h : ¬ Blocked op bits)
    {ts : List (Fin c.qubits.length)} {f : State c.qubits.length ℂ → State c.qubits.length ℂ} (ht : op.qubits = ts.map (qubitAt c)) (hf : GateAct op.kind ts f) :
    one c op G ψ bits = G (f ψ) bits := by
  unfold one
  have hx : ∃ f : State c.qubits.length ℂ → State c.qubits.length ℂ, ∃ ts : List (Fin c.qubits.length), op.qubits = ts.map (qubitAt c) ∧ GateAct op.kind ts f :=
    ⟨f, ts, ht, hf⟩
  rw [if_neg h, dif_neg (by rintro ⟨_, hk, -⟩; rw [hk] at hf; cases hf), dif_pos hx]
  obtain ⟨ts', h1, h2⟩ := hx.choose_spec
  have : ts' = ts := map_qubitAt_inj hnd (h1.symm.trans ht)
  subst this
  rw [gateAct_det h2 hf]

theorem sum_flatMap_map {α β : Type} (l : List α) (g : α → List β) (F : β → ℝ) : ((l.flatMap g).map F).sum = (l.map fun a => ((g a).map F).sum).sum := by
  induction l with
  | nil => rfl
  | cons a l ih => simp [ih]

theorem tot_branches (hnd : c.qubits.Nodup) {ops : List SOp} {bits : Nat → Option Bool} {L : List (Branch c.qubits.length)} (h : Branches c ops bits L) :
    ∀ ψ, tot c G ops ψ bits = (L.map fun b => G (b.act ψ) (writeBits bits b.writes)).sum := by
  induction h with
  | nil => intro ψ; simp [tot, writeBits]
  | blocked hb _ ih => intro ψ; rw [tot, one_blocked hb, ih]
  | gate hn ht hf _ ih =>
    intro ψ
    rw [tot, one_gate hnd hn ht hf, ih, List.map_map]
    rfl
  | measure hn hk ht _ ih =>
    intro ψ
    rw [tot, one_measure hnd hn hk ht, sum_flatMap_map]
    congr 1
    refine List.map_congr_left fun ms hms => ?_
    rw [ih ms (mem_allRows.1 hms), List.map_map]
    congr 1
    refine List.map_congr_left fun b _ => ?_
    simp only [Function.comp_apply]
    rw [writeBits_append]

theorem tot_append : ∀ (a b : List SOp), tot c G (a ++ b) = tot c (tot c G b) a
  | [], _ => rfl
  | op :: a, b => by simp only [List.cons_append, tot, tot_append a b]

/-! ## Exchanging operations -/

theorem writeBits_at : ∀ (l : List (Nat × Bool)) (v v' : Nat → Option Bool) (b : Nat), v b = v' b → writeBits v l b = writeBits v' l b
  | [], _, _, _, h => h
  | (a, m) :: l, v, v', b, h => by
    refine writeBits_at l _ _ b ?_
    by_cases e : b = a
    · subst e; simp
    · rw [Function.update_of_ne e, Function.update_of_ne e, h]

theorem writeBits_comm (v : Nat → Option Bool) (l l' : List (Nat × Bool)) (h : ∀ p ∈ l, ∀ p' ∈ l', p.1 ≠ p'.1) :
    writeBits (writeBits v l) l' = writeBits (writeBits v l') l := by
  funext b
  by_cases hb : ∃ p ∈ l, p.1 = b
  · obtain ⟨p, hp, rfl⟩ := hb
    rw [writeBits_other l' _ _ fun p' hp' e => h p hp p' hp' e.symm]
    exact writeBits_at l _ _ _ (writeBits_other l' _ _ fun p' hp' e => h p hp p' hp' e.symm).symm
  · rw [writeBits_other l (writeBits v l') b fun p hp e => hb ⟨p, hp, e⟩]
    exact writeBits_at l' _ _ _ (writeBits_other l _ b fun p hp e => hb ⟨p, hp, e⟩)

theorem restrict_comm {n : Nat} (ts ts' : List (Fin n)) (ms ms' : List Bool) (ψ : State n ℂ) : restrict ts ms (restrict ts' ms' ψ) = restrict ts' ms' (restrict ts ms ψ) := by
  funext x
  unfold restrict
  split <;> split <;> rfl

theorem restrict_gate {n : Nat} {k : Kind} {ts qs : List (Fin n)} {f : State n ℂ → State n ℂ} (hf : GateAct k ts f) (hd : ∀ t ∈ qs, t ∉ ts) (ms : List Bool)
    (ψ : State n ℂ) : restrict qs ms (f ψ) = f (restrict qs ms ψ) := by
  have e : Ignores ts fun x : Basis n => if qs.map x = ms then (1 : ℂ) else 0 := by
    intro x y h
    dsimp only
    rw [List.map_congr_left fun t ht => h t (hd t ht)]
  have e2 : ∀ φ : State n ℂ, restrict qs ms φ = fun x => (if qs.map x = ms then (1 : ℂ) else 0) * φ x := by
    intro φ
    funext x
    unfold restrict
    split <;> simp
  rw [e2, e2, gateAct_ignores hf e]

theorem blocked_write {a b : SOp} (h : ∀ bs, a.bits = some bs → ∀ x ∈ bs, ∀ bs', b.cond = some bs' → x ∉ bs') (v : Nat → Option Bool) (ms : List Bool) :
    Blocked b (writeBits v ((a.bits.getD []).zip ms)) ↔ Blocked b v := by
  refine blocked_other fun bs hbs x hx => writeBits_other _ _ _ fun p hp e => ?_
  have hpm := (List.of_mem_zip hp).1
  cases hmb : a.bits with
  | none => rw [hmb] at hpm; simp at hpm
  | some bs' =>
    rw [hmb] at hpm
    exact h bs' hmb p.1 hpm bs hbs (by rw [e]; exact hx)

theorem sum_swap {α β : Type} (l : List α) (l' : List β) (F : α → β → ℝ) :
    (l.map fun a => (l'.map fun b => F a b).sum).sum = (l'.map fun b => (l.map fun a => F a b).sum).sum := by
  induction l with
  | nil => simp
  | cons a l ih => simp [ih, List.sum_map_add]

theorem one_comm (hnd : c.qubits.Nodup) {m op : SOp} (hm : MeasureOp c m) (hop : GateOp c op ∨ MeasureOp c op) (hq : ∀ q ∈ op.qubits, q ∉ m.qubits)
    (h1 : ∀ bs, m.bits = some bs → ∀ x ∈ bs, ∀ bs', op.cond = some bs' → x ∉ bs')
    (h2 : op.kind = .measurement → ∀ bs, op.bits = some bs → ∀ x ∈ bs, (∀ bs', m.cond = some bs' → x ∉ bs') ∧ ∀ bs', m.bits = some bs' → x ∉ bs')
    (ψ : State c.qubits.length ℂ) (bits : Nat → Option Bool) : one c m (one c op G) ψ bits = one c op (one c m G) ψ bits := by
  obtain ⟨ts, ht⟩ := exists_targets c m.qubits hm.2
  by_cases bm : Blocked m bits
  · rw [one_blocked bm]
    by_cases bo : Blocked op bits
    · rw [one_blocked bo, one_blocked bo, one_blocked bm]
    · rcases hop with hop | hop
      · obtain ⟨ts', f, e1, e2⟩ := gateAct_exists hop
        rw [one_gate hnd bo e1 e2, one_gate hnd bo e1 e2, one_blocked bm]
      · obtain ⟨ts', ht'⟩ := exists_targets c op.qubits hop.2
        rw [one_measure hnd bo hop.1 ht', one_measure hnd bo hop.1 ht']
        congr 1
        refine List.map_congr_left fun ms _ => ?_
        rw [one_blocked ((blocked_write (fun bs hbs x hx => (h2 hop.1 bs hbs x hx).1) bits ms).2 bm)]
  · rw [one_measure hnd bm hm.1 ht]
    by_cases bo : Blocked op bits
    · rw [one_blocked bo, one_measure hnd bm hm.1 ht]
      congr 1
      refine List.map_congr_left fun ms _ => ?_
      rw [one_blocked ((blocked_write h1 bits ms).2 bo)]
    · rcases hop with hop | hop
      · obtain ⟨ts', f, e1, e2⟩ := gateAct_exists hop
        rw [one_gate hnd bo e1 e2, one_measure hnd bm hm.1 ht]
        congr 1
        refine List.map_congr_left fun ms _ => ?_
        have hd : ∀ t ∈ ts, t ∉ ts' := fun t h h' => hq (qubitAt c t) (by rw [e1]; exact List.mem_map_of_mem h') (by rw [ht]; exact List.mem_map_of_mem h)
        rw [one_gate hnd (fun h => bo ((blocked_write h1 bits ms).1 h)) e1 e2, restrict_gate e2 hd]
      · obtain ⟨ts', ht'⟩ := exists_targets c op.qubits hop.2
        rw [one_measure hnd bo hop.1 ht']
        have e1 : ∀ ms, one c op G (restrict ts ms ψ) (writeBits bits ((m.bits.getD []).zip ms)) =
            ((allRows ts'.length).map fun ms' => G (restrict ts' ms' (restrict ts ms ψ))
              (writeBits (writeBits bits ((m.bits.getD []).zip ms)) ((op.bits.getD []).zip ms'))).sum := fun ms =>
          one_measure hnd (fun h => bo ((blocked_write h1 bits ms).1 h)) hop.1 ht'
        have e2 : ∀ ms', one c m G (restrict ts' ms' ψ) (writeBits bits ((op.bits.getD []).zip ms')) =
            ((allRows ts.length).map fun ms => G (restrict ts ms (restrict ts' ms' ψ))
              (writeBits (writeBits bits ((op.bits.getD []).zip ms')) ((m.bits.getD []).zip ms))).sum := fun ms' =>
          one_measure hnd (fun h => bm ((blocked_write (fun bs hbs x hx => (h2 hop.1 bs hbs x hx).1) bits ms').1 h)) hm.1 ht
        simp only [e1, e2]
        rw [sum_swap]
        congr 1
        refine List.map_congr_left fun ms' _ => ?_
        congr 1
        refine List.map_congr_left fun ms _ => ?_
        rw [restrict_comm, writeBits_comm]
        intro p hp p' hp' e
        have a1 := (List.of_mem_zip hp).1
        have a2 := (List.of_mem_zip hp').1
        cases hmb : m.bits with
        | none => rw [hmb] at a1; simp at a1
        | some bs =>
          cases hob : op.bits with
          | none => rw [hob] at a2; simp at a2
          | some bs' =>
            rw [hmb] at a1
            rw [hob] at a2
            exact (h2 hop.1 bs' hob p'.1 a2).2 bs hmb (by rw [← e]; exact a1)

theorem tot_comm (hnd : c.qubits.Nodup) {m : SOp} (hm : MeasureOp c m) : ∀ (ops : List SOp), (∀ op ∈ ops, (GateOp c op ∨ MeasureOp c op) ∧ (∀ q ∈ op.qubits, q ∉ m.qubits) ∧
    (∀ bs, m.bits = some bs → ∀ x ∈ bs, ∀ bs', op.cond = some bs' → x ∉ bs') ∧
    (op.kind = .measurement → ∀ bs, op.bits = some bs → ∀ x ∈ bs, (∀ bs', m.cond = some bs' → x ∉ bs') ∧ ∀ bs', m.bits = some bs' → x ∉ bs')) →
    tot c G (m :: ops) = tot c G (ops ++ [m])
  | [], _ => rfl
  | op :: ops, h => by
    obtain ⟨g1, g2, g3, g4⟩ := h op (by simp)
    have ih := tot_comm hnd hm ops fun o ho => h o (by simp [ho])
    show one c m (one c op (tot c G ops)) = one c op (tot c G (ops ++ [m]))
    rw [← ih]
    funext ψ bits
    exact one_comm hnd hm g1 g2 g3 g4 ψ bits

end DG
