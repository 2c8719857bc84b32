import Verif.Proofs.Custom

/-! Lemmas for C73 and C74: controlled gates whose control is the target. -/

noncomputable section

namespace DG
open Complex Sim Kernel Spec

variable {n : Nat}

/-- Entry `i` multiplied by `z`. -/
def scaleAt (z : ℂ) (mem : List ℂ) (i : Nat) : List ℂ := mem.set i (z * mem.getD i 0)

theorem scaleAt_length (z : ℂ) (mem : List ℂ) (i : Nat) : (scaleAt z mem i).length = mem.length := by simp [scaleAt]

theorem scaleAt_one {mem : List ℂ} {i : Nat} : scaleAt 1 mem i = mem := by
  unfold scaleAt
  refine List.ext_getElem? fun j => ?_
  by_cases h : i = j
  · subst h
    by_cases hi : i < mem.length
    · simp [hi]
    · simp [hi]
  · rw [List.getElem?_set_ne h]

theorem scaleAll_one (mem : List ℂ) (idx : List Nat) : idx.foldl (scaleAt 1) mem = mem := by
  induction idx with
  | nil => rfl
  | cons i idx ih => rw [List.foldl_cons, scaleAt_one, ih]

theorem control_instructions : (gateControl : OpSpec ℂ).instructions = [(0, [(0, .var 0 0), (1, .var 0 1)]), (1, [(0, .var 1 0), (1, .var 1 1)])] := by
  simp [OpSpec.instructions, gateControl, compileGate, OpSpec.size, List.range_succ, Entry.nonzero, Entry.isOne]

/-- One iteration if both sub-states have the same address. -/
theorem body_same (a b c d fa : ℂ) (masks : List (BitVec 64)) (cmask : BitVec 64) {tm : Nat → Except Err (BitVec 64)} {tmv : Nat → BitVec 64}
    (htm : ∀ j, tm j = .ok (tmv j)) (acc : ℝ) (mem : List ℂ) (pb : BitVec 64) (hs : ∀ j, template masks cmask pb ||| tmv j = template masks cmask pb)
    (hl : (template masks cmask pb).toNat < mem.length) :
    body gateControl Complex.normSq [a, b, c, d] fa masks cmask tm (acc, mem) pb = .ok (acc, scaleAt (c + d) mem (template masks cmask pb).toNat) := by
  have hload : load mem (template masks cmask pb) = .ok (mem.getD (template masks cmask pb).toNat 0) := by
    unfold load
    rw [List.getElem?_eq_getElem hl]
    simp [hl]
  have hd : dependents (gateControl : OpSpec ℂ).size (gateControl : OpSpec ℂ).instructions = [0, 1] := by
    rw [control_instructions]
    rfl
  have hst : ∀ (m : List ℂ) (v : ℂ), m.length = mem.length → store m (template masks cmask pb) v = .ok (m.set (template masks cmask pb).toNat v) := by
    intro m v h
    unfold store
    rw [if_pos (by omega)]
  unfold body
  rw [hd, control_instructions]
  simp only [List.mapM_cons, List.mapM_nil, htm, hs, hload, bind, Except.bind, pure, Except.pure, ampResult, term, PyDict.get?, Entry.isOne, Entry.value, OpSpec.size,
    gateControl]
  simp [sumTerms, hst, bind, Except.bind, scaleAt]
  ring_nf
  rfl

/-- The index that is read and written in iteration `k` if control and target are at position `p`. -/
def sameIndex (p k : Nat) : Nat := k / 2 ^ p * 2 ^ (p + 2) + 2 ^ p + k % 2 ^ p

theorem insZ_eq (p t : Nat) : insZ p t = t / 2 ^ p * 2 ^ (p + 1) + t % 2 ^ p := by
  unfold insZ
  have h : t % 2 ^ p < 2 ^ (p + 1) := lt_trans (Nat.mod_lt _ (Nat.two_pow_pos p)) (Nat.pow_lt_pow_right (by omega) (by omega))
  rw [Nat.shiftRight_eq_div_pow, ← Nat.shiftLeft_add_eq_or_of_lt h, Nat.shiftLeft_eq]

theorem tmplN_same (p k : Nat) : tmplN [p, p] k ||| 2 ^ p = sameIndex p k := by
  have hp := Nat.two_pow_pos p
  have h1 : k % 2 ^ p < 2 ^ p := Nat.mod_lt _ hp
  show insZ p (insZ p k) ||| 2 ^ p = _
  rw [insZ_eq p (insZ p k), insZ_eq p k]
  have e1 : (k / 2 ^ p * 2 ^ (p + 1) + k % 2 ^ p) / 2 ^ p = k / 2 ^ p * 2 := by
    rw [pow_succ, show k / 2 ^ p * (2 ^ p * 2) + k % 2 ^ p = k % 2 ^ p + 2 ^ p * (k / 2 ^ p * 2) by ring, Nat.add_mul_div_left _ _ hp, Nat.div_eq_of_lt h1, zero_add]
  have e2 : (k / 2 ^ p * 2 ^ (p + 1) + k % 2 ^ p) % 2 ^ p = k % 2 ^ p := by
    rw [pow_succ, show k / 2 ^ p * (2 ^ p * 2) + k % 2 ^ p = k % 2 ^ p + 2 ^ p * (k / 2 ^ p * 2) by ring, Nat.add_mul_mod_self_left, Nat.mod_mod]
  rw [e1, e2]
  have e3 : k / 2 ^ p * 2 * 2 ^ (p + 1) + k % 2 ^ p = ((k / 2 ^ p * 2) <<< (p + 1)) ||| k % 2 ^ p := by
    rw [← Nat.shiftLeft_add_eq_or_of_lt (lt_trans h1 (Nat.pow_lt_pow_right (by omega) (by omega))), Nat.shiftLeft_eq]
  have e4 : 2 ^ p + k % 2 ^ p = 2 ^ p ||| k % 2 ^ p := Nat.two_pow_add_eq_or_of_lt h1 1 |> fun h => by simpa using h
  rw [e3, Nat.or_assoc, Nat.or_comm (k % 2 ^ p), ← e4, ← Nat.shiftLeft_add_eq_or_of_lt (by rw [pow_succ]; omega), Nat.shiftLeft_eq]
  unfold sameIndex
  ring

/-- The kernel with equal control and target. -/
theorem run_same (le : Bool) (hn : n ≤ 30) {q : Nat} (hq : q < n) (a b c d : ℂ) (mem : List ℂ) (hm : mem.length = 2 ^ n) :
    run gateControl Complex.normSq le (BitVec.ofNat 64 n) mem [a, b, c, d] ([q].map (BitVec.ofNat 64)) ([q].map (BitVec.ofNat 64)) 1 =
      .ok (0, ((List.range (2 ^ n / 4)).map (sameIndex (pos le n q))).foldl (scaleAt (c + d)) mem) := by
  have hlt : ∀ x ∈ [q] ++ [q], x < n := by simp [hq]
  obtain ⟨ps, hperm, -, hpn, hs, htm⟩ := setup_safe (gateControl : OpSpec ℂ) le hn [q] [q] hlt rfl rfl [a, b, c, d]
    (fun _ => by simp [OpSpec.size, gateControl])
  set p := pos le n q with hp
  have hpn' : p < n := pos_lt hq
  have hps : ps = [p, p] := by
    have : ps = List.replicate 2 p := List.eq_replicate_iff.2 ⟨by rw [hperm.length_eq]; rfl, fun x hx => by
      have := hperm.mem_iff.1 hx
      simpa using this⟩
    exact this
  subst hps
  have hpow : (2 : Nat) ^ n < 2 ^ 64 := Nat.pow_lt_pow_right (by omega) (by omega)
  have hc : cmaskN [p] = 2 ^ p := by simp [cmaskN]
  have ht : ∀ j, tmaskN [p] j = 0 ∨ tmaskN [p] j = 2 ^ p := by
    intro j
    have : tmaskN [p] j = bit j 0 * 2 ^ p := by simp [tmaskN]
    rw [this]
    have hb := bit_le j 0
    interval_cases bit j 0 <;> simp
  unfold run runOrder
  rw [hs]
  simp only [bind, Except.bind, id_eq]
  unfold iterations
  have e4 : 2 ^ n >>> ([q].length + [q].length) = 2 ^ n / 4 := by
    rw [Nat.shiftRight_eq_div_pow]
    rfl
  rw [e4, toNat_ofNat_lt (lt_of_le_of_lt (Nat.div_le_self _ _) hpow)]
  have key : ∀ (l : List Nat), (∀ k ∈ l, k < 2 ^ n / 4) → ∀ (m : List ℂ), m.length = 2 ^ n →
      (l.map (BitVec.ofNat 64)).foldlM (body gateControl Complex.normSq [a, b, c, d] 1 ([p, p].map fun p => BitVec.ofNat 64 (2 ^ p - 1))
        (BitVec.ofNat 64 (cmaskN ([q].map (pos le n)))) (targetMask (([q].map (BitVec.ofNat 64)).map (qubitIndex le (BitVec.ofNat 64 n))))) (0, m) =
      .ok (0, (l.map (sameIndex p)).foldl (scaleAt (c + d)) m) := by
    intro l
    induction l with
    | nil => intro _ m _; rfl
    | cons k l ih =>
      intro hl m hm
      have hk := hl k (by simp)
      have hn2 : 2 ≤ n := by
        by_contra h
        have : 2 ^ n ≤ 2 ^ 1 := Nat.pow_le_pow_right (by omega) (by omega)
        omega
      have hk' : k < 2 ^ (n - 2) := by
        have : 2 ^ n = 2 ^ (n - 2) * 4 := by rw [show (4 : Nat) = 2 ^ 2 by rfl, ← pow_add]; congr 1; omega
        omega
      have hk64 : k < 2 ^ 64 := by
        have := Nat.div_le_self (2 ^ n) 4
        omega
      have hsame : ∀ j, template ([p, p].map fun p => BitVec.ofNat 64 (2 ^ p - 1)) (BitVec.ofNat 64 (cmaskN [p])) (BitVec.ofNat 64 k) ||| BitVec.ofNat 64 (tmaskN [p] j) =
          template ([p, p].map fun p => BitVec.ofNat 64 (2 ^ p - 1)) (BitVec.ofNat 64 (cmaskN [p])) (BitVec.ofNat 64 k) := by
        intro j
        unfold template
        rw [hc, BitVec.or_assoc]
        congr 1
        rcases ht j with h | h <;> rw [h] <;> simp
      have haddr : (template ([p, p].map fun p => BitVec.ofNat 64 (2 ^ p - 1)) (BitVec.ofNat 64 (cmaskN [p])) (BitVec.ofNat 64 k)).toNat = sameIndex p k := by
        unfold template
        rw [BitVec.toNat_or, hc, toNat_ofNat_lt (lt_trans (Nat.pow_lt_pow_right (by omega) hpn') hpow),
          template_fold_toNat [p, p] _ (n - 2) (by simp; omega) (by rw [toNat_ofNat_lt hk64]; exact hk') (by simp; omega), toNat_ofNat_lt hk64, tmplN_same]
      have hlt2 : (template ([p, p].map fun p => BitVec.ofNat 64 (2 ^ p - 1)) (BitVec.ofNat 64 (cmaskN [p])) (BitVec.ofNat 64 k)).toNat < m.length := by
        have := address_lt hn (ps := [p, p]) (ts := [p]) (cs := [p]) (by simp [hpn']) (by simp [hpn']) (by simp [hpn']) (by simpa using hn2) (pb := k)
          (by simpa using hk') 0
        rw [hsame 0] at this
        omega
      rw [List.map_cons (a := k) (l := l), List.map_cons (a := k) (l := l), List.foldlM_cons]
      have := body_same a b c d 1 _ _ htm 0 m (BitVec.ofNat 64 k) hsame hlt2
      rw [haddr] at this
      rw [show ([q].map (pos le n)) = [p] from rfl, this, ok_bind, List.foldl_cons]
      exact ih (fun k hk => hl k (by simp [hk])) _ (by rw [scaleAt_length, hm])
  exact key _ (fun k hk => List.mem_range.1 hk) mem hm

/-! ## Any operands -/

/-- A kernel call with operands below the number of qubits, repeated or not, succeeds. -/
theorem callKernel_accepts (op : OpSpec ℂ) (le : Bool) (hn : n ≤ 30) (tq cq : List Nat) (hlt : ∀ q ∈ tq ++ cq, q < n) (ht : op.numTargets = tq.length)
    (hc : op.numControls = cq.length) (gate : List ℂ) (hgl : op.precompiled = none → op.size * op.size ≤ gate.length) (mem : List ℂ) (hm : mem.length = 2 ^ n) :
    ∃ mem', callKernel op le n mem gate tq cq = .ok mem' ∧ mem'.length = 2 ^ n := by
  obtain ⟨r, h1, h2⟩ := run_safe op Complex.normSq le hn tq cq hlt ht hc gate hgl 1 mem hm
  refine ⟨r.2, ?_, h2.trans hm⟩
  unfold callKernel
  rw [h1]
  rfl

/-- No library gate is refused because of its operands. -/
theorem apply_accepts (hn : n ≤ 30) (u : Nat → ℝ) (op : SOp) (hs : Supported op.kind) (ts : List Nat) (hl : ts.length = arity op.kind) (hlt : ∀ t ∈ ts, t < n)
    (le conj : Bool) (w : World) (hm : w.mem.length = 2 ^ n) :
    ∃ mem', applyInstruction u n op ts le conj w = .ok { w with mem := mem' } ∧ mem'.length = 2 ^ n := by
  unfold applyInstruction
  by_cases hb : isBlocked op w.bits = true
  · rw [if_pos hb]
    exact ⟨w.mem, rfl, hm⟩
  rw [if_neg hb]
  generalize op.kind = k at *
  have sz : ∀ o : OpSpec ℂ, o.numTargets = 1 → ∀ x y z t : ℂ, o.precompiled = none → o.size * o.size ≤ [x, y, z, t].length := by
    intro o ho x y z t _
    simp [OpSpec.size, ho]
  cases k with
  | single b =>
    obtain ⟨a, ha, h1, h2, -⟩ := library_cols hs
    match ts, hl with
    | [t], _ =>
      obtain ⟨mem', e, e'⟩ := callKernel_accepts singleQubit le hn [t] [] (by simpa using hlt) rfl rfl
        [(conjIf conj a).e00, (conjIf conj a).e01, (conjIf conj a).e10, (conjIf conj a).e11] (sz _ rfl _ _ _ _) w.mem hm
      refine ⟨mem', ?_, e'⟩
      simp only [gateArray_ok ha h1 h2, ok_bind, item0, e]
      rfl
  | controlled nc b =>
    obtain ⟨rfl, hlib⟩ := hs
    obtain ⟨a, ha, h1, h2, -⟩ := library_cols hlib
    match ts, hl with
    | [c, t], _ =>
      obtain ⟨mem', e, e'⟩ := callKernel_accepts gateControl le hn [t] [c] (by simp at hlt ⊢; omega) rfl rfl
        [(conjIf conj a).e00, (conjIf conj a).e01, (conjIf conj a).e10, (conjIf conj a).e11] (sz _ rfl _ _ _ _) w.mem hm
      refine ⟨mem', ?_, e'⟩
      simp only [gateArray_ok ha h1 h2, ok_bind, item0, item1, if_true, e]
      rfl
  | swap =>
    match ts, hl with
    | [a, b], _ =>
      obtain ⟨mem', e, e'⟩ := callKernel_accepts swapOp le hn [b, a] [] (by simp at hlt ⊢; omega) rfl rfl [] (by simp [swapOp]) w.mem hm
      refine ⟨mem', ?_, e'⟩
      simp only [ok_bind, item0, item1, e]
      rfl
  | cswap =>
    match ts, hl with
    | [c, a, b], _ =>
      obtain ⟨mem', e, e'⟩ := callKernel_accepts cswapOp le hn [a, b] [c] (by simp at hlt ⊢; omega) rfl rfl [] (by simp [cswapOp]) w.mem hm
      refine ⟨mem', ?_, e'⟩
      simp only [ok_bind, item0, item1, item2, e]
      rfl
  | ccx =>
    match ts, hl with
    | [c, d, t], _ =>
      obtain ⟨mem', e, e'⟩ := callKernel_accepts gateTwoControl le hn [t] [c, d] (by simp at hlt ⊢; omega) rfl rfl [0, 1, 1, 0] (sz _ rfl _ _ _ _) w.mem hm
      refine ⟨mem', ?_, e'⟩
      simp only [ok_bind, item0, item1, item2, e]
      rfl
  | measurement => exact hs.elim
  | barrier => exact hs.elim
  | «opaque» => exact hs.elim

/-! ## Swaps of a qubit with itself -/

theorem set_back {m : List ℂ} {i : Nat} {v : ℂ} (h : m[i]? = some v) : m.set i v = m := by
  refine List.ext_getElem? fun j => ?_
  by_cases hj : i = j
  · subst hj
    have : i < m.length := by
      by_contra hc
      rw [List.getElem?_eq_none (by omega)] at h
      simp at h
    rw [h]
    simp [this]
  · rw [List.getElem?_set_ne hj]

/-- One iteration of a (controlled) swap if the two sub-states that are exchanged have the same address. -/
theorem body_swap_same (op : OpSpec ℂ) (hop : op = swapOp ∨ op = cswapOp) (gate : List ℂ) (fa : ℂ) (masks : List (BitVec 64)) (cmask : BitVec 64)
    {tm : Nat → Except Err (BitVec 64)} (htm : tm 1 = tm 2) (s : ℝ × List ℂ) (pb : BitVec 64) {r : ℝ × List ℂ}
    (h : body op Complex.normSq gate fa masks cmask tm s pb = .ok r) : r = s := by
  have hi : op.instructions = [(1, [(2, .num 1)]), (2, [(1, .num 1)])] := by
    rcases hop with rfl | rfl <;>
      simp [OpSpec.instructions, swapOp, cswapOp, compileGate, OpSpec.size, List.range_succ, Entry.nonzero, Entry.isOne, swapMatrix]
  have hsz : op.size = 4 := by rcases hop with rfl | rfl <;> rfl
  have hd : dependents op.size op.instructions = [1, 2] := by
    rw [hi, hsz]
    rfl
  have hc : op.collectNorm = false := by rcases hop with rfl | rfl <;> rfl
  have hsc : op.scale = false := by rcases hop with rfl | rfl <;> rfl
  unfold body at h
  rw [hd, hi, hc] at h
  simp only [List.mapM_cons, List.mapM_nil, ampResult, hsc] at h
  rw [← htm] at h
  rcases e : tm 1 with _ | m
  · rw [e] at h
    simp [bind, Except.bind] at h
  rw [e] at h
  rcases e2 : load s.2 (template masks cmask pb ||| m) with _ | v
  · simp [bind, Except.bind, e2] at h
  have hv : s.2[(template masks cmask pb ||| m).toNat]? = some v := by
    unfold load at e2
    split at e2
    · cases e2
      assumption
    · cases e2
  have hlt : (template masks cmask pb ||| m).toNat < s.2.length := by
    by_contra hc
    rw [List.getElem?_eq_none (by omega)] at hv
    simp at hv
  have hst : store s.2 (template masks cmask pb ||| m) v = .ok s.2 := by
    unfold store
    rw [if_pos hlt, set_back hv]
  simp [bind, Except.bind, pure, Except.pure, e2, term, PyDict.get?, Entry.isOne, sumTerms, e, ← htm, hst] at h
  exact h.symm

/-- A (controlled) swap of a qubit with itself leaves the memory as it is. -/
theorem callKernel_swap_same (op : OpSpec ℂ) (hop : op = swapOp ∨ op = cswapOp) (le : Bool) (hn : n ≤ 30) (q : Nat) (cq : List Nat) (hlt : ∀ x ∈ q :: cq, x < n)
    (hc : op.numControls = cq.length) (mem : List ℂ) (hm : mem.length = 2 ^ n) : callKernel op le n mem [] [q, q] cq = .ok mem := by
  have ht : op.numTargets = [q, q].length := by rcases hop with rfl | rfl <;> rfl
  have hp : op.precompiled = none → op.size * op.size ≤ ([] : List ℂ).length := by rcases hop with rfl | rfl <;> simp [swapOp, cswapOp]
  have hlt' : ∀ x ∈ [q, q] ++ cq, x < n := by
    intro x hx
    exact hlt x (by simpa using hx)
  obtain ⟨r, h1, -⟩ := run_safe op Complex.normSq le hn [q, q] cq hlt' ht hc [] hp 1 mem hm
  obtain ⟨ps, -, -, -, hs, htm⟩ := setup_safe op le hn [q, q] cq hlt' ht hc [] hp
  have htm12 : targetMask (([q, q].map (BitVec.ofNat 64)).map (qubitIndex le (BitVec.ofNat 64 n))) 1 =
      targetMask (([q, q].map (BitVec.ofNat 64)).map (qubitIndex le (BitVec.ofNat 64 n))) 2 := by
    rw [htm, htm]
    simp [tmaskN, bit]
  have key : ∀ (l : List (BitVec 64)) (masks : List (BitVec 64)) (cmask : BitVec 64) (s r : ℝ × List ℂ),
      l.foldlM (body op Complex.normSq [] 1 masks cmask (targetMask (([q, q].map (BitVec.ofNat 64)).map (qubitIndex le (BitVec.ofNat 64 n))))) s = .ok r → r = s := by
    intro l masks cmask
    induction l with
    | nil => intro s r h; cases h; rfl
    | cons k l ih =>
      intro s r h
      rw [List.foldlM_cons] at h
      obtain ⟨s', h1, h2⟩ := bind_ok h
      rw [ih _ _ h2, body_swap_same op hop _ _ _ _ htm12 _ _ h1]
  have h1' := h1
  unfold run runOrder at h1'
  rw [hs] at h1'
  have hr := key _ _ _ _ _ h1'
  unfold callKernel
  rw [h1, hr]
  rfl

end DG
