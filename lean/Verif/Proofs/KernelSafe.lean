import Verif.Proofs.KernelRun

/-! # Memory safety of the kernels for arbitrary operands -/

set_option linter.unusedSectionVars false

namespace DG.Kernel

section
variable {R : Type} [Semiring R] [DecidableEq R] {N : Type} [AddCommMonoid N] {n : Nat}

theorem mapM_exists {α β : Type} {f : α → Except Err β} : ∀ (l : List α), (∀ x ∈ l, ∃ y, f x = .ok y) →
    ∃ ys, l.mapM f = .ok ys := by
  intro l
  induction l with
  | nil => intro _; exact ⟨[], rfl⟩
  | cons x l ih =>
    intro h
    obtain ⟨y, hy⟩ := h x (by simp)
    obtain ⟨ys, hys⟩ := ih (fun z hz => h z (by simp [hz]))
    refine ⟨y :: ys, ?_⟩
    rw [List.mapM_cons, hy, hys]
    rfl

/-- The address computed in an iteration is in range, whatever the operands. -/
theorem address_lt (hn : n ≤ 30) {ps ts cs : List Nat} (hps : ∀ p ∈ ps, p < n) (hts : ∀ p ∈ ts, p < n)
    (hcs : ∀ p ∈ cs, p < n) (hle : ps.length ≤ n) {pb : Nat} (hpb : pb < 2 ^ (n - ps.length)) (j : Nat) :
    (template (ps.map fun p => BitVec.ofNat 64 (2 ^ p - 1)) (BitVec.ofNat 64 (cmaskN cs)) (BitVec.ofNat 64 pb) |||
      BitVec.ofNat 64 (tmaskN ts j)).toNat < 2 ^ n := by
  have hpow : (2 : Nat) ^ n < 2 ^ 64 := Nat.pow_lt_pow_right (by omega) (by omega)
  have hpb64 : pb < 2 ^ 64 := by
    refine Nat.lt_trans hpb (Nat.pow_lt_pow_right (by omega) ?_); omega
  have hc : cmaskN cs < 2 ^ n := by
    apply foldl_or_lt _ _ _ (Nat.two_pow_pos n)
    intro e he
    obtain ⟨c, hc, rfl⟩ := List.mem_map.1 he
    rw [one_mul]
    exact Nat.pow_lt_pow_right (by omega) (hcs c hc)
  have ht : tmaskN ts j < 2 ^ n := by
    apply foldl_or_lt _ _ _ (Nat.two_pow_pos n)
    intro e he
    obtain ⟨⟨t, k⟩, hp, rfl⟩ := List.mem_map.1 he
    have htn : t < n := hts t (List.mem_of_getElem? (List.mem_zipIdx_iff_getElem?.1 hp))
    have h1 := bit_le j k
    have h2 : (2 : Nat) ^ t < 2 ^ n := Nat.pow_lt_pow_right (by omega) htn
    simp only
    calc bit j k * 2 ^ t ≤ 1 * 2 ^ t := Nat.mul_le_mul_right _ h1
      _ < 2 ^ n := by omega
  unfold template
  rw [BitVec.toNat_or, BitVec.toNat_or, toNat_ofNat_lt (Nat.lt_trans hc hpow), toNat_ofNat_lt (Nat.lt_trans ht hpow)]
  rw [template_fold_toNat ps _ (n - ps.length) (fun p hp => by have := hps p hp; omega)
    (by rw [toNat_ofNat_lt hpb64]; exact hpb) (by omega), toNat_ofNat_lt hpb64]
  refine Nat.or_lt_two_pow (Nat.or_lt_two_pow ?_ hc) ht
  have := tmplN_lt ps pb (n - ps.length) hpb
  rwa [Nat.sub_add_cancel hle] at this

/-- One iteration is defined and keeps the size of the memory, if all addresses are in range. -/
theorem body_safe (op : OpSpec R) (normSq : R → N) {gate : List R} {Gv : Nat → Nat → R} (hg : GateBuf op gate Gv)
    (factor : R) (masks : List (BitVec 64)) (cmask : BitVec 64) {tm : Nat → Except Err (BitVec 64)}
    {tmv : Nat → BitVec 64} (htm : ∀ j, tm j = .ok (tmv j)) (acc : N) (mem : List R) (pb : BitVec 64)
    (haddr : ∀ j, (template masks cmask pb ||| tmv j).toNat < mem.length) :
    ∃ acc' mem', body op normSq gate factor masks cmask tm (acc, mem) pb = .ok (acc', mem') ∧
      mem'.length = mem.length := by
  have hload : ∀ j, load mem (template masks cmask pb ||| tmv j) =
      .ok (mem[(template masks cmask pb ||| tmv j).toNat]'(haddr j)) := by
    intro j; unfold load; rw [List.getElem?_eq_getElem (haddr j)]
  have hl : (dependents op.size op.instructions).mapM (fun j => (do
      let m ← tm j
      let v ← load mem (template masks cmask pb ||| m)
      pure (j, v) : Except Err (Nat × R))) =
      .ok ((dependents op.size op.instructions).map fun j => (j, mem[(template masks cmask pb ||| tmv j).toNat]'(haddr j))) := by
    apply mapM_ok
    intro j _
    simp only [htm, bind, Except.bind, hload]
    rfl
  have hst : ∀ (l : List (Nat × R)) (mem1 : List R), mem1.length = mem.length →
      ∃ mem', l.foldlM (fun mem (p : Nat × R) => do
          let m ← tm p.1
          store mem (template masks cmask pb ||| m) p.2) mem1 = Except.ok mem' ∧ mem'.length = mem.length := by
    intro l
    induction l with
    | nil => intro mem1 h; exact ⟨mem1, rfl, h⟩
    | cons p l ih =>
      intro mem1 h
      obtain ⟨mem', h1, h2⟩ := ih (mem1.set (template masks cmask pb ||| tmv p.1).toNat p.2) (by simpa using h)
      refine ⟨mem', ?_, h2⟩
      rw [List.foldlM_cons, htm]
      show (store mem1 (template masks cmask pb ||| tmv p.1) p.2 >>= _) = _
      unfold store
      rw [if_pos (by rw [h]; exact haddr p.1)]
      exact h1
  unfold body
  simp only [bind, Except.bind]
  simp only [bind, Except.bind] at hl hst
  rw [hl]
  simp only
  rw [results_eq hg factor]
  simp only
  split
  · exact ⟨_, _, rfl, rfl⟩
  · obtain ⟨mem', h1, h2⟩ := hst (op.instructions.map fun p => (p.1,
        if op.scale then factor * rowSum op.size (effective op Gv) (fun j => mem[(template masks cmask pb ||| tmv j).toNat]'(haddr j)) p.1
        else rowSum op.size (effective op Gv) (fun j => mem[(template masks cmask pb ||| tmv j).toNat]'(haddr j)) p.1)) mem rfl
    rw [h1]
    exact ⟨_, _, rfl, h2⟩

theorem loop_safe {S : Type} (f : S → BitVec 64 → Except Err S) (P : S → Prop) :
    ∀ (l : List (BitVec 64)), (∀ s, P s → ∀ b ∈ l, ∃ s', f s b = .ok s' ∧ P s') → ∀ s, P s →
      ∃ s', l.foldlM f s = .ok s' ∧ P s' := by
  intro l
  induction l with
  | nil => intro _ s h; exact ⟨s, rfl, h⟩
  | cons b l ih =>
    intro h s hs
    obtain ⟨s1, h1, h2⟩ := h s hs b (by simp)
    obtain ⟨s2, h3, h4⟩ := ih (fun s hs b hb => h s hs b (by simp [hb])) s1 h2
    exact ⟨s2, by rw [List.foldlM_cons, h1]; exact h3, h4⟩

/-- For at most 30 qubits, every kernel with operands below the number of qubits (repeated or not) is free of undefined
behaviour. -/
theorem run_safe (op : OpSpec R) (normSq : R → N) (le : Bool) (hn : n ≤ 30) (tq cq : List Nat)
    (hlt : ∀ q ∈ tq ++ cq, q < n) (ht : op.numTargets = tq.length) (hc : op.numControls = cq.length)
    (gate : List R) (hgl : op.precompiled = none → op.size * op.size ≤ gate.length) (factor : R) (mem : List R)
    (hm : mem.length = 2 ^ n) :
    ∃ r, run op normSq le (BitVec.ofNat 64 n) mem gate (tq.map (BitVec.ofNat 64)) (cq.map (BitVec.ofNat 64)) factor =
      .ok r ∧ r.2.length = mem.length := by
  obtain ⟨ps, hperm, _, hpn, hs, htm⟩ := setup_safe op le hn tq cq hlt ht hc gate hgl
  have hg : GateBuf op gate (fun i j => gate.getD (i * op.size + j) 0) := by
    intro hp i hi j hj _
    have h1 := hgl hp
    have h2 : i * op.size + j < op.size * op.size := by nlinarith
    simp only [List.getD_eq_getElem?_getD]
    rw [List.getElem?_eq_getElem (by omega)]
    rfl
  unfold run runOrder
  rw [hs]
  simp only [bind, Except.bind, id_eq]
  have hpow : (2 : Nat) ^ n < 2 ^ 64 := Nat.pow_lt_pow_right (by omega) (by omega)
  have hlen : ps.length = tq.length + cq.length := by rw [hperm.length_eq]; simp
  obtain ⟨r, h1, h2⟩ := loop_safe (body op normSq gate factor (ps.map fun p => BitVec.ofNat 64 (2 ^ p - 1))
      (BitVec.ofNat 64 (cmaskN (cq.map (pos le n)))) (targetMask ((tq.map (BitVec.ofNat 64)).map (qubitIndex le (BitVec.ofNat 64 n)))))
    (fun s : N × List R => s.2.length = mem.length)
    (iterations (BitVec.ofNat 64 (2 ^ n >>> (tq.length + cq.length)))) (by
      rintro ⟨acc, mem1⟩ hmem b hb
      simp only at hmem
      unfold iterations at hb
      rw [toNat_ofNat_lt (Nat.lt_of_le_of_lt (Nat.shiftRight_le _ _) hpow)] at hb
      obtain ⟨pb, hpb, rfl⟩ := List.mem_map.1 hb
      rw [List.mem_range, Nat.shiftRight_eq_div_pow] at hpb
      have hle : tq.length + cq.length ≤ n := by
        by_contra hcon
        rw [Nat.div_eq_of_lt (Nat.pow_lt_pow_right (by omega) (by omega))] at hpb
        omega
      rw [Nat.pow_div hle (by omega)] at hpb
      obtain ⟨acc', mem', h1, h2⟩ := body_safe op normSq hg factor (ps.map fun p => BitVec.ofNat 64 (2 ^ p - 1))
        (BitVec.ofNat 64 (cmaskN (cq.map (pos le n)))) htm acc mem1 (BitVec.ofNat 64 pb) (by
          intro j
          rw [hmem, hm]
          exact address_lt hn hpn (by
            intro p hp; obtain ⟨q, hq, rfl⟩ := List.mem_map.1 hp; exact pos_lt (hlt q (by simp [hq]))) (by
            intro p hp; obtain ⟨q, hq, rfl⟩ := List.mem_map.1 hp; exact pos_lt (hlt q (by simp [hq]))) (by omega)
            (by rw [hlen]; exact hpb) j)
      exact ⟨_, h1, by rw [h2, hmem]⟩) (0, mem) rfl
  exact ⟨r, h1, h2⟩

/-- From 31 qubits on, the very first statement of every kernel is undefined. -/
theorem run_undefined (op : OpSpec R) (normSq : R → N) (le : Bool) (hn : 31 ≤ n) (hn' : n < 2 ^ 64)
    (mem gate : List R) (targets controls : List (BitVec 64)) (factor : R) :
    run op normSq le (BitVec.ofNat 64 n) mem gate targets controls factor = .error .undefinedBehaviour := by
  unfold run runOrder setup
  have h : shl 1 (BitVec.ofNat 64 n) = .error .undefinedBehaviour := by
    unfold shl
    rw [toNat_ofNat_lt hn', if_pos]
    right
    rw [one_mul]
    exact Nat.pow_le_pow_right (by omega) hn
  rw [h]
  rfl

end
end DG.Kernel
