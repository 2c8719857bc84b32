import Verif.Proofs.Kernel

/-! # Running a kernel -/

set_option linter.unusedSectionVars false

namespace DG.Kernel

/-- Bit position of qubit `q`. -/
def pos (le : Bool) (n q : Nat) : Nat := if le then q else n - 1 - q

theorem pos_lt {le : Bool} {n q : Nat} (h : q < n) : pos le n q < n := by
  unfold pos; split <;> omega

theorem pos_inj {le : Bool} {n q q' : Nat} (h : q < n) (h' : q' < n) (he : pos le n q = pos le n q') : q = q' := by
  unfold pos at he; split at he <;> omega

theorem qubitIndex_eq {le : Bool} {n q : Nat} (hn : n ≤ 30) (h : q < n) :
    qubitIndex le (BitVec.ofNat 64 n) (BitVec.ofNat 64 q) = BitVec.ofNat 64 (pos le n q) := by
  unfold qubitIndex pos
  cases le with
  | true => rfl
  | false =>
    simp only [Bool.false_eq_true, if_false]
    apply BitVec.eq_of_toNat_eq
    have h1 : BitVec.toNat (1 : BitVec 64) = 1 := rfl
    simp only [BitVec.toNat_sub, BitVec.toNat_ofNat, h1]
    omega

section
variable {R : Type} [Zero R] [One R] [Add R] [Mul R] [DecidableEq R]

/-- What `setup` computes, for any (also repeated) qubits. -/
theorem setup_safe (op : OpSpec R) (le : Bool) {n : Nat} (hn : n ≤ 30) (tq cq : List Nat)
    (hlt : ∀ q ∈ tq ++ cq, q < n) (ht : op.numTargets = tq.length) (hc : op.numControls = cq.length)
    (gate : List R) (hg : op.precompiled = none → op.size * op.size ≤ gate.length) :
    ∃ ps : List Nat, ps.Perm (tq.map (pos le n) ++ cq.map (pos le n)) ∧ ps.Pairwise (· ≤ ·) ∧ (∀ p ∈ ps, p < n) ∧
      setup op le (BitVec.ofNat 64 n) gate (tq.map (BitVec.ofNat 64)) (cq.map (BitVec.ofNat 64)) =
        .ok (ps.map (fun p => BitVec.ofNat 64 (2 ^ p - 1)), BitVec.ofNat 64 (cmaskN (cq.map (pos le n))),
          BitVec.ofNat 64 (2 ^ n >>> (tq.length + cq.length))) ∧
      ∀ j, targetMask ((tq.map (BitVec.ofNat 64)).map (qubitIndex le (BitVec.ofNat 64 n))) j =
        .ok (BitVec.ofNat 64 (tmaskN (tq.map (pos le n)) j)) := by
  have hmap : ∀ l : List Nat, (∀ q ∈ l, q < n) →
      (l.map (BitVec.ofNat 64)).map (qubitIndex le (BitVec.ofNat 64 n)) = (l.map (pos le n)).map (BitVec.ofNat 64) := by
    intro l hl
    rw [List.map_map, List.map_map]
    apply List.map_congr_left
    intro q hq
    exact qubitIndex_eq hn (hl q hq)
  have hlt1 : ∀ q ∈ tq, q < n := fun q hq => hlt q (by simp [hq])
  have hlt2 : ∀ q ∈ cq, q < n := fun q hq => hlt q (by simp [hq])
  have hp1 : ∀ p ∈ tq.map (pos le n), p < n := by
    intro p hp; obtain ⟨q, hq, rfl⟩ := List.mem_map.1 hp; exact pos_lt (hlt1 q hq)
  have hp2 : ∀ p ∈ cq.map (pos le n), p < n := by
    intro p hp; obtain ⟨q, hq, rfl⟩ := List.mem_map.1 hp; exact pos_lt (hlt2 q hq)
  -- the sorted positions
  let bvs := ((tq.map (BitVec.ofNat 64) ++ cq.map (BitVec.ofNat 64)).map (qubitIndex le (BitVec.ofNat 64 n)))
  let srt := sorted bvs
  let ps := srt.map BitVec.toNat
  have hbvs : bvs = (tq.map (pos le n) ++ cq.map (pos le n)).map (BitVec.ofNat 64) := by
    show List.map _ (_ ++ _) = _
    rw [List.map_append, hmap tq hlt1, hmap cq hlt2, List.map_append]
  have hperm : ps.Perm (tq.map (pos le n) ++ cq.map (pos le n)) := by
    have h1 : srt.Perm bvs := List.perm_insertionSort _ _
    have h2 := h1.map BitVec.toNat
    rw [hbvs, List.map_map] at h2
    refine h2.trans (List.Perm.of_eq ?_)
    conv_rhs => rw [← List.map_id (tq.map (pos le n) ++ cq.map (pos le n))]
    apply List.map_congr_left
    intro p hp
    have : p < n := by
      rcases List.mem_append.1 hp with h | h
      · exact hp1 p h
      · exact hp2 p h
    simp only [Function.comp_apply, id_eq]
    exact toNat_ofNat_lt (by omega)
  have hsorted : ps.Pairwise (· ≤ ·) := by
    haveI : Std.Total (fun a b : BitVec 64 => a.toNat ≤ b.toNat) := ⟨fun a b => Nat.le_total _ _⟩
    haveI : IsTrans (BitVec 64) (fun a b : BitVec 64 => a.toNat ≤ b.toNat) := ⟨fun a b c => Nat.le_trans⟩
    have : srt.Pairwise (fun a b => a.toNat ≤ b.toNat) := List.pairwise_insertionSort _ _
    rw [List.pairwise_map]
    exact this
  have hpn : ∀ p ∈ ps, p < n := by
    intro p hp
    rcases List.mem_append.1 (hperm.subset hp) with h | h
    · exact hp1 p h
    · exact hp2 p h
  have hsrt : srt = ps.map (BitVec.ofNat 64) := by
    rw [List.map_map]
    conv_lhs => rw [← List.map_id srt]
    apply List.map_congr_left
    intro v _
    simp
  have htm : ∀ j, targetMask ((tq.map (BitVec.ofNat 64)).map (qubitIndex le (BitVec.ofNat 64 n))) j =
        .ok (BitVec.ofNat 64 (tmaskN (tq.map (pos le n)) j)) := by
    intro j
    rw [hmap tq hlt1]
    unfold targetMask
    have : ((tq.map (pos le n)).map (BitVec.ofNat 64)).zipIdx.mapM (fun p => shl (bit j p.2) p.1) =
        .ok (((tq.map (pos le n)).map (BitVec.ofNat 64)).zipIdx.map fun p => bit j p.2 * 2 ^ p.1.toNat) := by
      apply mapM_ok
      rintro ⟨v, k⟩ hv
      have hv' : v ∈ (tq.map (pos le n)).map (BitVec.ofNat 64) := by
        have := List.mem_zipIdx_iff_getElem?.1 hv
        exact List.mem_of_getElem? this
      obtain ⟨p, hp, rfl⟩ := List.mem_map.1 hv'
      have := hp1 p hp
      simp only
      rw [shl_ok (bit_le _ _) (by omega), toNat_ofNat_lt (by omega)]
    rw [this]
    show Except.ok _ = _
    congr 1
    unfold orAll tmaskN
    congr 2
    rw [List.zipIdx_map, List.map_map]
    apply List.map_congr_left
    rintro ⟨p, k⟩ hp
    have : p < n := hp1 p (List.mem_of_getElem? (List.mem_zipIdx_iff_getElem?.1 hp))
    simp only [Function.comp_apply, Prod.map, id_eq]
    rw [toNat_ofNat_lt (by omega)]
  refine ⟨ps, hperm, hsorted, hpn, ?_, htm⟩
  unfold setup
  rw [shl_ok (by omega) hn]
  have hmask : srt.mapM maskOf = .ok (ps.map fun p => BitVec.ofNat 64 (2 ^ p - 1)) := by
    rw [hsrt]
    have := mapM_ok (f := maskOf) (g := fun v => BitVec.ofNat 64 (2 ^ v.toNat - 1)) (ps.map (BitVec.ofNat 64)) (by
      intro v hv
      obtain ⟨p, hp, rfl⟩ := List.mem_map.1 hv
      have := hpn p hp
      unfold maskOf
      rw [shl_ok (by omega) (by omega), toNat_ofNat_lt (by omega)]
      simp only [one_mul]
      rfl)
    rw [this]
    congr 1
    rw [List.map_map]
    apply List.map_congr_left
    intro p hp
    have := hpn p hp
    simp only [Function.comp_apply]
    rw [toNat_ofNat_lt (by omega)]
  have hcm : controlMask ((cq.map (BitVec.ofNat 64)).map (qubitIndex le (BitVec.ofNat 64 n))) =
      .ok (BitVec.ofNat 64 (cmaskN (cq.map (pos le n)))) := by
    rw [hmap cq hlt2]
    unfold controlMask
    have := mapM_ok (f := fun c => shl 1 c) (g := fun v => 1 * 2 ^ v.toNat) ((cq.map (pos le n)).map (BitVec.ofNat 64)) (by
      intro v hv
      obtain ⟨p, hp, rfl⟩ := List.mem_map.1 hv
      have := hp2 p hp
      rw [shl_ok (by omega) (by omega), toNat_ofNat_lt (by omega)])
    rw [this]
    show Except.ok _ = _
    congr 1
    unfold orAll cmaskN
    congr 2
    rw [List.map_map]
    apply List.map_congr_left
    intro p hp
    have := hp2 p hp
    simp only [Function.comp_apply]
    rw [toNat_ofNat_lt (by omega)]
  have hsub : (subStates op).mapM (targetMask ((tq.map (BitVec.ofNat 64)).map (qubitIndex le (BitVec.ofNat 64 n)))) =
      .ok ((subStates op).map fun j => BitVec.ofNat 64 (tmaskN (tq.map (pos le n)) j)) := mapM_ok _ (fun j _ => htm j)
  have hrg : readGate op gate = .ok () := by
    unfold readGate
    cases hpc : op.precompiled with
    | some G => rfl
    | none =>
      simp only
      rw [if_pos]
      rw [List.all_eq_true]
      intro i hi
      rw [List.all_eq_true]
      intro j hj
      rw [List.mem_range] at hi hj
      have h1 := hg hpc
      have h2 : i * op.size + j < op.size * op.size := by nlinarith
      simp only [Bool.or_eq_true, decide_eq_true_eq]
      right; omega
  simp only [bind, Except.bind]
  have hmask' : List.mapM maskOf (sorted ((tq.map (BitVec.ofNat 64) ++ cq.map (BitVec.ofNat 64)).map
      (qubitIndex le (BitVec.ofNat 64 n)))) = .ok (ps.map fun p => BitVec.ofNat 64 (2 ^ p - 1)) := hmask
  rw [hmask']
  simp only
  rw [hcm]
  simp only
  rw [hsub]
  simp only
  rw [hrg]
  show Except.ok _ = _
  congr 3
  apply BitVec.eq_of_toNat_eq
  rw [BitVec.toNat_ushiftRight, ht, hc, one_mul]
  have hpow : (2 : Nat) ^ n < 2 ^ 64 := Nat.pow_lt_pow_right (by omega) (by omega)
  rw [toNat_ofNat_lt hpow, toNat_ofNat_lt (Nat.lt_of_le_of_lt (Nat.shiftRight_le _ _) hpow)]

/-- What `setup` computes for distinct qubits. -/
theorem setup_ok (op : OpSpec R) (le : Bool) {n : Nat} (hn : n ≤ 30) (tq cq : List Nat) (hnd : (tq ++ cq).Nodup)
    (hlt : ∀ q ∈ tq ++ cq, q < n) (ht : op.numTargets = tq.length) (hc : op.numControls = cq.length)
    (gate : List R) (hg : op.precompiled = none → op.size * op.size ≤ gate.length) :
    ∃ ps, Geo n ps (tq.map (pos le n)) (cq.map (pos le n)) ∧
      setup op le (BitVec.ofNat 64 n) gate (tq.map (BitVec.ofNat 64)) (cq.map (BitVec.ofNat 64)) =
        .ok (ps.map (fun p => BitVec.ofNat 64 (2 ^ p - 1)), BitVec.ofNat 64 (cmaskN (cq.map (pos le n))),
          BitVec.ofNat 64 (2 ^ (n - (tq.length + cq.length)))) ∧
      ∀ j, targetMask ((tq.map (BitVec.ofNat 64)).map (qubitIndex le (BitVec.ofNat 64 n))) j =
        .ok (BitVec.ofNat 64 (tmaskN (tq.map (pos le n)) j)) := by
  obtain ⟨ps, hperm, hsorted, hpn, hs, htm⟩ := setup_safe op le hn tq cq hlt ht hc gate hg
  have hnd2 : (tq.map (pos le n) ++ cq.map (pos le n)).Nodup := by
    rw [← List.map_append]
    refine List.Nodup.map_on ?_ hnd
    intro q hq q' hq' he
    exact pos_inj (hlt q hq) (hlt q' hq') he
  have hlt' : ps.Pairwise (· < ·) := by
    have hnd3 : ps.Nodup := hperm.nodup_iff.2 hnd2
    exact (hsorted.and hnd3).imp (fun h => Nat.lt_of_le_of_ne h.1 h.2)
  have geo : Geo n ps (tq.map (pos le n)) (cq.map (pos le n)) := ⟨hn, hlt', hperm, hpn⟩
  refine ⟨ps, geo, ?_, htm⟩
  have hk := geo.len_le
  simp only [List.length_map] at hk
  rw [hs, Nat.shiftRight_eq_div_pow, Nat.pow_div hk (by omega)]

/-- `mem` has size `N` and holds `f`. -/
def Holds (mem : List R) (N : Nat) (f : Nat → R) : Prop := mem.length = N ∧ ∀ b < N, mem[b]? = some (f b)

variable {n : Nat} {ps ts cs : List Nat}

/-- The address computed by the C code is `sidx`. -/
theorem address_eq (g : Geo n ps ts cs) {pb : Nat} (hpb : pb < 2 ^ (n - (ts.length + cs.length))) (j : Nat) :
    (template (ps.map fun p => BitVec.ofNat 64 (2 ^ p - 1)) (BitVec.ofNat 64 (cmaskN cs)) (BitVec.ofNat 64 pb) |||
      BitVec.ofNat 64 (tmaskN ts j)).toNat = sidx ps ts cs pb j := by
  have h30 := g.le30
  have hpow : (2 : Nat) ^ n < 2 ^ 64 := Nat.pow_lt_pow_right (by omega) (by omega)
  have hpb64 : pb < 2 ^ 64 := by
    refine Nat.lt_trans hpb (Nat.pow_lt_pow_right (by omega) ?_); omega
  unfold template
  rw [BitVec.toNat_or, BitVec.toNat_or, toNat_ofNat_lt (Nat.lt_trans g.cmaskN_lt hpow),
    toNat_ofNat_lt (Nat.lt_trans (g.tmaskN_lt j) hpow)]
  rw [template_fold_toNat ps _ (n - (ts.length + cs.length)) (fun p hp => by have := g.lt p hp; omega)
    (by rw [toNat_ofNat_lt hpb64]; exact hpb) (by rw [g.len]; have := g.len_le; omega), toNat_ofNat_lt hpb64]
  rfl

/-- The stores of one iteration. -/
theorem stores_ok (N : Nat) (addr : Nat → Nat) (bv : Nat → BitVec 64) (haddr : ∀ i, (bv i).toNat = addr i)
    (hlt : ∀ i, addr i < N) (tm : Nat → Except Err (BitVec 64)) (base : BitVec 64) (tmv : Nat → BitVec 64)
    (htm : ∀ i, tm i = .ok (tmv i)) (hbv : ∀ i, base ||| tmv i = bv i) (v : Nat → R) :
    ∀ (outs : List Nat) (mem : List R) (f : Nat → R), Holds mem N f →
      ∃ mem', (outs.map fun i => (i, v i)).foldlM (fun mem (p : Nat × R) => do
          let m ← tm p.1
          store mem (base ||| m) p.2) mem = Except.ok mem' ∧
        Holds mem' N (outs.foldl (fun f i => Function.update f (addr i) (v i)) f) := by
  intro outs
  induction outs with
  | nil => intro mem f h; exact ⟨mem, rfl, h⟩
  | cons i outs ih =>
    intro mem f h
    have hst : store mem (bv i) (v i) = .ok (mem.set (addr i) (v i)) := by
      unfold store; rw [haddr, if_pos (by rw [h.1]; exact hlt i)]
    have h' : Holds (mem.set (addr i) (v i)) N (Function.update f (addr i) (v i)) := by
      refine ⟨by simpa using h.1, ?_⟩
      intro b hb
      rw [List.getElem?_set]
      by_cases hba : addr i = b
      · subst hba; simp [h.1, hlt i]
      · rw [if_neg hba, h.2 b hb, Function.update_of_ne (Ne.symm hba)]
    obtain ⟨mem', h1, h2⟩ := ih _ _ h'
    refine ⟨mem', ?_, h2⟩
    rw [List.map_cons, List.foldlM_cons]
    show ((tm i >>= fun m => store mem (base ||| m) (v i)) >>= _) = _
    rw [htm]
    show (store mem (base ||| tmv i) (v i) >>= _) = _
    rw [hbv, hst]
    exact h1

theorem foldl_update_mem {addr : Nat → Nat} {v : Nat → R} : ∀ (outs : List Nat), outs.Nodup → ∀ (f : Nat → R),
    (∀ i j, i ∈ outs → j ∈ outs → addr i = addr j → i = j) → ∀ i ∈ outs,
    (outs.foldl (fun f i => Function.update f (addr i) (v i)) f) (addr i) = v i := by
  intro outs
  induction outs with
  | nil => simp
  | cons k outs ih =>
    intro hnd f hinj i hi
    rw [List.nodup_cons] at hnd
    rw [List.foldl_cons]
    rw [List.mem_cons] at hi
    by_cases hmem : i ∈ outs
    · exact ih hnd.2 _ (fun a b ha hb => hinj a b (by simp [ha]) (by simp [hb])) i hmem
    · have hik : i = k := by tauto
      subst hik
      have : ∀ (l : List Nat) (f : Nat → R), (∀ j ∈ l, addr j ≠ addr i) →
          (l.foldl (fun f i => Function.update f (addr i) (v i)) f) (addr i) = f (addr i) := by
        intro l
        induction l with
        | nil => intro f _; rfl
        | cons a l ih2 =>
          intro f h
          rw [List.foldl_cons, ih2 _ (fun j hj => h j (by simp [hj])), Function.update_of_ne (Ne.symm (h a (by simp)))]
      rw [this outs _ (fun j hj he => by
        have := hinj j i (by simp [hj]) (by simp) he
        subst this; exact hmem hj)]
      simp

theorem foldl_update_not_mem {addr : Nat → Nat} {v : Nat → R} {b : Nat} : ∀ (outs : List Nat) (f : Nat → R),
    (∀ i ∈ outs, b ≠ addr i) → (outs.foldl (fun f i => Function.update f (addr i) (v i)) f) b = f b := by
  intro outs
  induction outs with
  | nil => intro f _; rfl
  | cons a l ih =>
    intro f h
    rw [List.foldl_cons, ih _ (fun j hj => h j (by simp [hj])), Function.update_of_ne (h a (by simp))]

variable {N : Type} [AddCommMonoid N]

/-- The loads of one iteration. -/
theorem loads_ok (g : Geo n ps ts cs) {pb : Nat} (hpb : pb < 2 ^ (n - (ts.length + cs.length)))
    {tm : Nat → Except Err (BitVec 64)} (htm : ∀ j, tm j = .ok (BitVec.ofNat 64 (tmaskN ts j)))
    {mem : List R} {f : Nat → R} (hm : Holds mem (2 ^ n) f) (deps : List Nat) :
    deps.mapM (fun j => (do
      let m ← tm j
      let v ← load mem (template (ps.map fun p => BitVec.ofNat 64 (2 ^ p - 1)) (BitVec.ofNat 64 (cmaskN cs))
        (BitVec.ofNat 64 pb) ||| m)
      pure (j, v) : Except Err (Nat × R))) = .ok (deps.map fun j => (j, f (sidx ps ts cs pb j))) := by
  apply mapM_ok
  intro j _
  simp only [htm, bind, Except.bind]
  unfold load
  rw [address_eq g hpb, hm.2 _ (g.sidx_lt hpb j)]
  rfl

/-- One iteration of a gate kernel. -/
theorem body_ok (op : OpSpec R) (normSq : R → N) (hcn : op.collectNorm = false) (g : Geo n ps ts cs)
    (hts : op.numTargets = ts.length) {gate : List R} {factor : R} {NA : (Nat → R) → Nat → R} (hg : Computes op gate factor NA)
    {tm : Nat → Except Err (BitVec 64)} (htm : ∀ j, tm j = .ok (BitVec.ofNat 64 (tmaskN ts j)))
    {pb : Nat} (hpb : pb < 2 ^ (n - (ts.length + cs.length))) (acc : N) {mem : List R} {f : Nat → R}
    (hm : Holds mem (2 ^ n) f) :
    ∃ mem' f', body op normSq gate factor (ps.map fun p => BitVec.ofNat 64 (2 ^ p - 1)) (BitVec.ofNat 64 (cmaskN cs)) tm
        (acc, mem) (BitVec.ofNat 64 pb) = .ok (acc, mem') ∧ Holds mem' (2 ^ n) f' ∧
      (∀ i < op.size, f' (sidx ps ts cs pb i) = NA (fun j => f (sidx ps ts cs pb j)) i) ∧
      (∀ b, (∀ i < op.size, b ≠ sidx ps ts cs pb i) → f' b = f b) := by
  have hsz : op.size = 2 ^ ts.length := by simp [OpSpec.size, hts, Nat.shiftLeft_eq]
  let a := fun j => f (sidx ps ts cs pb j)
  let outs := op.instructions.map Prod.fst
  have houts : ∀ i ∈ outs, i < op.size := by
    intro i hi
    obtain ⟨⟨i', l⟩, hp, rfl⟩ := List.mem_map.1 hi
    obtain ⟨E, skId, skZ, hins, _⟩ := instructions_eq op
    rw [hins] at hp
    exact (mem_compileGate hp).1
  have hndo : outs.Nodup := by
    obtain ⟨E, skId, skZ, hins, _⟩ := instructions_eq op
    show (op.instructions.map Prod.fst).Nodup
    rw [hins]; exact nodup_compileGate _ _ _ _
  obtain ⟨mem', h1, h2⟩ := stores_ok (2 ^ n) (sidx ps ts cs pb)
    (fun j => template (ps.map fun p => BitVec.ofNat 64 (2 ^ p - 1)) (BitVec.ofNat 64 (cmaskN cs)) (BitVec.ofNat 64 pb) |||
      BitVec.ofNat 64 (tmaskN ts j)) (address_eq g hpb) (g.sidx_lt hpb) tm _ (fun j => BitVec.ofNat 64 (tmaskN ts j)) htm
    (fun _ => rfl) (NA a) outs mem f hm
  refine ⟨mem', _, ?_, h2, ?_, ?_⟩
  · unfold body
    simp only [bind, Except.bind]
    have hl := loads_ok g hpb htm hm (dependents op.size op.instructions)
    simp only [bind, Except.bind] at hl
    rw [hl]
    simp only
    rw [hg.results a, hcn]
    simp only [Bool.false_eq_true, if_false]
    have he : (op.instructions.map fun p => (p.1, NA a p.1)) = outs.map fun i => (i, NA a i) := by
      show _ = List.map _ (List.map _ _)
      rw [List.map_map]; rfl
    rw [he]
    simp only [bind, Except.bind] at h1
    rw [h1]
    rfl
  · intro i hi
    by_cases hio : i ∈ outs
    · apply foldl_update_mem outs hndo
      · intro i j hi hj h
        exact (g.sidx_inj (hsz ▸ houts i hi) (hsz ▸ houts j hj) h).2
      · exact hio
    · rw [foldl_update_not_mem]
      · exact (hg.skipped a i hi hio).symm
      · intro j hj h
        have := (g.sidx_inj (hsz ▸ hi) (hsz ▸ houts j hj) h).2
        subst this; exact hio hj
  · intro b hb
    rw [foldl_update_not_mem]
    intro i hi
    exact hb i (houts i hi)

/-- The loop of a gate kernel, over any list of distinct iterations. -/
theorem loop_ok (op : OpSpec R) (normSq : R → N) (hcn : op.collectNorm = false) (g : Geo n ps ts cs)
    (hts : op.numTargets = ts.length) {gate : List R} {factor : R} {NA : (Nat → R) → Nat → R} (hg : Computes op gate factor NA)
    {tm : Nat → Except Err (BitVec 64)} (htm : ∀ j, tm j = .ok (BitVec.ofNat 64 (tmaskN ts j))) (acc : N) :
    ∀ (l : List Nat), l.Nodup → (∀ pb ∈ l, pb < 2 ^ (n - (ts.length + cs.length))) →
    ∀ (mem : List R) (f : Nat → R), Holds mem (2 ^ n) f →
    ∃ mem' f', (l.map (BitVec.ofNat 64)).foldlM (body op normSq gate factor (ps.map fun p => BitVec.ofNat 64 (2 ^ p - 1))
        (BitVec.ofNat 64 (cmaskN cs)) tm) (acc, mem) = .ok (acc, mem') ∧ Holds mem' (2 ^ n) f' ∧
      (∀ pb ∈ l, ∀ i < op.size,
        f' (sidx ps ts cs pb i) = NA (fun j => f (sidx ps ts cs pb j)) i) ∧
      (∀ b, (∀ pb ∈ l, ∀ i < op.size, b ≠ sidx ps ts cs pb i) → f' b = f b) := by
  have hsz : op.size = 2 ^ ts.length := by simp [OpSpec.size, hts, Nat.shiftLeft_eq]
  intro l
  induction l with
  | nil => intro _ _ mem f hm; exact ⟨mem, f, rfl, hm, by simp, by simp⟩
  | cons pb l ih =>
    intro hnd hlt mem f hm
    rw [List.nodup_cons] at hnd
    obtain ⟨mem1, f1, h1, h2, h3, h4⟩ := body_ok op normSq hcn g hts hg htm (hlt pb (by simp)) acc hm
    obtain ⟨mem2, f2, k1, k2, k3, k4⟩ := ih hnd.2 (fun q hq => hlt q (by simp [hq])) mem1 f1 h2
    refine ⟨mem2, f2, ?_, k2, ?_, ?_⟩
    · rw [List.map_cons, List.foldlM_cons, h1]
      exact k1
    · intro q hq i hi
      rw [List.mem_cons] at hq
      rcases hq with rfl | hq
      · rw [k4, h3 i hi]
        intro q' hq' j hj he
        have := (g.sidx_inj (hsz ▸ hi) (hsz ▸ hj) he).1
        subst this; exact hnd.1 hq'
      · rw [k3 q hq i hi]
        refine hg.congr _ _ (fun j hj => ?_) i hi
        apply h4
        intro i' hi' he
        have := (g.sidx_inj (hsz ▸ hj) (hsz ▸ hi') he).1
        subst this; exact hnd.1 hq
    · intro b hb
      rw [k4 b (fun q hq => hb q (by simp [hq])), h4 b (hb pb (by simp))]

/-- A gate kernel, with iterations in any order, on the level of indices. -/
theorem runOrder_computes (op : OpSpec R) (normSq : R → N) (hcn : op.collectNorm = false) (le : Bool) {n : Nat} (hn : n ≤ 30)
    (tq cq : List Nat) (hnd : (tq ++ cq).Nodup) (hlt : ∀ q ∈ tq ++ cq, q < n) (ht : op.numTargets = tq.length)
    (hc : op.numControls = cq.length) {gate : List R} {factor : R} {NA : (Nat → R) → Nat → R}
    (hlen : op.precompiled = none → op.size * op.size ≤ gate.length) (hg : Computes op gate factor NA)
    {mem : List R} {f : Nat → R} (hm : Holds mem (2 ^ n) f)
    (order : List (BitVec 64) → List (BitVec 64)) (hord : ∀ l, (order l).Perm l) :
    ∃ ps mem' f', Geo n ps (tq.map (pos le n)) (cq.map (pos le n)) ∧
      runOrder op normSq le (BitVec.ofNat 64 n) mem gate (tq.map (BitVec.ofNat 64)) (cq.map (BitVec.ofNat 64)) factor
        order = .ok (0, mem') ∧ Holds mem' (2 ^ n) f' ∧
      (∀ pb < 2 ^ (n - (tq.length + cq.length)), ∀ i < op.size,
        f' (sidx ps (tq.map (pos le n)) (cq.map (pos le n)) pb i) =
          NA (fun j => f (sidx ps (tq.map (pos le n)) (cq.map (pos le n)) pb j)) i) ∧
      (∀ b, (∀ pb < 2 ^ (n - (tq.length + cq.length)), ∀ i < op.size,
        b ≠ sidx ps (tq.map (pos le n)) (cq.map (pos le n)) pb i) → f' b = f b) := by
  obtain ⟨ps, geo, hs, htm⟩ := setup_ok op le hn tq cq hnd hlt ht hc gate hlen
  have hI : (2 : Nat) ^ (n - (tq.length + cq.length)) < 2 ^ 64 := Nat.pow_lt_pow_right (by omega) (by omega)
  -- the order as a list of numbers
  have hiter : iterations (BitVec.ofNat 64 (2 ^ (n - (tq.length + cq.length)))) =
      (List.range (2 ^ (n - (tq.length + cq.length)))).map (BitVec.ofNat 64) := by
    unfold iterations; rw [toNat_ofNat_lt hI]
  let l := (order (iterations (BitVec.ofNat 64 (2 ^ (n - (tq.length + cq.length)))))).map BitVec.toNat
  have hl : l.Perm (List.range (2 ^ (n - (tq.length + cq.length)))) := by
    have := (hord (iterations (BitVec.ofNat 64 (2 ^ (n - (tq.length + cq.length)))))).map BitVec.toNat
    refine this.trans (List.Perm.of_eq ?_)
    rw [hiter, List.map_map]
    conv_rhs => rw [← List.map_id (List.range _)]
    apply List.map_congr_left
    intro p hp
    simp only [Function.comp_apply, id_eq]
    exact toNat_ofNat_lt (Nat.lt_trans (List.mem_range.1 hp) hI)
  have hlm : l.map (BitVec.ofNat 64) = order (iterations (BitVec.ofNat 64 (2 ^ (n - (tq.length + cq.length))))) := by
    rw [List.map_map]
    conv_rhs => rw [← List.map_id (order _)]
    apply List.map_congr_left
    intro v _
    simp
  obtain ⟨mem', f', h1, h2, h3, h4⟩ := loop_ok op normSq hcn geo (by simpa using ht) hg htm 0 l
    (hl.nodup_iff.2 List.nodup_range) (fun pb hpb => by simpa using hl.subset hpb) mem f hm
  refine ⟨ps, mem', f', geo, ?_, h2, ?_, ?_⟩
  · unfold runOrder
    rw [hs]
    simp only [bind, Except.bind]
    rw [← hlm]
    exact h1
  · intro pb hpb i hi
    exact h3 pb (hl.symm.subset (List.mem_range.2 hpb)) i hi
  · intro b hb
    exact h4 b (fun pb hpb i hi => hb pb (by simpa using hl.subset hpb) i hi)

end

section
variable {R : Type} [Semiring R] [DecidableEq R] {N : Type} [AddCommMonoid N]

/-- The same with exact arithmetic. -/
theorem runOrder_ok (op : OpSpec R) (normSq : R → N) (hcn : op.collectNorm = false) (le : Bool) {n : Nat} (hn : n ≤ 30)
    (tq cq : List Nat) (hnd : (tq ++ cq).Nodup) (hlt : ∀ q ∈ tq ++ cq, q < n) (ht : op.numTargets = tq.length)
    (hc : op.numControls = cq.length) {gate : List R} {Gv : Nat → Nat → R}
    (hlen : op.precompiled = none → op.size * op.size ≤ gate.length) (hg : GateBuf op gate Gv) (factor : R)
    {mem : List R} {f : Nat → R} (hm : Holds mem (2 ^ n) f)
    (order : List (BitVec 64) → List (BitVec 64)) (hord : ∀ l, (order l).Perm l) :
    ∃ ps mem' f', Geo n ps (tq.map (pos le n)) (cq.map (pos le n)) ∧
      runOrder op normSq le (BitVec.ofNat 64 n) mem gate (tq.map (BitVec.ofNat 64)) (cq.map (BitVec.ofNat 64)) factor
        order = .ok (0, mem') ∧ Holds mem' (2 ^ n) f' ∧
      (∀ pb < 2 ^ (n - (tq.length + cq.length)), ∀ i < op.size,
        f' (sidx ps (tq.map (pos le n)) (cq.map (pos le n)) pb i) =
          newAmp op Gv factor (fun j => f (sidx ps (tq.map (pos le n)) (cq.map (pos le n)) pb j)) i) ∧
      (∀ b, (∀ pb < 2 ^ (n - (tq.length + cq.length)), ∀ i < op.size,
        b ≠ sidx ps (tq.map (pos le n)) (cq.map (pos le n)) pb i) → f' b = f b) :=
  runOrder_computes op normSq hcn le hn tq cq hnd hlt ht hc hlen (computes hg factor hcn) hm order hord

end
end DG.Kernel
