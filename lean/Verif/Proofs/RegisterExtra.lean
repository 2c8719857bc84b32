import Verif.Proofs.RegisterOps
import Verif.Model.Register

namespace DG
open PyDict
namespace CyReg

/-- `r` is the result of some history of register operations on a newly constructed register. -/
def Reachable (ev : EqEnv) (r : CyReg) : Prop :=
  ∃ data ops, Spec.PreAll ops (Spec.extend [] data true).2 ∧ r = (run ev ops (init ev (.iter data))).2

theorem rep_init {ev : EqEnv} (hev : Inert ev) (data : List Lbl) :
    Rep (init ev (.iter data)) (Spec.extend [] data true).2 := (extend_eq hev true data rep_empty).2

theorem Reachable.rep {ev : EqEnv} (hev : Inert ev) {r : CyReg} (h : Reachable ev r) : ∃ L, Rep r L := by
  obtain ⟨data, ops, hp, rfl⟩ := h
  exact ⟨_, (run_eq hev ops (rep_init hev data) hp).2⟩

theorem Reachable.rep_iter {ev : EqEnv} (hev : Inert ev) {r : CyReg} (h : Reachable ev r) {L : List Lbl}
    (hL : r.iter = .ok L) : Rep r L := by
  obtain ⟨L', h'⟩ := h.rep hev
  have := h'.iter_eq.symm.trans hL
  cases this; exact h'

theorem Reachable.extend {ev : EqEnv} (_hev : Inert ev) {r : CyReg} (h : Reachable ev r) (vs : List Lbl) (p : Bool) :
    Reachable ev (r.extend ev vs p).2 := by
  obtain ⟨data, ops, hp, rfl⟩ := h
  refine ⟨data, ops ++ [.extend vs p], ?_, ?_⟩
  · have : ∀ (ops : List Spec.RegOp) L, Spec.PreAll ops L → Spec.PreAll (ops ++ [.extend vs p]) L := by
      intro ops
      induction ops with
      | nil => intro L _; exact ⟨trivial, trivial⟩
      | cons op ops ih => intro L h; exact ⟨h.1, ih _ h.2⟩
    exact this _ _ hp
  · have : ∀ (ops : List Spec.RegOp) r, (run ev (ops ++ [.extend vs p]) r).2 = ((run ev ops r).2.extend ev vs p).2 := by
      intro ops
      induction ops with
      | nil => intro r; rfl
      | cons op ops ih => intro r; simp only [List.cons_append, run, ih]
    rw [this]

theorem reachable_new (ev : EqEnv) (data : List Lbl) : Reachable ev (init ev (.iter data)) :=
  ⟨data, [], trivial, rfl⟩

/-- Lists described by `extend` without duplicates. -/
theorem spec_extend_ok (L data : List Lbl) (h : (L ++ data).Nodup) (p : Bool) :
    Spec.extend L data p = (.ok (), L ++ data) := by
  induction data generalizing L with
  | nil => simp [Spec.extend]
  | cons v vs ih =>
    have hv : v ∉ L := by
      rw [List.nodup_append] at h; intro hc; exact h.2.2 v hc v (by simp) rfl
    unfold Spec.extend
    rw [if_neg hv, ih (L ++ [v]) (by simpa using h)]
    simp

theorem spec_extend_dup (L P S : List Lbl) (x : Lbl) (h : (L ++ P).Nodup) (hx : x ∈ L ++ P) :
    Spec.extend L (P ++ x :: S) false = (.error .valueError, L ++ P) := by
  induction P generalizing L with
  | nil =>
    simp only [List.append_nil] at hx
    simp [Spec.extend, hx]
  | cons v vs ih =>
    have hv : v ∉ L := by
      rw [List.nodup_append] at h; intro hc; exact h.2.2 v hc v (by simp) rfl
    rw [List.cons_append]
    unfold Spec.extend
    rw [if_neg hv, ih (L ++ [v]) (by simpa using h) (by simpa using hx)]
    simp

/-- The mapping returned by `_relabel_as_integers` restores the labels. -/
theorem restore {ev : EqEnv} (hev : Inert ev) {r : CyReg} {L : List Lbl} (h : Rep r L) :
    (r.relabelAsIntegers.2.relabel ev r.relabelAsIntegers.1).1 = .ok () ∧
    Rep (r.relabelAsIntegers.2.relabel ev r.relabelAsIntegers.1).2 L := by
  have h' := relabelAsIntegers_rep h
  have pair : ∀ k w, (k, w) ∈ r.i2l → ∃ i : Nat, k = .int i ∧ L[i]? = some w ∧ w ≠ .int i := by
    intro k w hm; exact (h.i2l _ _).1 (get?_of_mem h.nd hm)
  have inj : ∀ (i j : Nat) (x : Lbl), L[i]? = some x → L[j]? = some x → i = j := by
    intro i j x hi hj
    obtain ⟨h1, h2⟩ := List.getElem?_eq_some_iff.1 hi
    obtain ⟨h3, h4⟩ := List.getElem?_eq_some_iff.1 hj
    exact (h.nodup.getElem_inj_iff).1 (h2.trans h4.symm)
  have hkL : ∀ k ∈ r.i2l.keys, k ∈ (List.range L.length).map fun (i : Nat) => Lbl.int i := by
    intro k hk
    obtain ⟨w, hw⟩ := mem_keys_iff.1 hk
    obtain ⟨i, rfl, hi, _⟩ := pair _ _ hw
    exact List.mem_map.2 ⟨i, List.mem_range.2 (List.getElem?_eq_some_iff.1 hi).1, rfl⟩
  have hok : Spec.RelabelOk r.i2l ((List.range L.length).map fun (i : Nat) => Lbl.int i) := by
    constructor
    · show r.i2l.values.Nodup
      by_contra hnd
      obtain ⟨k, k', v, h1, h2, hne⟩ := exists_dup_of_not_nodup hnd h.nd
      obtain ⟨i, rfl, hi, _⟩ := pair _ _ h1
      obtain ⟨j, rfl, hj, _⟩ := pair _ _ h2
      exact hne (by rw [inj i j v hi hj])
    · intro n hn hnL
      obtain ⟨k, hk⟩ := mem_values_iff.1 (show n ∈ r.i2l.values from hn)
      obtain ⟨i, rfl, hi, hne⟩ := pair _ _ hk
      obtain ⟨j, hj, rfl⟩ := List.mem_map.1 hnL
      rw [List.mem_range] at hj
      show Lbl.int j ∈ r.i2l.keys
      by_contra hnk
      have hj' := h.getElem?_int j hj
      rw [(get?_eq_none_iff _ _).2 hnk] at hj'
      have : i = j := inj i j _ hi (by simpa using hj')
      subst this; exact hne rfl
  have := (relabel_eq hev h' (m := r.i2l) h.nd hkL).1 hok
  refine ⟨this.1, ?_⟩
  have e : Spec.substAll r.i2l ((List.range L.length).map fun (i : Nat) => Lbl.int i) = L := by
    rw [substAll_eq]
    unfold substD
    rw [List.map_map]
    apply List.ext_getElem?
    intro i
    by_cases hi : i < L.length
    · rw [List.getElem?_map, List.getElem?_range hi, h.getElem?_int i hi]; rfl
    · rw [List.getElem?_eq_none (by simpa using hi), List.getElem?_eq_none (by simpa using hi)]
  rw [e] at this; exact this.2

/-! ### slices -/

theorem sliceLoop_rep {ev : EqEnv} (hev : Inert ev) {r : CyReg} {L : List Lbl} (h : Rep r L) (is : List Nat) :
    ∀ {new : CyReg} {M : List Lbl}, Rep new M → (∀ i ∈ is, i < L.length) →
    (M ++ is.filterMap (fun i => L[i]?)).Nodup →
    ∃ new', r.sliceLoop ev (is.map fun (i : Nat) => (i : Int)) new = .ok new' ∧
      Rep new' (M ++ is.filterMap (fun i => L[i]?)) := by
  induction is with
  | nil => intro new M hM _ _; exact ⟨new, rfl, by simpa using hM⟩
  | cons i is ih =>
    intro new M hM hlt hnd
    have hi : i < L.length := hlt i (by simp)
    have hgi : L[i]? = some L[i] := by simp [hi]
    simp only [List.filterMap_cons, hgi] at hnd ⊢
    have hx : L[i] ∉ M := by
      rw [List.nodup_append] at hnd; intro hc; exact hnd.2.2 _ hc _ (by simp) rfl
    have ha := append_eq (ev := ev) hM (some L[i]) false (by intro w _; rw [pyEq_inert hev]; simp [eq_comm])
    simp only [Spec.append, hx, if_false] at ha
    simp only [List.map_cons, sliceLoop, h.at_nat i hi]
    generalize hra : new.append ev (some L[i]) false = ra at ha
    obtain ⟨res, r'⟩ := ra
    obtain ⟨h1, h2⟩ := ha
    simp only at h1 h2
    subst h1
    simp only
    obtain ⟨new', h3, h4⟩ := ih h2 (fun j hj => hlt j (List.mem_cons_of_mem _ hj)) (by simpa using hnd)
    exact ⟨new', h3, by simpa using h4⟩

theorem ceil_lt (a b s k : Nat) (hs : 0 < s) :
    k < (((b : Int) - a + s - 1) / s).toNat ↔ a + k * s < b := by
  have hs' : (0 : Int) < s := by omega
  rw [Int.lt_toNat, ← Int.add_one_le_iff, Int.le_ediv_iff_mul_le hs', Int.add_mul]
  constructor <;> intro h
  · have : (k : Int) * s = ((k * s : Nat) : Int) := by simp
    omega
  · have : (k : Int) * s = ((k * s : Nat) : Int) := by simp
    omega

theorem pyRange_pos (a b s : Nat) (hs : 0 < s) :
    pyRange a b s =
      ((List.range (((b : Int) - a + s - 1) / s).toNat).map fun k => a + k * s).map fun (i : Nat) => (i : Int) := by
  unfold pyRange
  rw [if_pos (by omega), List.map_map]
  apply List.map_congr_left
  intro k _
  simp

theorem getSlice_rep {ev : EqEnv} (hev : Inert ev) {r : CyReg} {L : List Lbl} (h : Rep r L)
    (a b s : Nat) (hb : b ≤ L.length) (hs : 0 < s) :
    ∃ new M, r.getSlice ev (some a) (some b) (some s) = .ok new ∧ Rep new M ∧
      ∀ k, M[k]? = if a + k * s < b then L[a + k * s]? else none := by
  set n := (((b : Int) - a + s - 1) / s).toNat with hn
  set is := (List.range n).map fun k => a + k * s with his
  have hlt : ∀ i ∈ is, i < L.length := by
    intro i hi
    obtain ⟨k, hk, rfl⟩ := List.mem_map.1 hi
    rw [List.mem_range, hn, ceil_lt a b s k hs] at hk
    omega
  have hfm : is.filterMap (fun i => L[i]?) = (List.range n).filterMap (fun k => L[a + k * s]?) := by
    rw [his, List.filterMap_map]; rfl
  have hget : ∀ k, (is.filterMap (fun i => L[i]?))[k]? = if a + k * s < b then L[a + k * s]? else none := by
    have : ∀ m, (∀ k, k < m → a + k * s < L.length) → ∀ k,
        ((List.range m).filterMap (fun k => L[a + k * s]?))[k]? = if k < m then L[a + k * s]? else none := by
      intro m
      induction m with
      | zero => intro _ k; simp
      | succ m ih =>
        intro hm k
        have hlen : ((List.range m).filterMap (fun k => L[a + k * s]?)).length = m := by
          rw [List.length_filterMap_eq_countP]
          rw [List.countP_eq_length.2]
          · simp
          · intro x hx
            have := hm x (by have := List.mem_range.1 hx; omega)
            simp [this]
        rw [List.range_succ, List.filterMap_append]
        have hmm : a + m * s < L.length := hm m (by omega)
        simp only [List.filterMap_cons, List.filterMap_nil, List.getElem?_eq_getElem hmm]
        rcases Nat.lt_trichotomy k m with hk | hk | hk
        · rw [List.getElem?_append_left (by omega), ih (fun k hk => hm k (by omega)), if_pos hk, if_pos (by omega)]
        · subst hk
          rw [List.getElem?_append_right (by omega), hlen, if_pos (by omega)]
          simp [hmm]
        · rw [List.getElem?_eq_none (by simp [hlen]; omega), if_neg (by omega)]
    intro k
    rw [hfm, this n]
    · rw [hn]
      by_cases hk : a + k * s < b
      · rw [if_pos hk, if_pos ((ceil_lt a b s k hs).2 hk)]
      · rw [if_neg hk, if_neg (by rw [ceil_lt a b s k hs]; exact hk)]
    · intro k hk
      rw [hn, ceil_lt a b s k hs] at hk; omega
  have hnd : (is.filterMap (fun i => L[i]?)).Nodup := by
    rw [List.nodup_iff_injective_getElem]
    intro i j hij
    have hi := hget i.1
    have hj := hget j.1
    rw [List.getElem?_eq_getElem i.2] at hi
    rw [List.getElem?_eq_getElem j.2] at hj
    have hib : a + i.1 * s < b := by
      by_contra hc; rw [if_neg hc] at hi; cases hi
    have hjb : a + j.1 * s < b := by
      by_contra hc; rw [if_neg hc] at hj; cases hj
    rw [if_pos hib, List.getElem?_eq_getElem (by omega)] at hi
    rw [if_pos hjb, List.getElem?_eq_getElem (by omega)] at hj
    have e : L[a + i.1 * s] = L[a + j.1 * s] := by
      rw [← Option.some.inj hi, ← Option.some.inj hj]; exact hij
    have := (h.nodup.getElem_inj_iff).1 e
    have : i.1 * s = j.1 * s := by omega
    exact Fin.ext (Nat.eq_of_mul_eq_mul_right hs this)
  obtain ⟨new, h1, h2⟩ := sliceLoop_rep hev h is rep_empty hlt (by simpa using hnd)
  refine ⟨new, _, ?_, h2, by simpa using hget⟩
  unfold getSlice
  simp only [Option.getD_some]
  rw [if_neg (by omega), pyRange_pos a b s hs]
  exact h1

/-- Appending objects whose current value differs from their position. -/
theorem extend_eq_values {ev : EqEnv} (vs : List Lbl) :
    ∀ {r : CyReg} {L : List Lbl}, Rep r L →
    (∀ i k, vs[i]? = some (.obj k) → ev k ≠ some ((L.length + i : Nat) : Int)) →
    (r.extend ev vs false).1 = (Spec.extend L vs false).1 ∧
      Rep (r.extend ev vs false).2 (Spec.extend L vs false).2 := by
  induction vs with
  | nil => intro r L h _; exact ⟨rfl, h⟩
  | cons v vs ih =>
    intro r L h hev
    have := append_eq (ev := ev) h (some v) false (by
      intro w hw; cases hw
      rw [Bool.eq_iff_iff, decide_eq_true_iff]
      cases v with
      | int n => simp only [pyEq, beq_iff_eq, Lbl.int.injEq]; exact eq_comm
      | obj k =>
        have := hev 0 k (by simp)
        simp only [Nat.add_zero] at this
        simp [pyEq, h.stop, this])
    unfold extend Spec.extend
    generalize hra : r.append ev (some v) false = ra at this ⊢
    obtain ⟨res, r'⟩ := ra
    simp only [Spec.append] at this
    by_cases hv : v ∈ L
    · simp only [hv, if_true, Bool.false_eq_true, if_false] at this ⊢
      obtain ⟨h1, h2⟩ := this; subst h1; exact ⟨rfl, h2⟩
    · simp only [hv, if_false] at this ⊢
      obtain ⟨h1, h2⟩ := this; subst h1
      refine ih h2 ?_
      intro i k hi
      have := hev (i + 1) k (by simpa using hi)
      rw [List.length_append]
      simpa [Nat.add_assoc, Nat.add_comm 1] using this

/-- Appending an object whose current value is its position is appending the integer. -/
theorem append_valued {ev : EqEnv} {r : CyReg} {L : List Lbl} (h : Rep r L) {k : Nat} (hv : ev k = some (L.length : Int))
    (hk : Lbl.obj k ∉ L) (hi : ∀ n : Int, Lbl.int n ∈ L → n < L.length) :
    (r.append ev (some (.obj k)) false).1 = .ok (.obj k) ∧
      Rep (r.append ev (some (.obj k)) false).2 (L ++ [.int (L.length : Int)]) := by
  have h0 : Lbl.int (L.length : Int) ∉ L := fun hm => absurd (hi _ hm) (lt_irrefl _)
  obtain ⟨-, h2⟩ := append_eq (ev := ev) h (some (.int (L.length : Int))) false (by
    intro w hw; cases hw
    rw [Bool.eq_iff_iff, decide_eq_true_iff]
    simp only [pyEq, beq_iff_eq, Lbl.int.injEq]; exact eq_comm)
  simp only [Spec.append, h0, if_false] at h2
  have c1 : r.count (.obj k) = false := by rw [h.count_eq]; simpa using hk
  have c2 : r.count (.int (L.length : Int)) = false := by rw [h.count_eq]; simpa using h0
  have e : (r.append ev (some (.int (L.length : Int))) false).2 = (r.append ev (some (.obj k)) false).2 := by
    simp [append, c1, c2, push, pyEq, h.stop, hv]
  rw [e] at h2
  refine ⟨?_, h2⟩
  simp [append, c1]

/-- Appending different objects, whatever their values. -/
theorem extend_values {ev : EqEnv} (bits : List Nat) :
    ∀ {r : CyReg} {L : List Lbl}, Rep r L → bits.Nodup → (∀ k ∈ bits, Lbl.obj k ∉ L) → (∀ n : Int, Lbl.int n ∈ L → n < L.length) →
    (r.extend ev (bits.map Lbl.obj) false).1 = .ok () ∧
      Rep (r.extend ev (bits.map Lbl.obj) false).2
        (L ++ bits.mapIdx fun i k => if ev k = some ((L.length + i : Nat) : Int) then .int ((L.length + i : Nat) : Int) else .obj k) := by
  induction bits with
  | nil => intro r L h _ _ _; exact ⟨rfl, by simpa [extend] using h⟩
  | cons k bits ih =>
    intro r L h hnd hk hi
    rw [List.nodup_cons] at hnd
    have hk0 : Lbl.obj k ∉ L := hk k (by simp)
    have key : ∃ r', r.append ev (some (.obj k)) false = (.ok (.obj k), r') ∧
        Rep r' (L ++ [if ev k = some (L.length : Int) then Lbl.int (L.length : Int) else .obj k]) := by
      by_cases hv : ev k = some (L.length : Int)
      · obtain ⟨h1, h2⟩ := append_valued h hv hk0 hi
        refine ⟨_, Prod.ext h1 rfl, ?_⟩
        simpa [hv] using h2
      · obtain ⟨h1, h2⟩ := append_eq (ev := ev) h (some (.obj k)) false (by
          intro w hw; cases hw
          simp [pyEq, h.stop, hv])
        simp only [Spec.append, hk0, if_false] at h1 h2
        refine ⟨_, Prod.ext h1 rfl, ?_⟩
        simpa [hv] using h2
    obtain ⟨r', h1, h2⟩ := key
    simp only [List.map_cons, extend, h1]
    obtain ⟨g1, g2⟩ := ih h2 hnd.2 (by
      intro k' hk' hm
      rw [List.mem_append, List.mem_singleton] at hm
      rcases hm with hm | hm
      · exact hk k' (by simp [hk']) hm
      · split at hm
        · cases hm
        · cases hm; exact hnd.1 hk') (by
      intro n hm
      rw [List.mem_append, List.mem_singleton] at hm
      rw [List.length_append]
      rcases hm with hm | hm
      · have := hi n hm; simp; omega
      · split at hm
        · cases hm; simp
        · cases hm)
    refine ⟨g1, ?_⟩
    convert g2 using 1
    rw [List.mapIdx_cons, List.append_assoc, List.singleton_append]
    simp only [Nat.add_zero, List.length_append, List.length_singleton]
    congr 2
    apply List.ext_getElem (by simp)
    intro i h1 h2
    simp only [List.getElem_mapIdx]
    have : L.length + (i + 1) = L.length + 1 + i := by omega
    rw [this]

end CyReg

namespace Reg

theorem add_frozen {r : Reg} (h : r.frozen = some true) (ev : EqEnv) (data : List Lbl) :
    r.add ev data = (.error .registerError, r) := by
  simp [add, getFrozen, h]

theorem selfGetItem_frozen {r : Reg} (h : r.frozen = some true) (ev : EqEnv) (i : Int) :
    (r.selfGetItem ev i).2 = r := by
  unfold selfGetItem
  cases r.cy.iter with
  | error e => rfl
  | ok data =>
    simp only [getFrozen, h]
    split <;> rfl

end Reg
end DG
