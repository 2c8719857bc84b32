import Verif.Spec.Circuit
import Verif.Proofs.RegisterExtra
import Mathlib.Data.List.Forall2

/-! Refinement of the registers of a circuit to layouts. -/

namespace DG
open Spec

theorem inert_qubitEnv : Inert qubitEnv := fun _ => rfl

namespace Bank

/-- One register represents a list of objects and is not frozen. -/
def RegOk (p : RLabel × Reg) (q : RLabel × List Nat) : Prop :=
  p.1 = q.1 ∧ CyReg.Rep p.2.cy (q.2.map Lbl.obj) ∧ p.2.frozen = some false

/-- The registers represent the layout. -/
structure Ok (b : Bank) (L : Layout) : Prop where
  regs : List.Forall₂ RegOk b.regs L
  labels : L.labels.Nodup
  nodup : L.items.Nodup

/-- The cache is empty or represents the layout. -/
def Fresh (b : Bank) (L : Layout) : Prop := ∀ r, b.cache = some r → CyReg.Rep r.cy (L.items.map Lbl.obj)

theorem Ok.shows {b : Bank} {L : Layout} (h : Ok b L) : Shows b L :=
  h.regs.imp fun _ _ hp => ⟨hp.1, hp.2.1.iter_eq⟩

theorem map_obj_inj {a b : List Nat} (h : a.map Lbl.obj = b.map Lbl.obj) : a = b :=
  List.map_injective_iff.2 (fun _ _ h => by simpa using h) h

theorem obj_nodup {l : List Nat} : (l.map Lbl.obj).Nodup ↔ l.Nodup :=
  List.nodup_map_iff (fun _ _ h => by simpa using h)

theorem obj_mem {l : List Nat} {k : Nat} : Lbl.obj k ∈ l.map Lbl.obj ↔ k ∈ l := by simp

theorem shows_unique {b : Bank} {L L' : Layout} (h : Shows b L) (h' : Shows b L') : L = L' := by
  unfold Shows at h h'
  generalize b.regs = rs at h h'
  induction h generalizing L' with
  | nil => cases h'; rfl
  | cons hp _ ih =>
    cases h' with
    | cons hp' ht' =>
      rw [ih ht']
      congr 1
      refine Prod.ext (hp.1.symm.trans hp'.1) ?_
      have := hp.2.symm.trans hp'.2
      exact map_obj_inj (Except.ok.inj this)

theorem extend_ok {ev : EqEnv} (hev : Inert ev) {r : CyReg} {A B : List Lbl} (h : CyReg.Rep r A) (hn : (A ++ B).Nodup) (p : Bool) :
    (r.extend ev B p).1 = .ok () ∧ CyReg.Rep (r.extend ev B p).2 (A ++ B) := by
  have := CyReg.extend_eq hev p B h
  rwa [CyReg.spec_extend_ok _ _ hn] at this

theorem rep_new {ev : EqEnv} (hev : Inert ev) {l : List Lbl} (h : l.Nodup) : CyReg.Rep (Reg.new ev l).cy l := by
  have := (extend_ok hev CyReg.rep_empty (B := l) (by simpa using h) true).2
  simpa [Reg.new, CyReg.init] using this

theorem plus_ok {ev : EqEnv} (hev : Inert ev) {a b : Reg} {A B : List Lbl} (ha : CyReg.Rep a.cy A) (hb : CyReg.Rep b.cy B)
    (hn : (A ++ B).Nodup) : ∃ r, plus ev a b = .ok r ∧ CyReg.Rep r.cy (A ++ B) := by
  unfold plus
  rw [hb.iter_eq]
  have := extend_ok hev (r := a.cy.copy) (A := A) (B := B) ⟨ha.stop, ha.nodup, ha.nd, ha.i2l, ha.l2i⟩ hn false
  dsimp only
  generalize a.cy.copy.extend ev B false = x at this ⊢
  obtain ⟨res, cy⟩ := x
  obtain ⟨h1, h2⟩ := this
  cases h1
  exact ⟨_, rfl, h2⟩

theorem sum_ok {ev : EqEnv} (hev : Inert ev) {rs : PyDict RLabel Reg} {L : Layout} (h : List.Forall₂ RegOk rs L) :
    ∀ {acc : Reg} {A : List Nat}, CyReg.Rep acc.cy (A.map Lbl.obj) → (A ++ L.items).Nodup →
    ∃ r, sum ev rs.values acc = .ok r ∧ CyReg.Rep r.cy ((A ++ L.items).map Lbl.obj) := by
  induction h with
  | nil => intro acc A ha _; exact ⟨acc, rfl, by simpa [Layout.items] using ha⟩
  | @cons p q rs L hp _ ih =>
    intro acc A ha hn
    have e : A ++ Layout.items (q :: L) = (A ++ q.2) ++ Layout.items L := by simp [Layout.items]
    rw [e] at hn ⊢
    obtain ⟨r, hr, hrep⟩ := plus_ok hev ha hp.2.1 (by
      rw [← List.map_append, obj_nodup]; exact (List.nodup_append.1 hn).1)
    rw [← List.map_append] at hrep
    obtain ⟨r', hr', hrep'⟩ := ih hrep hn
    refine ⟨r', ?_, hrep'⟩
    simp only [PyDict.values, List.map_cons, sum, hr]
    exact hr'

/-- Reading the flattened register never fails and leaves the registers alone. -/
theorem flat_ok {ev : EqEnv} (hev : Inert ev) {b : Bank} {L : Layout} (h : Ok b L) :
    ∃ r b', b.flat ev = (.ok r, b') ∧ b'.regs = b.regs ∧ b'.cache = some r ∧
      (Fresh b L → CyReg.Rep r.cy (L.items.map Lbl.obj)) ∧ (b.cache = none → CyReg.Rep r.cy (L.items.map Lbl.obj)) := by
  unfold flat
  cases hc : b.cache with
  | some r => exact ⟨r, b, rfl, rfl, hc, fun hf => hf r hc, fun h => by cases h⟩
  | none =>
    obtain ⟨r, hr, hrep⟩ := sum_ok hev h.regs (acc := Reg.new ev []) (A := []) (by simpa using rep_new hev List.nodup_nil)
      (by simpa using h.nodup)
    simp only [List.nil_append] at hrep
    dsimp only
    rw [hr]
    exact ⟨r, _, rfl, rfl, rfl, fun _ => hrep, fun _ => hrep⟩

theorem ok_of_regs {b b' : Bank} {L : Layout} (h : Ok b L) (e : b'.regs = b.regs) : Ok b' L :=
  ⟨by rw [e]; exact h.regs, h.labels, h.nodup⟩

theorem regs_map_fst {rs : PyDict RLabel Reg} {L : Layout} (h : List.Forall₂ RegOk rs L) : rs.keys = L.labels := by
  induction h with
  | nil => rfl
  | cons hp _ ih => simp only [PyDict.keys, Layout.labels, List.map_cons] at ih ⊢; rw [ih, hp.1]

theorem regs_get? {rs : PyDict RLabel Reg} {L : Layout} (h : List.Forall₂ RegOk rs L) (l : RLabel) :
    rs.contains l = true ↔ l ∈ L.labels := by
  rw [← regs_map_fst h]
  clear h
  induction rs with
  | nil => simp [PyDict.contains, PyDict.get?, PyDict.keys]
  | cons p rs ih =>
    obtain ⟨k, v⟩ := p
    simp only [PyDict.contains, PyDict.get?, PyDict.keys, List.map_cons, List.mem_cons] at ih ⊢
    by_cases hk : k = l
    · simp [hk]
    · simp only [hk, if_false]
      rw [ih]
      simp [Ne.symm hk]

theorem set_new {rs : PyDict RLabel Reg} {L : Layout} (h : List.Forall₂ RegOk rs L) {l : RLabel} (hl : l ∉ L.labels)
    {r : Reg} {ks : List Nat} (hr : RegOk (l, r) (l, ks)) :
    List.Forall₂ RegOk (PyDict.set rs l r) (L ++ [(l, ks)]) := by
  induction h with
  | nil => exact .cons hr .nil
  | @cons p q rs L hp _ ih =>
    obtain ⟨k, v⟩ := p
    have hk : k ≠ l := by
      rintro rfl
      apply hl
      simp only [Layout.labels, List.map_cons, List.mem_cons]
      exact .inl hp.1
    simp only [PyDict.set, hk, if_false, List.cons_append]
    exact .cons hp (ih (fun hm => hl (by simp only [Layout.labels, List.map_cons, List.mem_cons]; exact .inr hm)))

theorem items_append (L L' : Layout) : Layout.items (L ++ L') = L.items ++ L'.items := by simp [Layout.items]

/-- The label used by `addRegister`. -/
def newLabel (b : Bank) (pre : String) : Option RLabel → RLabel
  | none => .str (pre ++ toString b.regs.length)
  | some l => l

theorem addRegister_dup {ev : EqEnv} {b : Bank} {L : Layout} (h : Ok b L) (pre : String) (n : Int) (label : Option RLabel) (fresh : Nat)
    (hl : newLabel b pre label ∈ L.labels) : b.addRegister ev pre n label fresh = (.error .valueError, b) := by
  unfold addRegister
  have := (regs_get? h.regs _).2 hl
  cases label <;> simp only [newLabel] at this <;> simp only [this, if_true]

theorem addRegister_ok {ev : EqEnv} (hev : Inert ev) {b : Bank} {L : Layout} (h : Ok b L) (pre : String) (n : Int)
    (label : Option RLabel) (fresh : Nat) (hl : newLabel b pre label ∉ L.labels) (hf : ∀ k ∈ L.items, k < fresh) :
    ∃ created b', b.addRegister ev pre n label fresh = (.ok created, b') ∧ b'.cache = none ∧
      Ok b' (L ++ [(newLabel b pre label, List.range' fresh n.toNat)]) ∧
      ∃ r b'', b.flat ev = (.ok r, b'') ∧ created = (List.range n.toNat).map fun i => RLabel.str (toString (r.cy.stop + i)) := by
  have hc : b.regs.contains (newLabel b pre label) = false := by
    rw [← Bool.not_eq_true, regs_get? h.regs]; exact hl
  obtain ⟨r, b', hflat, hregs, -, -⟩ := flat_ok hev h
  have hdata : ((List.range n.toNat).map fun (i : Nat) => Lbl.obj (fresh + i)) = (List.range' fresh n.toNat).map Lbl.obj := by
    rw [List.range'_eq_map_range, List.map_map]; rfl
  have hok : Ok { regs := b.regs.set (newLabel b pre label) (Reg.new ev ((List.range' fresh n.toNat).map Lbl.obj)), cache := none }
      (L ++ [(newLabel b pre label, List.range' fresh n.toNat)]) := by
    refine ⟨set_new h.regs hl ⟨rfl, rep_new hev (obj_nodup.2 List.nodup_range'), rfl⟩, ?_, ?_⟩
    · simp only [Layout.labels, List.map_append, List.map_cons, List.map_nil]
      rw [List.nodup_append]
      refine ⟨h.labels, by simp, ?_⟩
      intro a ha c hc2; simp at hc2; subst hc2; rintro rfl; exact hl ha
    · rw [items_append, List.nodup_append]
      refine ⟨h.nodup, by simpa [Layout.items] using List.nodup_range', ?_⟩
      intro a ha c hc2
      simp [Layout.items] at hc2
      have := hf a ha
      omega
  refine ⟨(List.range n.toNat).map fun i => RLabel.str (toString (r.cy.stop + i)),
    { regs := b.regs.set (newLabel b pre label) (Reg.new ev ((List.range' fresh n.toNat).map Lbl.obj)), cache := none },
    ?_, rfl, hok, r, b', hflat, rfl⟩
  unfold addRegister size
  rw [hflat]
  cases label with
  | none =>
    simp only [newLabel] at hc ⊢
    simp only [hc, Bool.false_eq_true, if_false, hregs, hdata]
  | some l =>
    simp only [newLabel] at hc ⊢
    simp only [hc, Bool.false_eq_true, if_false, hregs, hdata]

/-- The bank after an addition chose its register. -/
theorem chooseRegister_ok {ev : EqEnv} (hev : Inert ev) {b : Bank} {L : Layout} (h : Ok b L) (hf : L ≠ [] → Fresh b L)
    (pre : String) (label : Option RLabel) (fresh : Nat) (hlt : ∀ k ∈ L.items, k < fresh) :
    ∃ b', b.chooseRegister ev pre label fresh = (.ok (L.withRegister pre label).1, b') ∧
      Ok b' (L.withRegister pre label).2 ∧ Fresh b' (L.withRegister pre label).2 := by
  unfold chooseRegister
  cases label with
  | some l =>
    simp only [Layout.withRegister]
    by_cases hl : l ∈ L.labels
    · rw [if_pos ((regs_get? h.regs l).2 hl), if_pos hl]
      refine ⟨b, rfl, h, hf ?_⟩
      rintro rfl; simp [Layout.labels] at hl
    · rw [if_neg (by rw [regs_get? h.regs]; exact hl), if_neg hl]
      obtain ⟨created, b', h1, h2, h3, -⟩ := addRegister_ok hev h pre 0 (some l) fresh hl hlt
      rw [h1]
      exact ⟨b', rfl, by simpa [newLabel] using h3, fun r hr => by rw [h2] at hr; cases hr⟩
  | none =>
    have hk := regs_map_fst h.regs
    cases L with
    | cons p L =>
      simp only [Layout.labels, List.map_cons] at hk
      simp only [hk, Layout.withRegister]
      exact ⟨b, rfl, h, hf (by simp)⟩
    | nil =>
      simp only [Layout.labels, List.map_nil] at hk
      simp only [hk, Layout.withRegister]
      obtain ⟨created, b', h1, h2, h3, -⟩ := addRegister_ok hev h pre 0 none fresh (by simp [Layout.labels]) hlt
      have hlen : b.regs.length = 0 := by
        have := h.regs.length_eq; simpa using this
      have e0 : toString (0 : Nat) = "0" := rfl
      simp only [newLabel, hlen, List.nil_append, Int.toNat_zero, List.range'_zero, e0] at h3
      have hk' := regs_map_fst h3.regs
      rw [h1]
      simp only [Layout.labels, List.map_cons, List.map_nil] at hk'
      simp only [hk']
      exact ⟨b', rfl, h3, fun r hr => by rw [h2] at hr; cases hr⟩

theorem withRegister_items (L : Layout) (pre : String) (label : Option RLabel) : (L.withRegister pre label).2.items = L.items := by
  unfold Layout.withRegister
  cases label with
  | some l => dsimp only; split <;> simp [Layout.items]
  | none => cases L <;> simp [Layout.items]

theorem withRegister_mem (L : Layout) (pre : String) (label : Option RLabel) :
    (L.withRegister pre label).1 ∈ (L.withRegister pre label).2.labels := by
  unfold Layout.withRegister
  cases label with
  | some l => dsimp only; split <;> simp_all [Layout.labels]
  | none => cases L <;> simp [Layout.labels]

theorem store_regs {ev : EqEnv} (hev : Inert ev) {rs : PyDict RLabel Reg} {L : Layout} (h : List.Forall₂ RegOk rs L)
    (hlab : L.labels.Nodup) {l : RLabel} (hl : l ∈ L.labels) {k : Nat} (hk : k ∉ L.items) :
    ∃ r r', PyDict.get? rs l = some r ∧ r.add ev [.obj k] = (.ok (), r') ∧
      List.Forall₂ RegOk (PyDict.set rs l r') (L.addTo l k) := by
  induction h with
  | nil => simp [Layout.labels] at hl
  | @cons p q rs L hp ht ih =>
    obtain ⟨lp, rp⟩ := p
    obtain ⟨lq, kq⟩ := q
    obtain ⟨h1, h2, h3⟩ := hp
    dsimp only at h1 h2 h3
    subst h1
    simp only [Layout.labels, List.map_cons, List.nodup_cons, List.mem_cons] at hlab hl
    by_cases hlp : lp = l
    · subst hlp
      have hkq : k ∉ kq := fun hm => hk (by simp [Layout.items, hm])
      have hn : (kq.map Lbl.obj ++ [Lbl.obj k]).Nodup := by
        have : (kq ++ [k]).map Lbl.obj = kq.map Lbl.obj ++ [Lbl.obj k] := by simp
        rw [← this, obj_nodup, List.nodup_append]
        refine ⟨obj_nodup.1 h2.nodup, by simp, ?_⟩
        intro a ha c hc; simp at hc; subst hc; rintro rfl; exact hkq ha
      have he := extend_ok hev h2 hn false
      refine ⟨rp, { rp with cy := (rp.cy.extend ev [.obj k] false).2 }, by simp [PyDict.get?], ?_, ?_⟩
      · unfold Reg.add Reg.getFrozen
        rw [h3]
        dsimp only
        rw [← he.1]
      · have hrest : Layout.addTo L lp k = L := by
          unfold Layout.addTo
          conv_rhs => rw [← List.map_id L]
          apply List.map_congr_left
          intro p hp
          have : p.1 ≠ lp := by
            rintro rfl
            exact hlab.1 (List.mem_map_of_mem hp)
          simp [this]
        have e : Layout.addTo ((lp, kq) :: L) lp k = (lp, kq ++ [k]) :: Layout.addTo L lp k := by
          simp [Layout.addTo]
        rw [e, hrest]
        simp only [PyDict.set, if_true]
        exact .cons ⟨rfl, by simpa using he.2, h3⟩ ht
    · have hl' : l ∈ Layout.labels L := by
        rcases hl with h | h
        · exact absurd h.symm hlp
        · exact h
      obtain ⟨r, r', g1, g2, g3⟩ := ih hlab.2 hl' (fun hm => hk (by
        simp only [Layout.items, List.flatMap_cons, List.mem_append]; exact .inr hm))
      refine ⟨r, r', by simp [PyDict.get?, hlp, g1], g2, ?_⟩
      have e : Layout.addTo ((lp, kq) :: L) l k = (lp, kq) :: Layout.addTo L l k := by
        simp [Layout.addTo, hlp]
      rw [e]
      simp only [PyDict.set, hlp, if_false]
      exact .cons ⟨rfl, h2, h3⟩ g3

theorem addTo_labels (L : Layout) (l : RLabel) (k : Nat) : (L.addTo l k).labels = L.labels := by
  unfold Layout.addTo Layout.labels
  rw [List.map_map]
  apply List.map_congr_left
  intro p _
  dsimp only [Function.comp]
  split <;> rfl

theorem addTo_none {L : Layout} {l : RLabel} (hl : l ∉ L.labels) (k : Nat) : L.addTo l k = L := by
  unfold Layout.addTo
  conv_rhs => rw [← List.map_id L]
  apply List.map_congr_left
  intro p hp
  have : p.1 ≠ l := by rintro rfl; exact hl (List.mem_map_of_mem hp)
  simp [this]

/-- Exactly one item is added. -/
theorem addTo_items {L : Layout} (hlab : L.labels.Nodup) {l : RLabel} (hl : l ∈ L.labels) (k : Nat) :
    ∃ P S, L.items = P ++ S ∧ (L.addTo l k).items = P ++ k :: S := by
  induction L with
  | nil => simp [Layout.labels] at hl
  | cons p L ih =>
    obtain ⟨lp, kp⟩ := p
    simp only [Layout.labels, List.map_cons, List.nodup_cons, List.mem_cons] at hlab hl
    by_cases hlp : lp = l
    · subst hlp
      refine ⟨kp, Layout.items L, by simp [Layout.items], ?_⟩
      have e : Layout.addTo ((lp, kp) :: L) lp k = (lp, kp ++ [k]) :: Layout.addTo L lp k := by simp [Layout.addTo]
      rw [e, addTo_none hlab.1]
      simp [Layout.items]
    · obtain ⟨P, S, h1, h2⟩ := ih hlab.2 (by
        rcases hl with h | h
        · exact absurd h.symm hlp
        · exact h)
      refine ⟨kp ++ P, S, by simp [Layout.items] at h1 ⊢; exact h1, ?_⟩
      have e : Layout.addTo ((lp, kp) :: L) l k = (lp, kp) :: Layout.addTo L l k := by simp [Layout.addTo, hlp]
      rw [e]
      simp only [Layout.items, List.flatMap_cons, List.append_assoc] at h2 ⊢
      rw [h2]

theorem addTo_nodup {L : Layout} (hlab : L.labels.Nodup) (hn : L.items.Nodup) (l : RLabel) {k : Nat} (hk : k ∉ L.items) :
    (L.addTo l k).items.Nodup := by
  by_cases hl : l ∈ L.labels
  · obtain ⟨P, S, h1, h2⟩ := addTo_items hlab hl k
    rw [h2]
    rw [h1] at hn hk
    exact List.nodup_middle.2 (List.nodup_cons.2 ⟨hk, hn⟩)
  · rwa [addTo_none hl]

theorem store_ok {ev : EqEnv} (hev : Inert ev) {b : Bank} {L : Layout} (h : Ok b L) {l : RLabel} (hl : l ∈ L.labels) {k : Nat}
    (hk : k ∉ L.items) : ∃ b', b.store ev l k = (.ok (), b') ∧ Ok b' (L.addTo l k) ∧ b'.cache = none := by
  obtain ⟨r, r', h1, h2, h3⟩ := store_regs hev h.regs h.labels hl hk
  unfold store
  rw [h1]
  dsimp only
  rw [h2]
  exact ⟨_, rfl, ⟨h3, by rw [addTo_labels]; exact h.labels, addTo_nodup h.labels h.nodup l hk⟩, rfl⟩

/-- `add_qubit`/`add_bit` of an item that is already there. -/
theorem addItem_dup {ev : EqEnv} (hev : Inert ev) {b : Bank} {L : Layout} (h : Ok b L) (hf : L ≠ [] → Fresh b L)
    (pre : String) (k : Nat) (t : Bool) (label : Option RLabel) (fresh : Nat) (hlt : ∀ k ∈ L.items, k < fresh) (hk : k ∈ L.items) :
    ∃ b', b.addItem ev pre (some (k, t)) label fresh = (.error .valueError, b') ∧
      Ok b' (L.withRegister pre label).2 ∧ Fresh b' (L.withRegister pre label).2 := by
  obtain ⟨b1, h1, h2, h3⟩ := chooseRegister_ok hev h hf pre label fresh hlt
  obtain ⟨r, b2, g1, g2, g3, g4, -⟩ := flat_ok hev h2
  have hrep := g4 h3
  refine ⟨b2, ?_, ok_of_regs h2 g2, fun r' hr' => by rw [g3] at hr'; cases hr'; exact hrep⟩
  unfold addItem
  rw [h1]
  dsimp only
  rw [g1]
  have : holds r ((some (k, t)).map Prod.fst) = true := by
    simp only [Option.map_some, holds]
    rw [hrep.count_iff, obj_mem, withRegister_items]
    exact hk
  dsimp only
  rw [if_pos this]

/-- `add_qubit`/`add_bit` otherwise: the item `given` if it is true, a new one if not. -/
theorem addItem_ok {ev : EqEnv} (hev : Inert ev) {b : Bank} {L : Layout} (h : Ok b L) (hf : L ≠ [] → Fresh b L)
    (pre : String) (given : Option (Nat × Bool)) (label : Option RLabel) (fresh : Nat) (hlt : ∀ k ∈ L.items, k < fresh)
    (hk : ∀ k t, given = some (k, t) → k ∉ L.items) :
    ∃ created b' item, b.addItem ev pre given label fresh = (.ok created, b') ∧
      Ok b' ((L.withRegister pre label).2.addTo (L.withRegister pre label).1 item) ∧ b'.cache = none ∧
      ((∃ k, given = some (k, true) ∧ item = k ∧ created = []) ∨
       ((given = none ∨ ∃ k, given = some (k, false)) ∧ item = fresh ∧ created = [.str (toString L.items.length)])) := by
  obtain ⟨b1, h1, h2, h3⟩ := chooseRegister_ok hev h hf pre label fresh hlt
  obtain ⟨r, b2, g1, g2, g3, g4, -⟩ := flat_ok hev h2
  have hrep := g4 h3
  have hok2 := ok_of_regs h2 g2
  have hno : holds r (given.map Prod.fst) = false := by
    cases given with
    | none => rfl
    | some p =>
      simp only [Option.map_some, holds]
      rw [← Bool.not_eq_true, hrep.count_iff, obj_mem, withRegister_items]
      exact hk p.1 p.2 rfl
  have hmem := withRegister_mem L pre label
  have hstop : r.cy.stop = L.items.length := by rw [hrep.stop, withRegister_items]; simp
  have hfresh : fresh ∉ (L.withRegister pre label).2.items := by
    rw [withRegister_items]; intro hm; exact absurd (hlt _ hm) (lt_irrefl _)
  have key : ∀ item, item ∉ (L.withRegister pre label).2.items → ∃ b', b2.store ev (L.withRegister pre label).1 item = (.ok (), b') ∧
      Ok b' ((L.withRegister pre label).2.addTo (L.withRegister pre label).1 item) ∧ b'.cache = none :=
    fun item hi => store_ok hev hok2 hmem hi
  unfold addItem
  rw [h1]
  dsimp only
  rw [g1]
  dsimp only
  rw [hno]
  rcases given with _ | ⟨k, _ | _⟩
  · obtain ⟨b3, s1, s2, s3⟩ := key fresh hfresh
    refine ⟨_, b3, fresh, ?_, s2, s3, .inr ⟨.inl rfl, rfl, rfl⟩⟩
    simp only [Bool.false_eq_true, if_false, s1, hstop]
  · obtain ⟨b3, s1, s2, s3⟩ := key fresh hfresh
    refine ⟨_, b3, fresh, ?_, s2, s3, .inr ⟨.inr ⟨k, rfl⟩, rfl, rfl⟩⟩
    simp only [Bool.false_eq_true, if_false, s1, hstop]
  · obtain ⟨b3, s1, s2, s3⟩ := key k (by rw [withRegister_items]; exact hk k true rfl)
    refine ⟨_, b3, k, ?_, s2, s3, .inl ⟨k, rfl, rfl, rfl⟩⟩
    simp only [Bool.false_eq_true, if_false, s1]

/-! ### searching -/

theorem findLoop_ok {rs : PyDict RLabel Reg} {P S : Layout} {l : RLabel} {A B : List Nat} {k : Nat} (asLabel : Bool)
    (h : List.Forall₂ RegOk rs (P ++ (l, A ++ k :: B) :: S)) (hk : k ∉ P.items) (hA : k ∉ A) (i : Nat) :
    findLoop k asLabel rs i = .ok (if asLabel then .inl l else .inr (i + P.length), (A.length : Int)) := by
  induction P generalizing rs i with
  | nil =>
    cases h with
    | @cons p q rs L hp ht =>
      obtain ⟨lp, rp⟩ := p
      obtain ⟨h1, h2, -⟩ := hp
      dsimp only at h1 h2
      subst h1
      unfold findLoop
      have hm : Lbl.obj k ∈ (A ++ k :: B).map Lbl.obj := by simp
      rw [if_pos ((h2.count_iff _).2 hm), h2.index_eq]
      simp only [hm, if_true]
      have : ((A ++ k :: B).map Lbl.obj).idxOf (Lbl.obj k) = A.length := by
        rw [List.map_append, List.idxOf_append, if_neg (by simpa using hA)]
        simp
      rw [this]
      cases asLabel <;> simp
  | cons p P ih =>
    cases h with
    | @cons p' q rs L hp ht =>
      obtain ⟨lp, rp⟩ := p'
      obtain ⟨-, h2, -⟩ := hp
      dsimp only at h2
      have hk1 : k ∉ p.2 := fun hm => hk (by simp [Layout.items, hm])
      have hk2 : k ∉ Layout.items P := fun hm => hk (by
        simp only [Layout.items, List.flatMap_cons, List.mem_append]; exact .inr hm)
      unfold findLoop
      rw [if_neg (by rw [h2.count_iff, obj_mem]; exact hk1), ih ht hk2]
      cases asLabel <;> simp
      omega

theorem findLoop_none {rs : PyDict RLabel Reg} {L : Layout} {k : Nat} (asLabel : Bool)
    (h : List.Forall₂ RegOk rs L) (hk : k ∉ L.items) (i : Nat) : findLoop k asLabel rs i = .error .valueError := by
  induction h generalizing i with
  | nil => rfl
  | @cons p q rs L hp ht ih =>
    obtain ⟨lp, rp⟩ := p
    have hk1 : k ∉ q.2 := fun hm => hk (by simp [Layout.items, hm])
    have hk2 : k ∉ Layout.items L := fun hm => hk (by
      simp only [Layout.items, List.flatMap_cons, List.mem_append]; exact .inr hm)
    unfold findLoop
    rw [if_neg (by rw [hp.2.1.count_iff, obj_mem]; exact hk1), ih hk2]

theorem mem_items_split {L : Layout} {k : Nat} (hk : k ∈ L.items) :
    ∃ (P : Layout) (l : RLabel) (A B : List Nat) (S : Layout), L = P ++ (l, A ++ k :: B) :: S ∧ k ∉ P.items ∧ k ∉ A := by
  induction L with
  | nil => simp [Layout.items] at hk
  | cons p L ih =>
    obtain ⟨l, ks⟩ := p
    by_cases h : k ∈ ks
    · obtain ⟨A, B, rfl, hA⟩ := List.eq_append_cons_of_mem h
      exact ⟨[], l, A, B, L, rfl, by simp [Layout.items], hA⟩
    · have : k ∈ Layout.items L := by
        simp only [Layout.items, List.flatMap_cons, List.mem_append] at hk ⊢
        exact hk.resolve_left h
      obtain ⟨P, l', A, B, S, rfl, h1, h2⟩ := ih this
      refine ⟨(l, ks) :: P, l', A, B, S, rfl, ?_, h2⟩
      simp only [Layout.items, List.flatMap_cons, List.mem_append, not_or] at h1 ⊢
      exact ⟨h, h1⟩

theorem chain_ok {rs : PyDict RLabel Reg} {L : Layout} (h : List.Forall₂ RegOk rs L) :
    chain rs.values = .ok (L.items.map Lbl.obj) := by
  induction h with
  | nil => rfl
  | @cons p q rs L hp _ ih =>
    simp only [PyDict.values, List.map_cons] at ih ⊢
    unfold chain
    rw [hp.2.1.iter_eq, ih]
    simp [Layout.items]

theorem search_all (lab : Nat → Option RLabel) (label : RLabel) (ks : List Nat) (acc : List Nat) :
    search lab label true (ks.map Lbl.obj) acc =
      if acc ++ ks.filter (fun k => lab k = some label) = [] then .error .valueError
      else .ok (.many (acc ++ ks.filter fun k => lab k = some label)) := by
  induction ks generalizing acc with
  | nil =>
    simp only [List.map_nil, search, List.filter_nil, List.append_nil]
    cases acc <;> simp
  | cons k ks ih =>
    simp only [List.map_cons, search, if_true]
    by_cases hk : lab k = some label
    · rw [if_pos hk, ih]
      simp [hk]
    · rw [if_neg hk, ih]
      simp [hk]

theorem search_first (lab : Nat → Option RLabel) (label : RLabel) (ks : List Nat) :
    search lab label false (ks.map Lbl.obj) [] =
      match ks.find? (fun k => lab k = some label) with
      | some k => .ok (.one k)
      | none => .error .valueError := by
  induction ks with
  | nil => simp [search]
  | cons k ks ih =>
    simp only [List.map_cons, search, Bool.false_eq_true, if_false]
    by_cases hk : lab k = some label
    · simp [hk]
    · rw [if_neg hk, ih]
      simp [hk]

theorem regs_lookup {rs : PyDict RLabel Reg} {L : Layout} (h : List.Forall₂ RegOk rs L) (hn : L.labels.Nodup) {l : RLabel}
    {ks : List Nat} (hm : (l, ks) ∈ L) : ∃ r, PyDict.get? rs l = some r ∧ r.cy.iter = .ok (ks.map Lbl.obj) := by
  induction h with
  | nil => simp at hm
  | @cons p q rs L hp _ ih =>
    obtain ⟨lp, rp⟩ := p
    obtain ⟨lq, kq⟩ := q
    obtain ⟨h1, h2, -⟩ := hp
    dsimp only at h1 h2
    subst h1
    simp only [Layout.labels, List.map_cons, List.nodup_cons] at hn
    rcases List.mem_cons.1 hm with h | h
    · cases h
      exact ⟨rp, by simp [PyDict.get?], h2.iter_eq⟩
    · have : lp ≠ l := by
        rintro rfl; exact hn.1 (List.mem_map_of_mem (f := Prod.fst) h)
      obtain ⟨r, g1, g2⟩ := ih hn.2 h
      exact ⟨r, by simp [PyDict.get?, this, g1], g2⟩

end Bank
end DG
