import Verif.Spec.DirectRegs
import Verif.Proofs.Bank

/-! Lemmas for C121. -/

namespace DG.Bank
open Spec

/-- The cached register is empty, or shows some of the items in order and has no attribute `_frozen`. -/
structure Lag (b : Bank) (L : Layout) : Prop where
  ok : Ok b L
  cache : ∀ r, b.cache = some r → ∃ A : List Nat, CyReg.Rep r.cy (A.map Lbl.obj) ∧ A.Sublist L.items
  frozen : ∀ r, b.cache = some r → L ≠ [] → r.frozen = none

theorem Lag.of_none {b : Bank} {L : Layout} (h : Ok b L) (hc : b.cache = none) : Lag b L :=
  ⟨h, fun r hr => (by rw [hc] at hr; cases hr), fun r hr => (by rw [hc] at hr; cases hr)⟩

theorem inRegs_iff {b : Bank} {L : Layout} (h : Ok b L) (k : Nat) : InRegs b k ↔ k ∈ L.items := by
  replace h := h.regs
  unfold InRegs
  generalize b.regs = rs at h
  induction h with
  | nil => simp [Layout.items]
  | @cons p q rs L hp _ ih =>
    have e : k ∈ Layout.items (q :: L) ↔ k ∈ q.2 ∨ k ∈ Layout.items L := by simp [Layout.items]
    refine Iff.trans ?_ (e.trans (or_congr Iff.rfl (Iff.symm ih))).symm
    constructor
    · rintro ⟨x, hx, hc⟩
      rcases List.mem_cons.1 hx with rfl | hx
      · rw [hp.2.1.count_iff, obj_mem] at hc
        exact .inl hc
      · exact .inr ⟨x, hx, hc⟩
    · rintro (hm | ⟨x, hx, hc⟩)
      · exact ⟨p, by simp, by rw [hp.2.1.count_iff, obj_mem]; exact hm⟩
      · exact ⟨x, List.mem_cons_of_mem _ hx, hc⟩

theorem unused_iff {b : Bank} {L : Layout} (h : Ok b L) {fresh : Nat} (hu : Unused b fresh) : ∀ k ∈ L.items, k < fresh :=
  fun k hk => hu k ((inRegs_iff h k).2 hk)

/-- The result of a sum of at least one register has no attribute `_frozen`. -/
theorem sum_frozen (ev : EqEnv) : ∀ (rs : List Reg) (acc r : Reg), rs ≠ [] → sum ev rs acc = .ok r → r.frozen = none
  | [], _, _, h, _ => absurd rfl h
  | r0 :: rs, acc, r, _, h => by
    unfold sum at h
    cases hp : plus ev acc r0 with
    | error e => rw [hp] at h; cases h
    | ok acc' =>
      rw [hp] at h
      cases rs with
      | nil =>
        cases h
        unfold plus at hp
        cases hi : r0.cy.iter with
        | error e => rw [hi] at hp; cases hp
        | ok items =>
          rw [hi] at hp
          dsimp only at hp
          generalize acc.cy.copy.extend ev items false = x at hp
          obtain ⟨_ | _, cy⟩ := x
          · cases hp
          · cases hp; rfl
      | cons r1 rs => exact sum_frozen ev (r1 :: rs) acc' r (by simp) h

/-- Reading `circuit.qubits`. -/
theorem flat_lag {ev : EqEnv} (hev : Inert ev) {b : Bank} {L : Layout} (h : Lag b L) :
    ∃ r b', b.flat ev = (.ok r, b') ∧ b'.regs = b.regs ∧ b'.cache = some r ∧ Lag b' L ∧
      (∃ A : List Nat, CyReg.Rep r.cy (A.map Lbl.obj) ∧ A.Sublist L.items) ∧ (b.cache = none → CyReg.Rep r.cy (L.items.map Lbl.obj)) := by
  obtain ⟨r, b', h1, h2, h3, -, h5⟩ := flat_ok hev h.ok
  have hA : ∃ A : List Nat, CyReg.Rep r.cy (A.map Lbl.obj) ∧ A.Sublist L.items := by
    cases hc : b.cache with
    | none => exact ⟨L.items, h5 hc, List.Sublist.refl _⟩
    | some r0 =>
      have : r = r0 := by
        unfold flat at h1
        rw [hc] at h1
        exact (Except.ok.inj (congrArg Prod.fst h1)).symm
      subst this
      exact h.cache r hc
  refine ⟨r, b', h1, h2, h3, ⟨ok_of_regs h.ok h2, fun r' hr' => ?_, fun r' hr' hL => ?_⟩, hA, h5⟩
  · rw [h3] at hr'
    cases hr'
    exact hA
  · rw [h3] at hr'
    cases hr'
    unfold flat at h1
    cases hc : b.cache with
    | some r0 =>
      rw [hc] at h1
      have : r = r0 := (Except.ok.inj (congrArg Prod.fst h1)).symm
      subst this
      exact h.frozen r hc hL
    | none =>
      rw [hc] at h1
      dsimp only at h1
      cases hs : sum ev b.regs.values (Reg.new ev []) with
      | error e => rw [hs] at h1; cases congrArg Prod.fst h1
      | ok r1 =>
        rw [hs] at h1
        have : r = r1 := (Except.ok.inj (congrArg Prod.fst h1)).symm
        subst this
        refine sum_frozen ev _ _ _ ?_ hs
        intro he
        apply hL
        have hl := h.ok.regs.length_eq
        have : b.regs = [] := by simpa [PyDict.values] using he
        rw [this] at hl
        exact List.length_eq_zero_iff.1 (by simpa using hl.symm)

theorem choose_lag {ev : EqEnv} (hev : Inert ev) {b : Bank} {L : Layout} (h : Lag b L) (pre : String) (label : Option RLabel) (fresh : Nat)
    (hlt : ∀ k ∈ L.items, k < fresh) :
    ∃ b', b.chooseRegister ev pre label fresh = (.ok (L.withRegister pre label).1, b') ∧ Lag b' (L.withRegister pre label).2 := by
  unfold chooseRegister
  cases label with
  | some l =>
    simp only [Layout.withRegister]
    by_cases hl : l ∈ L.labels
    · rw [if_pos ((regs_get? h.ok.regs l).2 hl), if_pos hl]
      exact ⟨b, rfl, h⟩
    · rw [if_neg (by rw [regs_get? h.ok.regs]; exact hl), if_neg hl]
      obtain ⟨created, b', h1, h2, h3, -⟩ := addRegister_ok hev h.ok pre 0 (some l) fresh hl hlt
      rw [h1]
      exact ⟨b', rfl, .of_none (by simpa [newLabel] using h3) h2⟩
  | none =>
    have hk := regs_map_fst h.ok.regs
    cases L with
    | cons p L =>
      simp only [Layout.labels, List.map_cons] at hk
      simp only [hk, Layout.withRegister]
      exact ⟨b, rfl, h⟩
    | nil =>
      have hb : b.regs = [] := by
        have := h.ok.regs.length_eq
        exact List.length_eq_zero_iff.1 (by simpa using this)
      obtain ⟨b', h1, h2, h3⟩ := chooseRegister_ok hev h.ok (fun h => absurd rfl h) pre none fresh hlt
      unfold chooseRegister at h1
      refine ⟨b', h1, ?_⟩
      obtain ⟨created, b1, g1, g2, g3, -⟩ := addRegister_ok hev h.ok pre 0 none fresh (by simp [Layout.labels]) hlt
      have : b' = b1 := by
        simp only [hb, PyDict.keys, List.map_nil] at h1
        rw [g1] at h1
        dsimp only at h1
        split at h1
        · exact (congrArg Prod.snd h1).symm
        · exact (congrArg Prod.snd h1).symm
      subst this
      exact .of_none h2 g2

/-- `add_qubit` of a qubit that is in no register. -/
theorem add_lag {ev : EqEnv} (hev : Inert ev) {b : Bank} {L : Layout} (h : Lag b L) (pre : String) (given : Option Nat) (label : Option RLabel)
    (fresh : Nat) (hlt : ∀ k ∈ L.items, k < fresh) (hk : ∀ k, given = some k → k ∉ L.items) :
    ∃ created b', b.addItem ev pre (given.map fun k => (k, true)) label fresh = (.ok created, b') ∧ b'.cache = none ∧
      Ok b' ((L.withRegister pre label).2.addTo (L.withRegister pre label).1 (given.getD fresh)) := by
  obtain ⟨b1, h1, h2⟩ := choose_lag hev h pre label fresh hlt
  obtain ⟨r, b2, g1, g2, g3, g4, ⟨A, hA, hsub⟩, -⟩ := flat_lag hev h2
  have hmem := withRegister_mem L pre label
  have hno : holds r ((given.map fun k => (k, true)).map Prod.fst) = false := by
    cases given with
    | none => rfl
    | some k =>
      simp only [Option.map_some, holds]
      rw [← Bool.not_eq_true, hA.count_iff, obj_mem]
      intro hm
      have := hsub.subset hm
      rw [withRegister_items] at this
      exact hk k rfl this
  have hitem : given.getD fresh ∉ (L.withRegister pre label).2.items := by
    rw [withRegister_items]
    cases given with
    | none => exact fun hm => absurd (hlt _ hm) (lt_irrefl _)
    | some k => exact hk k rfl
  obtain ⟨b3, s1, s2, s3⟩ := store_ok hev g4.ok hmem hitem
  unfold addItem
  rw [h1]
  dsimp only
  rw [g1]
  dsimp only
  rw [hno]
  cases given with
  | none =>
    simp only [Option.getD_none] at s1 s2
    simp only [Option.map_none, Bool.false_eq_true, if_false, s1, Option.getD_none]
    exact ⟨_, b3, rfl, s3, s2⟩
  | some k =>
    simp only [Option.getD_some] at s1 s2
    simp only [Option.map_some, Bool.false_eq_true, if_false, s1, Option.getD_some]
    exact ⟨_, b3, rfl, s3, s2⟩

/-- An addition to a register itself. -/
theorem direct_lag {ev : EqEnv} (hev : Inert ev) {b : Bank} {L : Layout} (h : Lag b L) {l : RLabel} (hl : l ∈ L.labels) {k : Nat} (hk : k ∉ L.items) :
    ∃ b', b.directAdd ev l k = (.ok (), b') ∧ Lag b' (L.addTo l k) ∧ b'.cache = b.cache ∧ b.store ev l k = (.ok (), { b' with cache := none }) := by
  obtain ⟨r, r', h1, h2, h3⟩ := store_regs hev h.ok.regs h.ok.labels hl hk
  unfold directAdd store
  rw [h1]
  dsimp only
  rw [h2]
  refine ⟨_, rfl, ⟨⟨h3, by rw [addTo_labels]; exact h.ok.labels, addTo_nodup h.ok.labels h.ok.nodup l hk⟩, fun r hr => ?_, fun r hr hL => ?_⟩, rfl, rfl⟩
  · obtain ⟨A, hA, hs⟩ := h.cache r hr
    obtain ⟨P, S, e1, e2⟩ := addTo_items h.ok.labels hl k
    refine ⟨A, hA, hs.trans ?_⟩
    rw [e1, e2]
    exact List.Sublist.append_left (List.sublist_cons_self k S) P
  · refine h.frozen r hr ?_
    rintro rfl
    exact hL rfl

theorem not_label {ev : EqEnv} {b : Bank} {L : Layout} (h : Ok b L) {l : RLabel} (hl : l ∉ L.labels) (k : Nat) : b.directAdd ev l k = (.error .keyError, b) := by
  have := mt (regs_get? h.regs l).1 hl
  unfold directAdd
  cases hg : PyDict.get? b.regs l with
  | none => rfl
  | some r => simp [PyDict.contains, hg] at this

/-- Careful histories. -/
theorem careful_lag {b : Bank} (h : Careful b) : ∃ L, Lag b L := by
  induction h with
  | new => exact ⟨[], .of_none ⟨.nil, by simp [Layout.labels], by simp [Layout.items]⟩ rfl⟩
  | @addRegister b n label fresh _ hu ih =>
    obtain ⟨L, hL⟩ := ih
    by_cases hl : newLabel b "qreg" label ∈ L.labels
    · rw [addRegister_dup hL.ok "qreg" n label fresh hl]
      exact ⟨L, hL⟩
    · obtain ⟨created, b', h1, h2, h3, -⟩ := addRegister_ok inert_qubitEnv hL.ok "qreg" n label fresh hl (unused_iff hL.ok hu)
      rw [h1]
      exact ⟨_, .of_none h3 h2⟩
  | @addQubit b given label fresh _ hu hk ih =>
    obtain ⟨L, hL⟩ := ih
    obtain ⟨created, b', h1, h2, h3⟩ := add_lag inert_qubitEnv hL "qreg" given label fresh (unused_iff hL.ok hu)
      (fun k hg hm => hk k hg ((inRegs_iff hL.ok k).2 hm))
    rw [h1]
    exact ⟨_, .of_none h3 h2⟩
  | @direct b l k _ hk ih =>
    obtain ⟨L, hL⟩ := ih
    by_cases hl : l ∈ L.labels
    · obtain ⟨b', h1, h2, -⟩ := direct_lag inert_qubitEnv hL hl (fun hm => hk ((inRegs_iff hL.ok k).2 hm))
      rw [h1]
      exact ⟨_, h2⟩
    · rw [not_label hL.ok hl]
      exact ⟨L, hL⟩
  | @read b _ ih =>
    obtain ⟨L, hL⟩ := ih
    obtain ⟨r, b', h1, -, -, h4, -⟩ := flat_lag inert_qubitEnv hL
    rw [h1]
    exact ⟨L, h4⟩

/-- Freezing a register does not change a sum. -/
theorem sum_freeze (ev : EqEnv) (l : RLabel) (r0 : Reg) : ∀ (rs : PyDict RLabel Reg) (acc : Reg), PyDict.get? rs l = some r0 →
    sum ev (PyDict.values (PyDict.set rs l r0.freeze)) acc = sum ev rs.values acc
  | [], _, h => by cases h
  | (l', r') :: rs, acc, h => by
    by_cases hl : l' = l
    · subst hl
      have : r' = r0 := by simpa [PyDict.get?] using h
      subst this
      simp only [PyDict.set, if_true, PyDict.values, List.map_cons, sum]
      rfl
    · have h' : PyDict.get? rs l = some r0 := by simpa [PyDict.get?, hl] using h
      simp only [PyDict.set, hl, if_false, PyDict.values, List.map_cons, sum]
      cases plus ev acc r' with
      | error e => rfl
      | ok acc' => exact sum_freeze ev l r0 rs acc' h'

theorem get_set (rs : PyDict RLabel Reg) (l : RLabel) (r : Reg) : PyDict.get? (PyDict.set rs l r) l = some r := by
  induction rs with
  | nil => simp [PyDict.set, PyDict.get?]
  | cons p rs ih =>
    obtain ⟨l', r'⟩ := p
    by_cases hl : l' = l
    · simp [PyDict.set, PyDict.get?, hl]
    · simp [PyDict.set, PyDict.get?, hl, ih]

theorem set_same (rs : PyDict RLabel Reg) (l : RLabel) (r : Reg) : PyDict.set (PyDict.set rs l r) l r = PyDict.set rs l r := by
  induction rs with
  | nil => simp [PyDict.set]
  | cons p rs ih =>
    obtain ⟨l', r'⟩ := p
    by_cases hl : l' = l
    · simp [PyDict.set, hl]
    · simp [PyDict.set, hl, ih]

end DG.Bank
