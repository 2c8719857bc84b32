import Verif.Proofs.WorldQ

/-! Deep copies of registers represent the copied items. -/

namespace DG
open Spec

namespace Lbl

theorem shift_inj (n : Nat) : Function.Injective (Lbl.shift n) := by
  intro a b h
  cases a <;> cases b <;> simp_all [Lbl.shift]

theorem shift_eq_int {n : Nat} {v : Lbl} {i : Int} : v.shift n = .int i ↔ v = .int i := by
  cases v <;> simp [Lbl.shift]

end Lbl

theorem PyDict.get?_shift (n : Nat) (d : PyDict Lbl Lbl) (k v : Lbl) :
    (PyDict.get? (d.map fun p => (p.1.shift n, p.2.shift n)) k = some v) ↔ ∃ k' v', k = k'.shift n ∧ v = v'.shift n ∧ PyDict.get? d k' = some v' := by
  induction d with
  | nil => simp
  | cons p d ih =>
    rw [List.map_cons, PyDict.get?_cons]
    simp only [PyDict.get?_cons]
    by_cases hk : p.1.shift n = k
    · simp only [hk, if_true, Option.some.injEq]
      constructor
      · rintro rfl; exact ⟨p.1, p.2, hk.symm, rfl, by simp⟩
      · rintro ⟨k', v', rfl, rfl, h⟩
        rw [if_pos (Lbl.shift_inj n hk)] at h
        cases h; rfl
    · simp only [hk, if_false]
      rw [ih]
      constructor
      · rintro ⟨k', v', rfl, rfl, h⟩; exact ⟨k', v', rfl, rfl, by rw [if_neg (fun e => hk (by rw [e]))]; exact h⟩
      · rintro ⟨k', v', rfl, rfl, h⟩; exact ⟨k', v', rfl, rfl, by rwa [if_neg (fun e => hk (by rw [e]))] at h⟩

theorem CyReg.Rep.shift {r : CyReg} {L : List Lbl} (h : CyReg.Rep r L) (n : Nat) : CyReg.Rep (r.shift n) (L.map (Lbl.shift n)) where
  stop := by simpa [CyReg.shift] using h.stop
  nodup := h.nodup.map (Lbl.shift_inj n)
  nd := by
    have := h.nd.map (Lbl.shift_inj n)
    simpa [CyReg.shift, PyDict.keys, Function.comp_def] using this
  i2l := by
    intro k w
    unfold CyReg.shift
    dsimp only
    rw [PyDict.get?_shift]
    constructor
    · rintro ⟨k', v', rfl, rfl, h1⟩
      obtain ⟨i, rfl, h2, h3⟩ := (h.i2l _ _).1 h1
      exact ⟨i, rfl, by rw [List.getElem?_map, h2]; rfl, fun e => h3 (Lbl.shift_eq_int.1 e)⟩
    · rintro ⟨i, rfl, h2, h3⟩
      rw [List.getElem?_map, Option.map_eq_some_iff] at h2
      obtain ⟨v', h2, rfl⟩ := h2
      exact ⟨.int i, v', rfl, rfl, (h.i2l _ _).2 ⟨i, rfl, h2, fun e => h3 (Lbl.shift_eq_int.2 e)⟩⟩
  l2i := by
    intro v w
    unfold CyReg.shift
    dsimp only
    rw [PyDict.get?_shift]
    constructor
    · rintro ⟨k', v', rfl, rfl, h1⟩
      obtain ⟨i, rfl, h2, h3⟩ := (h.l2i _ _).1 h1
      exact ⟨i, rfl, by rw [List.getElem?_map, h2]; rfl, fun e => h3 (Lbl.shift_eq_int.1 e)⟩
    · rintro ⟨i, rfl, h2, h3⟩
      rw [List.getElem?_map, Option.map_eq_some_iff] at h2
      obtain ⟨v', h2, rfl⟩ := h2
      exact ⟨v', .int i, rfl, rfl, (h.l2i _ _).2 ⟨i, rfl, h2, fun e => h3 (Lbl.shift_eq_int.2 e)⟩⟩

theorem CyReg.at_shift (n : Nat) (r : CyReg) (i : Int) : (r.shift n).at i = (r.at i).map (Lbl.shift n) := by
  have hr : (r.shift n).isRange = r.isRange := by simp [CyReg.isRange, CyReg.shift]
  have hs : (r.shift n).stop = r.stop := rfl
  have hg : ∀ j : Int, (r.shift n).i2l.get? (.int j) = (r.i2l.get? (.int j)).map (Lbl.shift n) := by
    intro j
    apply Option.ext
    intro v
    unfold CyReg.shift
    dsimp only
    rw [PyDict.get?_shift, Option.map_eq_some_iff]
    constructor
    · rintro ⟨k, v', h1, rfl, h2⟩
      rw [Lbl.shift_eq_int.1 h1.symm] at h2
      exact ⟨v', h2, rfl⟩
    · rintro ⟨v', h1, rfl⟩
      exact ⟨.int j, v', rfl, rfl, h1⟩
  unfold CyReg.at
  simp only [hr, hs, hg]
  by_cases h1 : ¬ (0 ≤ (if i < 0 then (r.stop : Int) + i else i) ∧ (if i < 0 then (r.stop : Int) + i else i) < r.stop)
  · rw [if_pos h1, if_pos h1]; rfl
  · rw [if_neg h1, if_neg h1]
    cases r.isRange with
    | true => rfl
    | false =>
      simp only [Bool.false_eq_true, if_false]
      cases r.i2l.get? (.int (if i < 0 then (r.stop : Int) + i else i)) <;> rfl

theorem mapM_map {α β γ : Type} (f : α → Except Err β) (h : β → γ) : ∀ l : List α, l.mapM (fun a => (f a).map h) = (l.mapM f).map (List.map h)
  | [] => rfl
  | a :: l => by
    rw [List.mapM_cons, List.mapM_cons, mapM_map f h l]
    cases f a with
    | error e => rfl
    | ok b => cases l.mapM f <;> rfl

theorem CyReg.iter_shift (n : Nat) (r : CyReg) : (r.shift n).iter = r.iter.map (List.map (Lbl.shift n)) := by
  have hr : (r.shift n).isRange = r.isRange := by simp [CyReg.isRange, CyReg.shift]
  have hs : (r.shift n).stop = r.stop := rfl
  unfold CyReg.iter
  rw [hr, hs]
  cases r.isRange with
  | true => simp [Except.map, Lbl.shift]
  | false =>
    simp only [Bool.false_eq_true, if_false, CyReg.at_shift]
    exact mapM_map _ _ _

/-- The layout with all items shifted. -/
def shiftLayout (n : Nat) (L : Layout) : Layout := List.map (fun q => (q.1, q.2.map (· + n))) L

theorem shiftLayout_items (n : Nat) (L : Layout) : (shiftLayout n L).items = L.items.map (· + n) := by
  unfold shiftLayout Layout.items
  induction L with
  | nil => rfl
  | cons q L ih => simp_all

theorem shiftLayout_labels (n : Nat) (L : Layout) : (shiftLayout n L).labels = L.labels := by
  unfold shiftLayout Layout.labels
  simp

theorem shift_obj (n : Nat) (l : List Nat) : (l.map Lbl.obj).map (Lbl.shift n) = (l.map (· + n)).map Lbl.obj := by
  simp [Lbl.shift]

theorem Shows.shift {b : Bank} {L : Layout} (h : Shows b L) (n : Nat) : Shows (b.shift n) (shiftLayout n L) := by
  unfold Shows Bank.shift shiftLayout
  rw [List.forall₂_map_left_iff, List.forall₂_map_right_iff]
  refine h.imp fun p q hp => ⟨hp.1, ?_⟩
  rw [Reg.shift, CyReg.iter_shift, hp.2, Except.map, shift_obj]

namespace Bank

theorem Ok.shift {b : Bank} {L : Layout} (h : Ok b L) (n : Nat) : Ok (b.shift n) (shiftLayout n L) where
  regs := by
    unfold Bank.shift shiftLayout
    rw [List.forall₂_map_left_iff, List.forall₂_map_right_iff]
    refine h.regs.imp fun p q hp => ⟨hp.1, ?_, hp.2.2⟩
    have := hp.2.1.shift n
    rwa [shift_obj] at this
  labels := by rw [shiftLayout_labels]; exact h.labels
  nodup := by rw [shiftLayout_items]; exact h.nodup.map (fun a b e => by simpa using e)

theorem Inv.shift {s : Bool} {n : Nat} {b : Bank} (h : Inv s n [] b) (m : Nat) : Inv s (n + m) [] (b.shift m) := by
  obtain ⟨L, h1, h2, h3, -, h5⟩ := h
  refine ⟨shiftLayout m L, h1.shift m, fun hs r hr => ?_, ?_, by simp, fun r hr => ?_⟩
  · simp only [Bank.shift, Option.map_eq_some_iff] at hr
    obtain ⟨r, hr, rfl⟩ := hr
    have := (h2 (hs.imp_right fun e e' => e (by rw [e']; rfl)) r hr).shift m
    rwa [shift_obj, ← shiftLayout_items] at this
  · intro k hk
    rw [shiftLayout_items, List.mem_map] at hk
    obtain ⟨a, ha, rfl⟩ := hk
    have := h3 a ha; omega
  · simp only [Bank.shift, Option.map_eq_some_iff] at hr
    obtain ⟨r, hr, rfl⟩ := hr
    obtain ⟨A, hA⟩ := h5 r hr
    exact ⟨_, hA.shift m⟩

end Bank
end DG
