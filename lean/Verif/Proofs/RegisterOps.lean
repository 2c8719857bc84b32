import Verif.Proofs.Relabel

namespace DG
open PyDict
namespace CyReg

theorem mapM_ok {α β : Type} (f : α → Except Err β) (g : α → β) (l : List α)
    (h : ∀ x ∈ l, f x = .ok (g x)) : l.mapM f = .ok (l.map g) := by
  induction l with
  | nil => rfl
  | cons a l ih =>
    rw [List.mapM_cons, h a (by simp), ih fun x hx => h x (List.mem_cons_of_mem _ hx)]
    rfl

theorem map_get?_keys (m : PyDict Lbl Lbl) (hk : m.keys.Nodup) :
    m.keys.map (fun x => (m.get? x).getD x) = m.values := by
  simp only [keys, values, List.map_map]
  apply List.map_congr_left
  rintro ⟨k, v⟩ hm
  simp [get?_of_mem hk hm]

theorem map_fst_zip_take {α β : Type} (l : List α) : ∀ l' : List β, (l.zip l').map Prod.fst = l.take l'.length := by
  induction l with
  | nil => simp
  | cons a l ih => intro l'; cases l' <;> simp [ih]

theorem removeMapping_eq {r : CyReg} {P S : List Lbl} {v : Lbl} (h : Rep r (P ++ v :: S)) :
    r.removeMapping (P.length : Int) = .ok ((v :: S).zip S) := by
  have hlen : r.stop = P.length + (S.length + 1) := by simpa using h.stop
  unfold removeMapping
  have h1 : (((r.stop : Int) - 1 - (P.length : Int)).toNat) = S.length := by rw [hlen]; omega
  rw [h1]
  have h2 := mapM_ok (fun (j : Nat) => (do
      let a ← r.at ((P.length : Int) + j)
      let b ← r.at ((P.length : Int) + j + 1)
      pure (a, b) : Except Err (Lbl × Lbl)))
    (fun j => ((P ++ v :: S)[P.length + j]?.getD v, (P ++ v :: S)[P.length + j + 1]?.getD v))
    (List.range S.length) (by
      intro j hj
      rw [List.mem_range] at hj
      have e1 : ((P.length : Int) + j) = ((P.length + j : Nat) : Int) := by omega
      have e2 : ((P.length : Int) + j + 1) = ((P.length + j + 1 : Nat) : Int) := by omega
      rw [e2, e1, h.at_nat (P.length + j) (by simp; omega), h.at_nat (P.length + j + 1) (by simp; omega)]
      have b1 : P.length + j < (P ++ v :: S).length := by simp; omega
      have b2 : P.length + j + 1 < (P ++ v :: S).length := by simp; omega
      rw [List.getElem?_eq_getElem b1, List.getElem?_eq_getElem b2]
      rfl)
  have h3 : (List.range S.length).map
      (fun j => ((P ++ v :: S)[P.length + j]?.getD v, (P ++ v :: S)[P.length + j + 1]?.getD v)) =
      (v :: S).zip S := by
    apply List.ext_getElem?
    intro i
    by_cases hi : i < S.length
    · rw [List.getElem?_map, List.getElem?_range hi]
      have e0 : (P ++ v :: S)[P.length + i]? = (v :: S)[i]? := by
        rw [List.getElem?_append_right (by omega)]; congr 1; omega
      have e1 : (P ++ v :: S)[P.length + i + 1]? = S[i]? := by
        rw [List.getElem?_append_right (by omega), show P.length + i + 1 - P.length = i + 1 by omega]; rfl
      simp only [Option.map_some, e0, e1]
      have b1 : i < (v :: S).length := by simp; omega
      rw [List.getElem?_eq_getElem b1, List.getElem?_eq_getElem hi,
        List.getElem?_eq_getElem (by simp; omega)]
      simp [List.getElem_zip]
    · rw [List.getElem?_eq_none (by simp; omega), List.getElem?_eq_none (by simp; omega)]
  rw [h3] at h2
  have hnd : (keys ((v :: S).zip S)).Nodup := by
    have : keys ((v :: S).zip S) = (v :: S).take S.length := by
      simp only [keys]; rw [map_fst_zip_take]
    rw [this]
    have := h.nodup
    rw [List.nodup_append] at this
    exact this.2.1.sublist (List.take_sublist _ _)
  rw [h2]
  show Except.ok (ofPairs ((v :: S).zip S)) = _
  rw [ofPairs_of_nodup _ hnd]

theorem remove_eq {ev : EqEnv} (hev : Inert ev) {r : CyReg} {L : List Lbl} (h : Rep r L) (v : Lbl) :
    (v ∈ L → (r.remove ev v).1 = .ok () ∧ Rep (r.remove ev v).2 (L.erase v)) ∧
    (v ∉ L → (r.remove ev v).1 = .error .valueError ∧ (r.remove ev v).2 = r) := by
  constructor
  · intro hv
    unfold remove
    rw [h.index_eq, if_pos hv]
    obtain ⟨P, S, hL, hvP⟩ := List.eq_append_cons_of_mem hv
    subst hL
    have hidx : (P ++ v :: S).idxOf v = P.length := by
      rw [List.idxOf_append_of_notMem hvP]; simp
    simp only [hidx, removeMapping_eq h]
    have hp := (pop_eq h).2
    have hkeys : keys ((v :: S).zip S) = (v :: S).dropLast := by
      simp only [keys]; rw [map_fst_zip_take]; simp [List.dropLast_eq_take]
    have hvals : values ((v :: S).zip S) = S := by
      simp only [values]; rw [List.map_snd_zip]; simp
    have hdl : (P ++ v :: S).dropLast = P ++ (v :: S).dropLast :=
      List.dropLast_append_of_ne_nil (by simp)
    have hndL := h.nodup
    rw [List.nodup_append] at hndL
    have hnd : (keys ((v :: S).zip S)).Nodup := by
      rw [hkeys]; exact hndL.2.1.sublist (List.dropLast_sublist _)
    have hok : Spec.RelabelOk ((v :: S).zip S) (P ++ v :: S).dropLast := by
      constructor
      · show (values ((v :: S).zip S)).Nodup
        rw [hvals]; exact (List.nodup_cons.1 hndL.2.1).2
      · intro n hn hnL
        have hn : n ∈ values ((v :: S).zip S) := hn
        show n ∈ keys ((v :: S).zip S)
        rw [hvals] at hn
        rw [hkeys]
        rw [hdl, List.mem_append] at hnL
        rcases hnL with hnL | hnL
        · exact absurd rfl (hndL.2.2 n hnL n (List.mem_cons_of_mem _ hn))
        · exact hnL
    have := (relabel_eq hev hp hnd (by
      intro k hk; rw [hdl, List.mem_append]; rw [hkeys] at hk; exact Or.inr hk)).1 hok
    refine ⟨this.1, ?_⟩
    have e : Spec.substAll ((v :: S).zip S) (P ++ v :: S).dropLast = (P ++ v :: S).erase v := by
      rw [substAll_eq, hdl, List.erase_append_right _ hvP, List.erase_cons_head]
      unfold substD
      rw [List.map_append]
      congr 1
      · have hid : ∀ x ∈ P, (fun x => (PyDict.get? ((v :: S).zip S) x).getD x) x = id x := by
          intro x hx
          have : PyDict.get? ((v :: S).zip S) x = none := by
            rw [get?_eq_none_iff, hkeys]
            intro hc
            exact hndL.2.2 x hx x (List.mem_of_mem_dropLast hc) rfl
          simp [this]
        rw [List.map_congr_left hid]; simp
      · have := map_get?_keys ((v :: S).zip S) hnd
        rwa [hkeys, hvals] at this
    rw [← e]; exact this.2
  · intro hv
    unfold remove
    rw [h.index_eq, if_neg hv]
    exact ⟨rfl, rfl⟩

/-- One operation of a history on the implementation. The result of `_relabel_as_integers` (a mapping) is
treated separately. -/
def step (ev : EqEnv) (r : CyReg) : Spec.RegOp → Except Err (Option Lbl) × CyReg
  | .append v p => ((r.append ev v p).1.map some, (r.append ev v p).2)
  | .extend vs p => ((r.extend ev vs p).1.map fun _ => none, (r.extend ev vs p).2)
  | .pop => (r.pop.1.map some, r.pop.2)
  | .clear => (.ok none, r.clear)
  | .relabel m => ((r.relabel ev m).1.map fun _ => none, (r.relabel ev m).2)
  | .relabelAsIntegers => (.ok none, r.relabelAsIntegers.2)
  | .remove v => ((r.remove ev v).1.map fun _ => none, (r.remove ev v).2)

/-- A history on the implementation. -/
def run (ev : EqEnv) : List Spec.RegOp → CyReg → List (Except Err (Option Lbl)) × CyReg
  | [], r => ([], r)
  | op :: ops, r =>
    let rest := run ev ops (r.step ev op).2
    ((r.step ev op).1 :: rest.1, rest.2)

theorem step_eq {ev : EqEnv} (hev : Inert ev) {r : CyReg} {L : List Lbl} (h : Rep r L) (op : Spec.RegOp)
    (hp : Spec.Pre L op) :
    (r.step ev op).1 = (Spec.step L op).1 ∧ Rep (r.step ev op).2 (Spec.step L op).2 := by
  cases op with
  | append v p =>
    obtain ⟨h1, h2⟩ := append_eq (ev := ev) h v p
      (by intro w _; rw [pyEq_inert hev]; simp [eq_comm])
    exact ⟨by simp [step, Spec.step, h1], h2⟩
  | extend vs p =>
    obtain ⟨h1, h2⟩ := extend_eq hev p vs h
    exact ⟨by simp [step, Spec.step, h1], h2⟩
  | pop =>
    obtain ⟨h1, h2⟩ := pop_eq h
    simp only [step, Spec.step, h1]
    cases hL : L.getLast? with
    | none =>
      have : L = [] := by simpa using hL
      subst this
      exact ⟨rfl, h2⟩
    | some x => exact ⟨rfl, h2⟩
  | clear => exact ⟨rfl, rep_empty⟩
  | relabel m =>
    obtain ⟨h1, h2⟩ := relabel_eq hev h (m := m) hp.1 hp.2
    simp only [step, Spec.step]
    by_cases hok : Spec.RelabelOk m L
    · rw [if_pos hok, (h1 hok).1]; exact ⟨rfl, (h1 hok).2⟩
    · rw [if_neg hok, (h2 hok).1, (h2 hok).2]; exact ⟨rfl, h⟩
  | relabelAsIntegers => exact ⟨rfl, relabelAsIntegers_rep h⟩
  | remove v =>
    obtain ⟨h1, h2⟩ := remove_eq hev h v
    simp only [step, Spec.step]
    by_cases hv : v ∈ L
    · rw [if_pos hv, (h1 hv).1]; exact ⟨rfl, (h1 hv).2⟩
    · rw [if_neg hv, (h2 hv).1, (h2 hv).2]; exact ⟨rfl, h⟩

theorem run_eq {ev : EqEnv} (hev : Inert ev) (ops : List Spec.RegOp) :
    ∀ {r : CyReg} {L : List Lbl}, Rep r L → Spec.PreAll ops L →
    (run ev ops r).1 = (Spec.run ops L).1 ∧ Rep (run ev ops r).2 (Spec.run ops L).2 := by
  induction ops with
  | nil => intro r L h _; exact ⟨rfl, h⟩
  | cons op ops ih =>
    intro r L h hp
    obtain ⟨h1, h2⟩ := step_eq hev h op hp.1
    obtain ⟨h3, h4⟩ := ih h2 hp.2
    simp only [run, Spec.run, h1, h3]
    exact ⟨trivial, h4⟩

/-- The representation is unique up to dictionary order: two lists represented by one register are equal. -/
theorem Rep.unique {r : CyReg} {L L' : List Lbl} (h : Rep r L) (h' : Rep r L') : L = L' := by
  have := h.iter_eq.symm.trans h'.iter_eq
  exact Except.ok.inj this

end CyReg
end DG
