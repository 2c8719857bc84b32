import Verif.Proofs.CyRegister

namespace DG
open PyDict
namespace CyReg

/-- Replace one label. -/
def subst1 (old new : Lbl) (L : List Lbl) : List Lbl := L.map fun x => if x = old then new else x

theorem getElem?_subst1 (old new : Lbl) (L : List Lbl) (i : Nat) :
    (subst1 old new L)[i]? = (L[i]?).map fun x => if x = old then new else x := by simp [subst1]

theorem nodup_map_of_injOn {f : Lbl → Lbl} {L : List Lbl} (h : L.Nodup)
    (hf : ∀ x ∈ L, ∀ y ∈ L, f x = f y → x = y) : (L.map f).Nodup := by
  induction L with
  | nil => simp
  | cons a L ih =>
    rw [List.nodup_cons] at h
    rw [List.map_cons, List.nodup_cons]
    refine ⟨?_, ih h.2 fun x hx y hy => hf x (List.mem_cons_of_mem _ hx) y (List.mem_cons_of_mem _ hy)⟩
    intro hm
    obtain ⟨y, hy, hfy⟩ := List.mem_map.1 hm
    have := hf y (List.mem_cons_of_mem _ hy) a (by simp) hfy
    subst this; exact h.1 hy

theorem rep_relabelOne {ev : EqEnv} (hev : Inert ev) {r : CyReg} {L : List Lbl} (h : Rep r L)
    {old new : Lbl} (ho : old ∈ L) (hn : new ∉ L) : Rep (r.relabelOne ev old new) (subst1 old new L) := by
  have hne : old ≠ new := by rintro rfl; exact hn ho
  obtain ⟨j, hj⟩ := List.mem_iff_getElem?.1 ho
  have hjlt : j < L.length := (List.getElem?_eq_some_iff.1 hj).1
  have uniq : ∀ i : Nat, L[i]? = some old → i = j := by
    intro i hi
    obtain ⟨h1, h2⟩ := List.getElem?_eq_some_iff.1 hi
    obtain ⟨h3, h4⟩ := List.getElem?_eq_some_iff.1 hj
    exact (h.nodup.getElem_inj_iff).1 (h2.trans h4.symm)
  -- the position found
  have hidx : (r.l2i.get? old).getD old = .int j := by
    by_cases hoj : old = .int j
    · cases hg : r.l2i.get? old with
      | none => simpa using hoj
      | some w =>
        obtain ⟨i, rfl, hi, hne'⟩ := (h.l2i _ _).1 hg
        rw [uniq i hi]; rfl
    · rw [(h.l2i old (.int j)).2 ⟨j, rfl, hj, hoj⟩]; rfl
  have getS : ∀ (i : Nat) (x : Lbl), (subst1 old new L)[i]? = some x ↔
      (i = j ∧ x = new) ∨ (i ≠ j ∧ L[i]? = some x) := by
    intro i x
    rw [getElem?_subst1]
    by_cases hij : i = j
    · subst hij; simp [hj, eq_comm]
    · simp only [hij, false_and, ne_eq, not_false_eq_true, true_and, false_or]
      cases hL : L[i]? with
      | none => simp
      | some y =>
        have : y ≠ old := by rintro rfl; exact hij (uniq i hL)
        simp [this]
  have hnd : (subst1 old new L).Nodup := by
    refine nodup_map_of_injOn h.nodup fun x hx y hy hxy => ?_
    by_cases h1 : x = old <;> by_cases h2 : y = old <;> simp only [h1, h2, if_true, if_false] at hxy
    · rw [h1, h2]
    · subst hxy; exact absurd hy hn
    · subst hxy; exact absurd hx hn
    · exact hxy
  unfold relabelOne
  simp only [pyEq_inert hev, hidx]
  simp only [hne, decide_false, Bool.false_eq_true, if_false, Bool.not_eq_true', decide_eq_false_iff_not]
  by_cases hnj : new = .int j
  · simp only [hnj, not_true, if_false]
    rw [← hnj]
    refine ⟨by simp [subst1, h.stop], hnd, nodup_keys_erase _ h.nd, ?_, ?_⟩
    · intro k w
      simp only [get?_erase]
      by_cases hk : Lbl.int j = k
      · rw [if_pos (by rw [hnj]; exact hk)]
        constructor
        · rintro ⟨⟩
        · rintro ⟨i, rfl, hi, hne'⟩
          have hij : i = j := ((Lbl.int_nat_inj _ _).1 hk).symm
          subst hij
          rcases (getS _ _).1 hi with ⟨_, rfl⟩ | ⟨h', _⟩
          · exact absurd (hnj ▸ rfl) hne'
          · exact absurd rfl h'
      · rw [if_neg (by rw [hnj]; exact hk), h.i2l]
        constructor
        · rintro ⟨i, rfl, hi, hne'⟩
          refine ⟨i, rfl, (getS _ _).2 (Or.inr ⟨?_, hi⟩), hne'⟩
          rintro rfl; exact hk rfl
        · rintro ⟨i, rfl, hi, hne'⟩
          rcases (getS _ _).1 hi with ⟨rfl, rfl⟩ | ⟨h', hi⟩
          · exact absurd rfl hk
          · exact ⟨i, rfl, hi, hne'⟩
    · intro v w
      simp only [get?_erase]
      by_cases hv : old = v
      · subst hv
        rw [if_pos rfl]
        constructor
        · rintro ⟨⟩
        · rintro ⟨i, rfl, hi, hne'⟩
          rcases (getS _ _).1 hi with ⟨_, h'⟩ | ⟨h', hi⟩
          · exact absurd h' hne
          · exact absurd (uniq i hi) h'
      · rw [if_neg hv, h.l2i]
        constructor
        · rintro ⟨i, rfl, hi, hne'⟩
          refine ⟨i, rfl, (getS _ _).2 (Or.inr ⟨?_, hi⟩), hne'⟩
          rintro rfl; rw [hj] at hi; exact hv (Option.some.inj hi)
        · rintro ⟨i, rfl, hi, hne'⟩
          rcases (getS _ _).1 hi with ⟨rfl, rfl⟩ | ⟨h', hi⟩
          · exact absurd hnj hne'
          · exact ⟨i, rfl, hi, hne'⟩
  · simp only [hnj, not_false_eq_true, if_true]
    refine ⟨by simp [subst1, h.stop], hnd, nodup_keys_set _ _ h.nd, ?_, ?_⟩
    · intro k w
      simp only [get?_set]
      by_cases hk : Lbl.int j = k
      · rw [if_pos hk]
        constructor
        · rintro ⟨⟩
          exact ⟨j, hk.symm, (getS _ _).2 (Or.inl ⟨rfl, rfl⟩), hnj⟩
        · rintro ⟨i, rfl, hi, hne'⟩
          have hij : i = j := ((Lbl.int_nat_inj _ _).1 hk).symm
          subst hij
          rcases (getS _ _).1 hi with ⟨_, rfl⟩ | ⟨h', _⟩
          · rfl
          · exact absurd rfl h'
      · rw [if_neg hk, h.i2l]
        constructor
        · rintro ⟨i, rfl, hi, hne'⟩
          refine ⟨i, rfl, (getS _ _).2 (Or.inr ⟨?_, hi⟩), hne'⟩
          rintro rfl; exact hk rfl
        · rintro ⟨i, rfl, hi, hne'⟩
          rcases (getS _ _).1 hi with ⟨rfl, rfl⟩ | ⟨h', hi⟩
          · exact absurd rfl hk
          · exact ⟨i, rfl, hi, hne'⟩
    · intro v w
      simp only [get?_set, get?_erase]
      by_cases hv' : new = v
      · subst hv'
        rw [if_pos rfl]
        constructor
        · rintro ⟨⟩
          exact ⟨j, rfl, (getS _ _).2 (Or.inl ⟨rfl, rfl⟩), hnj⟩
        · rintro ⟨i, rfl, hi, hne'⟩
          rcases (getS _ _).1 hi with ⟨rfl, _⟩ | ⟨h', hi⟩
          · rfl
          · exact absurd (List.mem_of_getElem? hi) hn
      · rw [if_neg hv']
        by_cases hv : old = v
        · subst hv
          rw [if_pos rfl]
          constructor
          · rintro ⟨⟩
          · rintro ⟨i, rfl, hi, hne'⟩
            rcases (getS _ _).1 hi with ⟨_, h'⟩ | ⟨h', hi⟩
            · exact absurd h' hne
            · exact absurd (uniq i hi) h'
        · rw [if_neg hv, h.l2i]
          constructor
          · rintro ⟨i, rfl, hi, hne'⟩
            refine ⟨i, rfl, (getS _ _).2 (Or.inr ⟨?_, hi⟩), hne'⟩
            rintro rfl; rw [hj] at hi; exact hv (Option.some.inj hi)
          · rintro ⟨i, rfl, hi, hne'⟩
            rcases (getS _ _).1 hi with ⟨rfl, rfl⟩ | ⟨h', hi⟩
            · exact absurd rfl hv'
            · exact ⟨i, rfl, hi, hne'⟩

/-- Substitution through a dictionary. -/
def substD (m : PyDict Lbl Lbl) (L : List Lbl) : List Lbl := L.map fun x => (m.get? x).getD x

theorem rep_applySubmap {ev : EqEnv} (hev : Inert ev) (m : PyDict Lbl Lbl) :
    ∀ {r : CyReg} {L : List Lbl}, Rep r L → m.keys.Nodup → (∀ k ∈ m.keys, k ∈ L) →
    m.values.Nodup → (∀ v ∈ m.values, v ∉ L) → Rep (r.applySubmap ev m) (substD m L) := by
  induction m with
  | nil =>
    intro r L h _ _ _ _
    have : substD ([] : PyDict Lbl Lbl) L = L := by simp [substD]
    rw [this]; exact h
  | cons p m ih =>
    obtain ⟨old, new⟩ := p
    intro r L h hk hkL hv hvL
    simp only [keys, values, List.map_cons, List.nodup_cons, List.mem_cons, forall_eq_or_imp] at hk hkL hv hvL
    have h1 := rep_relabelOne hev h hkL.1 hvL.1
    have := ih h1 hk.2 ?_ hv.2 ?_
    · have e : substD m (subst1 old new L) = substD ((old, new) :: m) L := by
        simp only [substD, subst1, List.map_map]
        apply List.map_congr_left
        intro x hx
        simp only [Function.comp, get?_cons]
        by_cases hxo : x = old
        · subst hxo
          have : PyDict.get? m new = none := by
            rw [get?_eq_none_iff]; intro hc; exact hvL.1 (hkL.2 _ hc)
          simp [this]
        · have : ¬ old = x := fun e => hxo e.symm
          simp [hxo, this]
      rw [← e]; exact this
    · intro k hkm
      have : k ≠ old := by rintro rfl; exact hk.1 hkm
      exact List.mem_map.2 ⟨k, hkL.2 k hkm, by simp [this]⟩
    · intro v hvm hc
      obtain ⟨x, hx, hxv⟩ := List.mem_map.1 hc
      by_cases hxo : x = old
      · rw [if_pos hxo] at hxv; subst hxv; exact hv.1 hvm
      · rw [if_neg hxo] at hxv; subst hxv; exact hvL.2 _ hvm hx

/-! ### conflict resolution -/

section
variable (oldL newL : List Lbl) (existing : Lbl → Bool)

/-- A label that is not in the way. -/
def Good (l : Nat) : Prop := Lbl.int l ∉ newL ∧ Lbl.int l ∉ oldL ∧ existing (.int l) = false

/-- What the loop of `_resolve_label_conflict` computes. -/
inductive Res : Nat → List (Lbl × Lbl) → PyDict Lbl Lbl → PyDict Lbl Lbl → Prop
  | nil (c) : Res c [] [] []
  | self (c o rest A B) : Res c rest A B → Res c ((o, o) :: rest) A B
  | conf (c o n rest A B l) : o ≠ n → (o ∈ newL ∨ n ∈ oldL) → c ≤ l → Good oldL newL existing l →
      Res (l + 1) rest A B → Res c ((o, n) :: rest) ((o, .int l) :: A) ((.int l, n) :: B)
  | direct (c o n rest A B) : o ≠ n → ¬ (o ∈ newL ∨ n ∈ oldL) →
      Res c rest A B → Res c ((o, n) :: rest) ((o, n) :: A) B

theorem resolveLoop_res {ev : EqEnv} (hev : Inert ev) (S : List Lbl) (fuel : Nat) (hfuel : S.length < fuel)
    (hS : ∀ l, (newL.contains l || oldL.contains l || existing l) = true → l ∈ S)
    (items : List (Lbl × Lbl)) :
    ∀ c oti itn, (keys (oti ++ items)).Nodup → (∀ k ∈ itn.keys, ∃ j : Nat, j < c ∧ k = .int j) →
    ∃ A B, resolveLoop ev existing oldL newL fuel items c oti itn = .ok (oti ++ A, itn ++ B) ∧
      Res oldL newL existing c items A B := by
  induction items with
  | nil => intro c oti itn _ _; exact ⟨[], [], by simp [resolveLoop], .nil c⟩
  | cons p rest ih =>
    obtain ⟨o, n⟩ := p
    intro c oti itn hnd hitn
    have hsplit : keys (oti ++ (o, n) :: rest) = keys oti ++ o :: keys rest := by simp [keys]
    rw [hsplit] at hnd
    have ho : o ∉ keys oti := by
      rw [List.nodup_append] at hnd; intro hc; exact hnd.2.2 o hc o (by simp) rfl
    have hnd2 : (keys (oti ++ rest)).Nodup := by
      rw [keys_append]; exact hnd.sublist ((List.Sublist.refl _).append (List.sublist_cons_self _ _))
    have hnd3 : ∀ v, (keys ((oti ++ [(o, v)]) ++ rest)).Nodup := by
      intro v; simpa [keys] using hnd
    unfold resolveLoop
    rw [pyEq_inert hev]
    by_cases hon : o = n
    · subst hon
      simp only [decide_true, if_true]
      obtain ⟨A, B, h1, h2⟩ := ih c oti itn hnd2 hitn
      exact ⟨A, B, h1, .self _ _ _ _ _ h2⟩
    · simp only [hon, decide_false, Bool.false_eq_true, if_false]
      by_cases hc : (newL.contains o || oldL.contains n) = true
      · rw [if_pos hc]
        cases hl : nextLabel (fun l => newL.contains l || oldL.contains l || existing l) fuel c with
        | none =>
          have := search_ok hS _ _ (nextLabel_none _ _ hl)
          omega
        | some l =>
          obtain ⟨h1, h2, _⟩ := nextLabel_some _ _ _ hl
          simp only [Bool.or_eq_false_iff] at h2
          have hlk : Lbl.int l ∉ itn.keys := by
            intro hc; obtain ⟨j, hj, e⟩ := hitn _ hc
            have := (Lbl.int_nat_inj _ _).1 e; omega
          simp only [set_of_notMem _ ho, set_of_notMem _ hlk]
          obtain ⟨A, B, h3, h4⟩ := ih (l + 1) (oti ++ [(o, .int l)]) (itn ++ [(.int l, n)]) (hnd3 _) (by
            intro k hk
            rw [keys_append, List.mem_append] at hk
            rcases hk with hk | hk
            · obtain ⟨j, hj, e⟩ := hitn _ hk; exact ⟨j, by omega, e⟩
            · simp [keys] at hk; exact ⟨l, by omega, hk⟩)
          refine ⟨(o, .int l) :: A, (.int l, n) :: B, by simpa using h3, ?_⟩
          refine .conf _ _ _ _ _ _ _ hon ?_ h1 ⟨?_, ?_, h2.2⟩ h4
          · simpa using hc
          · simpa using h2.1.1
          · simpa using h2.1.2
      · rw [if_neg hc]
        simp only [set_of_notMem _ ho]
        obtain ⟨A, B, h3, h4⟩ := ih c (oti ++ [(o, n)]) itn (hnd3 _) hitn
        refine ⟨(o, n) :: A, B, by simpa using h3, .direct _ _ _ _ _ _ hon ?_ h4⟩
        simpa using hc

variable {oldL newL existing}

theorem Res.memA {c items A B} (h : Res oldL newL existing c items A B) :
    ∀ k v, (k, v) ∈ A → ∃ n, (k, n) ∈ items ∧ k ≠ n ∧
      ((v = n ∧ ¬ (k ∈ newL ∨ n ∈ oldL)) ∨
       (∃ l, c ≤ l ∧ v = .int l ∧ Good oldL newL existing l ∧ (Lbl.int l, n) ∈ B ∧ (k ∈ newL ∨ n ∈ oldL))) := by
  induction h with
  | nil c => simp
  | self c o rest A B _ ih =>
    intro k v hm
    obtain ⟨n, h1, h2, h3⟩ := ih k v hm
    exact ⟨n, List.mem_cons_of_mem _ h1, h2, h3⟩
  | conf c o n rest A B l hon hcf hl hg _ ih =>
    intro k v hm
    rcases List.mem_cons.1 hm with hm | hm
    · cases hm
      exact ⟨n, by simp, hon, Or.inr ⟨l, hl, rfl, hg, by simp, hcf⟩⟩
    · obtain ⟨n', h1, h2, h3⟩ := ih k v hm
      refine ⟨n', List.mem_cons_of_mem _ h1, h2, ?_⟩
      rcases h3 with h3 | ⟨l', a, b, c, d, e⟩
      · exact Or.inl h3
      · exact Or.inr ⟨l', by omega, b, c, List.mem_cons_of_mem _ d, e⟩
  | direct c o n rest A B hon hcf _ ih =>
    intro k v hm
    rcases List.mem_cons.1 hm with hm | hm
    · cases hm
      exact ⟨n, by simp, hon, Or.inl ⟨rfl, hcf⟩⟩
    · obtain ⟨n', h1, h2, h3⟩ := ih k v hm
      exact ⟨n', List.mem_cons_of_mem _ h1, h2, h3⟩

theorem Res.memB {c items A B} (h : Res oldL newL existing c items A B) :
    ∀ v n, (v, n) ∈ B → ∃ l, c ≤ l ∧ v = .int l ∧ Good oldL newL existing l ∧
      ∃ k, (k, n) ∈ items ∧ (k, v) ∈ A ∧ k ≠ n ∧ (k ∈ newL ∨ n ∈ oldL) := by
  induction h with
  | nil c => simp
  | self c o rest A B _ ih =>
    intro k v hm
    obtain ⟨l, h1, h2, h3, k, h4, h5⟩ := ih k v hm
    exact ⟨l, h1, h2, h3, k, List.mem_cons_of_mem _ h4, h5⟩
  | conf c o n rest A B l hon hcf hl hg _ ih =>
    intro v n' hm
    rcases List.mem_cons.1 hm with hm | hm
    · cases hm
      exact ⟨l, hl, rfl, hg, o, by simp, by simp, hon, hcf⟩
    · obtain ⟨l', h1, h2, h3, k, h4, h5, h6⟩ := ih v n' hm
      exact ⟨l', by omega, h2, h3, k, List.mem_cons_of_mem _ h4, List.mem_cons_of_mem _ h5, h6⟩
  | direct c o n rest A B hon hcf _ ih =>
    intro v n' hm
    obtain ⟨l', h1, h2, h3, k, h4, h5, h6⟩ := ih v n' hm
    exact ⟨l', h1, h2, h3, k, List.mem_cons_of_mem _ h4, List.mem_cons_of_mem _ h5, h6⟩

theorem Res.complete {c items A B} (h : Res oldL newL existing c items A B) :
    ∀ k n, (k, n) ∈ items → k ≠ n → k ∈ A.keys := by
  induction h with
  | nil c => simp
  | self c o rest A B _ ih =>
    intro k n hm hne
    rcases List.mem_cons.1 hm with hm | hm
    · cases hm; exact absurd rfl hne
    · exact ih k n hm hne
  | conf c o n rest A B l hon hcf hl hg _ ih =>
    intro k n' hm hne
    rcases List.mem_cons.1 hm with hm | hm
    · cases hm; simp [keys]
    · have := ih k n' hm hne
      simp only [keys, List.map_cons, List.mem_cons]; exact Or.inr this
  | direct c o n rest A B hon hcf _ ih =>
    intro k n' hm hne
    rcases List.mem_cons.1 hm with hm | hm
    · cases hm; simp [keys]
    · have := ih k n' hm hne
      simp only [keys, List.map_cons, List.mem_cons]; exact Or.inr this

theorem Res.nodups {c items A B} (h : Res oldL newL existing c items A B)
    (hk : (keys items).Nodup) (hv : (values items).Nodup) (hsub : ∀ v ∈ values items, v ∈ newL) :
    A.keys.Nodup ∧ A.values.Nodup ∧ B.keys.Nodup ∧ B.values.Nodup := by
  induction h with
  | nil c => simp [keys, values]
  | self c o rest A B _ ih =>
    simp only [keys, values, List.map_cons, List.nodup_cons, List.mem_cons, forall_eq_or_imp] at hk hv hsub
    exact ih hk.2 hv.2 hsub.2
  | conf c o n rest A B l hon hcf hl hg hr ih =>
    simp only [keys, values, List.map_cons, List.nodup_cons, List.mem_cons, forall_eq_or_imp] at hk hv hsub
    obtain ⟨h1, h2, h3, h4⟩ := ih hk.2 hv.2 hsub.2
    simp only [keys, values, List.map_cons, List.nodup_cons] at h1 h2 h3 h4 ⊢
    refine ⟨⟨?_, h1⟩, ⟨?_, h2⟩, ⟨?_, h3⟩, ⟨?_, h4⟩⟩
    · intro hc
      obtain ⟨v, hv'⟩ := mem_keys_iff.1 hc
      obtain ⟨n', h5, _⟩ := hr.memA _ _ hv'
      exact hk.1 (mem_keys_of_mem h5)
    · intro hc
      obtain ⟨k, hk'⟩ := mem_values_iff.1 hc
      obtain ⟨n', h5, _, h6⟩ := hr.memA _ _ hk'
      rcases h6 with ⟨e, _⟩ | ⟨l', hl', e, _⟩
      · exact hg.1 (e ▸ hsub.2 _ (mem_values_of_mem h5))
      · have := (Lbl.int_nat_inj _ _).1 e; omega
    · intro hc
      obtain ⟨v, hv'⟩ := mem_keys_iff.1 hc
      obtain ⟨l', hl', e, _⟩ := hr.memB _ _ hv'
      have := (Lbl.int_nat_inj _ _).1 e; omega
    · intro hc
      obtain ⟨v, hv'⟩ := mem_values_iff.1 hc
      obtain ⟨l', hl', e, _, k, h5, _⟩ := hr.memB _ _ hv'
      exact hv.1 (mem_values_of_mem h5)
  | direct c o n rest A B hon hcf hr ih =>
    simp only [keys, values, List.map_cons, List.nodup_cons, List.mem_cons, forall_eq_or_imp] at hk hv hsub
    obtain ⟨h1, h2, h3, h4⟩ := ih hk.2 hv.2 hsub.2
    simp only [keys, values, List.map_cons, List.nodup_cons] at h1 h2 h3 h4 ⊢
    refine ⟨⟨?_, h1⟩, ⟨?_, h2⟩, h3, h4⟩
    · intro hc
      obtain ⟨v, hv'⟩ := mem_keys_iff.1 hc
      obtain ⟨n', h5, _⟩ := hr.memA _ _ hv'
      exact hk.1 (mem_keys_of_mem h5)
    · intro hc
      obtain ⟨k, hk'⟩ := mem_values_iff.1 hc
      obtain ⟨n', h5, _, h6⟩ := hr.memA _ _ hk'
      rcases h6 with ⟨e, _⟩ | ⟨l', hl', e, hg, _⟩
      · subst e; exact hv.1 (mem_values_of_mem h5)
      · subst e; exact hg.1 hsub.1

end

/-- A key determines its value and conversely. -/
theorem val_unique {m : PyDict Lbl Lbl} (hk : m.keys.Nodup) {k v v'} (h : (k, v) ∈ m) (h' : (k, v') ∈ m) :
    v = v' := by
  have := (get?_of_mem hk h).symm.trans (get?_of_mem hk h')
  exact Option.some.inj this

theorem key_unique {m : PyDict Lbl Lbl} (hv : m.values.Nodup) {k k' v} (h : (k, v) ∈ m) (h' : (k', v) ∈ m) :
    k = k' := by
  induction m with
  | nil => simp at h
  | cons p m ih =>
    simp only [values, List.map_cons, List.nodup_cons] at hv
    rcases List.mem_cons.1 h with h | h <;> rcases List.mem_cons.1 h' with h' | h'
    · rw [← h'] at h; exact (Prod.mk.inj h).1
    · rw [← h] at hv; exact absurd (mem_values_of_mem h') hv.1
    · rw [← h'] at hv; exact absurd (mem_values_of_mem h) hv.1
    · exact ih hv.2 h h'

theorem rep_resolved {ev : EqEnv} (hev : Inert ev) {r : CyReg} {L : List Lbl} (h : Rep r L)
    {m : PyDict Lbl Lbl} (hk : m.keys.Nodup) (hkL : ∀ k ∈ m.keys, k ∈ L) (hv : m.values.Nodup)
    (hvL : ∀ v ∈ m.values, v ∈ L → v ∈ m.keys)
    {newL : List Lbl} (hnewL : ∀ x, x ∈ newL ↔ x ∈ m.values) (c : Nat)
    {A B : PyDict Lbl Lbl} (hR : Res m.keys newL r.count c m A B) :
    Rep ((r.applySubmap ev A).applySubmap ev B) (substD m L) := by
  obtain ⟨n1, n2, n3, n4⟩ := hR.nodups hk hv (fun v hv => (hnewL v).2 hv)
  have hA : Rep (r.applySubmap ev A) (substD A L) := by
    refine rep_applySubmap hev A h n1 ?_ n2 ?_
    · intro k hkA
      obtain ⟨v, hv'⟩ := mem_keys_iff.1 hkA
      obtain ⟨n, h1, _⟩ := hR.memA _ _ hv'
      exact hkL k (mem_keys_of_mem h1)
    · intro v hvA hc
      obtain ⟨k, hk'⟩ := mem_values_iff.1 hvA
      obtain ⟨n, h1, h2, h3⟩ := hR.memA _ _ hk'
      rcases h3 with ⟨e, h4⟩ | ⟨l, _, e, hg, _⟩
      · subst e
        exact h4 (Or.inr (hvL _ (mem_values_of_mem h1) hc))
      · subst e
        have := hg.2.2
        rw [h.count_eq] at this; simp [hc] at this
  have hgetB : ∀ x, (∀ l, Good m.keys newL r.count l → x ≠ .int l) → B.get? x = none := by
    intro x hx
    rw [get?_eq_none_iff]; intro hc
    obtain ⟨n, hn⟩ := mem_keys_iff.1 hc
    obtain ⟨l, _, e, hg, _⟩ := hR.memB _ _ hn
    exact hx l hg e
  have hB : Rep ((r.applySubmap ev A).applySubmap ev B) (substD B (substD A L)) := by
    refine rep_applySubmap hev B hA n3 ?_ n4 ?_
    · intro k hkB
      obtain ⟨n, hn⟩ := mem_keys_iff.1 hkB
      obtain ⟨l, _, e, hg, o, h1, h2, h3⟩ := hR.memB _ _ hn
      refine List.mem_map.2 ⟨o, hkL o (mem_keys_of_mem h1), ?_⟩
      rw [get?_of_mem n1 h2]; rfl
    · intro n hnB hc
      obtain ⟨v, hv'⟩ := mem_values_iff.1 hnB
      obtain ⟨l, _, e, hg, o, h1, h2, h3, h4⟩ := hR.memB _ _ hv'
      obtain ⟨x, hx, hxe⟩ := List.mem_map.1 hc
      cases hgx : A.get? x with
      | none =>
        rw [hgx] at hxe; simp at hxe; subst hxe
        have hxk := hvL _ (mem_values_of_mem h1) hx
        obtain ⟨n', hn'⟩ := mem_keys_iff.1 hxk
        by_cases hxn : x = n'
        · subst hxn
          exact h3 (key_unique hv h1 hn')
        · exact (get?_eq_none_iff _ _).1 hgx (hR.complete _ _ hn' hxn)
      | some y =>
        rw [hgx] at hxe; simp at hxe; subst hxe
        obtain ⟨n', h5, h6, h7⟩ := hR.memA _ _ (mem_of_get? hgx)
        rcases h7 with ⟨e', h8⟩ | ⟨l', _, e', hg', _⟩
        · subst e'
          have := key_unique hv h1 h5
          subst this; exact h8 h4
        · subst e'; exact hg'.1 ((hnewL _).2 (mem_values_of_mem h1))
  have e : substD B (substD A L) = substD m L := by
    simp only [substD, List.map_map]
    apply List.map_congr_left
    intro x hx
    simp only [Function.comp]
    have hxg : ∀ l, Good m.keys newL r.count l → x ≠ .int l := by
      rintro l hg rfl
      have := hg.2.2
      rw [h.count_eq] at this; simp [hx] at this
    cases hm : m.get? x with
    | none =>
      have : A.get? x = none := by
        rw [get?_eq_none_iff]; intro hc
        obtain ⟨v, hv'⟩ := mem_keys_iff.1 hc
        obtain ⟨n, h1, _⟩ := hR.memA _ _ hv'
        rw [get?_of_mem hk h1] at hm; cases hm
      rw [this]; simp [hgetB x hxg]
    | some n =>
      have hmem := mem_of_get? hm
      by_cases hxn : x = n
      · subst hxn
        have : A.get? x = none := by
          rw [get?_eq_none_iff]; intro hc
          obtain ⟨v, hv'⟩ := mem_keys_iff.1 hc
          obtain ⟨n, h1, h2, _⟩ := hR.memA _ _ hv'
          exact h2 (val_unique hk hmem h1)
        rw [this]; simp [hgetB x hxg]
      · obtain ⟨v, hv'⟩ := mem_keys_iff.1 (hR.complete _ _ hmem hxn)
        rw [get?_of_mem n1 hv']
        obtain ⟨n', h1, h2, h3⟩ := hR.memA _ _ hv'
        have := val_unique hk hmem h1
        subst this
        rcases h3 with ⟨e', h8⟩ | ⟨l', _, e', hg', hB', _⟩
        · subst e'
          have : B.get? v = none := by
            apply hgetB; rintro l hg rfl
            exact hg.1 ((hnewL _).2 (mem_values_of_mem h1))
          simp [this]
        · subst e'; simp [get?_of_mem n3 hB']
  rw [← e]; exact hB

theorem find?_eq_get? (m : PyDict Lbl Lbl) (x : Lbl) :
    (match m.find? (fun p => decide (p.1 = x)) with | some p => p.2 | none => x) = (m.get? x).getD x := by
  induction m with
  | nil => rfl
  | cons p m ih =>
    by_cases h : p.1 = x
    · simp [List.find?, h, get?_cons]
    · simp [List.find?, h, get?_cons, ih]

theorem substAll_eq (m : PyDict Lbl Lbl) (L : List Lbl) : Spec.substAll m L = substD m L := by
  simp only [Spec.substAll, substD]
  apply List.map_congr_left
  intro x _
  exact find?_eq_get? m x

theorem keys_swap (m : PyDict Lbl Lbl) : keys (m.map fun p => (p.2, p.1)) = m.values := by
  simp [keys, values, Function.comp_def]

theorem length_ofPairs_lt {m : List (Lbl × Lbl)} :
    (PyDict.ofPairs m).length < m.length ↔ ¬ (keys m).Nodup := by
  constructor
  · intro h hn; rw [ofPairs_of_nodup m hn] at h; omega
  · intro h
    have h1 := nodup_keys_ofPairs m
    have h2 : (ofPairs m).keys ⊆ keys m := fun k hk => (mem_keys_ofPairs m k).1 hk
    have h3 := (List.subperm_of_subset h1 h2)
    have hle := h3.length_le
    simp only [keys, List.length_map] at hle
    rcases Nat.lt_or_ge (ofPairs m).length m.length with h' | h'
    · exact h'
    · exfalso
      have : (ofPairs m).keys.Perm (keys m) := h3.perm_of_length_le (by simpa [keys] using h')
      exact h (this.nodup_iff.1 h1)

theorem get?_ofPairs (m : List (Lbl × Lbl)) (k : Lbl) (hk : k ∈ keys m) :
    ∃ v, (PyDict.ofPairs m).get? k = some v := by
  cases hg : (PyDict.ofPairs m).get? k with
  | none => rw [get?_eq_none_iff, mem_keys_ofPairs] at hg; exact absurd hk hg
  | some v => exact ⟨v, rfl⟩

theorem exists_dup_of_not_nodup {m : PyDict Lbl Lbl} (hv : ¬ m.values.Nodup) (hk : m.keys.Nodup) :
    ∃ k k' v, (k, v) ∈ m ∧ (k', v) ∈ m ∧ k ≠ k' := by
  by_contra hc
  push Not at hc
  apply hv
  clear hv
  induction m with
  | nil => simp [values]
  | cons p m ih =>
    simp only [keys, List.map_cons, List.nodup_cons] at hk
    simp only [values, List.map_cons, List.nodup_cons]
    refine ⟨?_, ih hk.2 fun k k' v h h' => hc k k' v (List.mem_cons_of_mem _ h) (List.mem_cons_of_mem _ h')⟩
    intro hm
    obtain ⟨k, hk'⟩ := mem_values_iff.1 hm
    have := hc p.1 k p.2 (by simp) (List.mem_cons_of_mem _ hk')
    exact hk.1 (this ▸ mem_keys_of_mem hk')

/-- `_relabel` is the specified simultaneous substitution. -/
theorem relabel_eq {ev : EqEnv} (hev : Inert ev) {r : CyReg} {L : List Lbl} (h : Rep r L)
    {m : PyDict Lbl Lbl} (hk : m.keys.Nodup) (hkL : ∀ k ∈ m.keys, k ∈ L) :
    (Spec.RelabelOk m L → (r.relabel ev m).1 = .ok () ∧ Rep (r.relabel ev m).2 (Spec.substAll m L)) ∧
    (¬ Spec.RelabelOk m L → (r.relabel ev m).1 = .error .valueError ∧ (r.relabel ev m).2 = r) := by
  have hkeys : ∀ x, x ∈ (PyDict.ofPairs (m.map fun p => (p.2, p.1))).keys ↔ x ∈ m.values := by
    intro x; rw [mem_keys_ofPairs, keys_swap]
  constructor
  · rintro ⟨hv, hvL⟩
    have hv : m.values.Nodup := hv
    have hvL : ∀ v ∈ m.values, v ∈ L → v ∈ m.keys := hvL
    unfold relabel iterSafeRelabels
    have h1 : ¬ (PyDict.ofPairs (m.map fun p => (p.2, p.1))).length < m.length := by
      have := length_ofPairs_lt (m := m.map fun p => (p.2, p.1))
      rw [keys_swap, List.length_map] at this
      rw [this]; simpa using hv
    have h2 : ((PyDict.ofPairs (m.map fun p => (p.2, p.1))).keys.any
        (fun v => r.count v && !(m.keys.contains v))) = false := by
      rw [Bool.eq_false_iff, ne_eq, List.any_eq_true]
      rintro ⟨v, hvk, hc⟩
      simp only [Bool.and_eq_true, Bool.not_eq_true', h.count_eq, decide_eq_true_eq] at hc
      have := hvL v ((hkeys v).1 hvk) hc.1
      simp [this] at hc
    simp only [h1, if_false, h2, Bool.false_eq_true]
    rw [substAll_eq]
    by_cases hcf : (m.keys.any fun v => (PyDict.ofPairs (m.map fun p => (p.2, p.1))).contains v) = true
    · simp only [hcf, if_true]
      unfold resolveLabelConflict
      obtain ⟨A, B, hl, hR⟩ := resolveLoop_res m.keys (PyDict.ofPairs (m.map fun p => (p.2, p.1))).keys r.count hev
        ((PyDict.ofPairs (m.map fun p => (p.2, p.1))).keys ++ m.keys ++ L)
        ((PyDict.ofPairs (m.map fun p => (p.2, p.1))).keys.length + m.keys.length + r.stop + 1)
        (by simp [h.stop]; omega)
        (by intro l; simp [h.count_eq, or_assoc])
        m (2 * m.length) [] [] (by simpa using hk) (by simp [keys])
      rw [hl]
      refine ⟨rfl, ?_⟩
      have := rep_resolved hev h hk hkL hv hvL hkeys _ hR
      simpa using this
    · simp only [hcf, if_false, Bool.false_eq_true]
      refine ⟨trivial, ?_⟩
      simp only [List.foldl_cons, List.foldl_nil]
      refine rep_applySubmap hev m h hk hkL hv ?_
      intro v hv' hc
      apply hcf
      rw [List.any_eq_true]
      exact ⟨v, hvL v hv' hc, by rw [contains_iff, hkeys]; exact hv'⟩
  · intro hno
    unfold relabel iterSafeRelabels
    by_cases hv : m.values.Nodup
    · have h1 : ¬ (PyDict.ofPairs (m.map fun p => (p.2, p.1))).length < m.length := by
        have := length_ofPairs_lt (m := m.map fun p => (p.2, p.1))
        rw [keys_swap, List.length_map] at this
        rw [this]; simpa using hv
      have h2 : ((PyDict.ofPairs (m.map fun p => (p.2, p.1))).keys.any
          (fun v => r.count v && !(m.keys.contains v))) = true := by
        by_contra hc
        apply hno
        refine ⟨hv, fun v hv' hvL => ?_⟩
        by_contra hnk
        apply hc
        rw [List.any_eq_true]
        have : v ∉ m.keys := hnk
        refine ⟨v, (hkeys v).2 hv', ?_⟩
        simp [h.count_eq, hvL, this]
      simp only [h1, if_false, h2, if_true]
      exact ⟨trivial, trivial⟩
    · have h1 : (PyDict.ofPairs (m.map fun p => (p.2, p.1))).length < m.length := by
        have := length_ofPairs_lt (m := m.map fun p => (p.2, p.1))
        rw [keys_swap, List.length_map] at this
        rwa [this]
      simp only [h1, if_true]
      obtain ⟨k, k', v, hm, hm', hne⟩ := exists_dup_of_not_nodup hv hk
      obtain ⟨o, ho⟩ := get?_ofPairs (m.map fun p => (p.2, p.1)) v (by
        rw [keys_swap]; exact mem_values_of_mem hm)
      have h3 : m.any (labelClash ev (PyDict.ofPairs (m.map fun p => (p.2, p.1)))) = true := by
        rw [List.any_eq_true]
        by_cases hok : o = k
        · refine ⟨(k', v), hm', ?_⟩
          simp only [labelClash, ho, pyEq_inert hev, hok]; simpa using hne
        · refine ⟨(k, v), hm, ?_⟩
          simp only [labelClash, ho, pyEq_inert hev]; simpa using hok
      rw [if_pos h3]
      exact ⟨rfl, rfl⟩

theorem relabelAsIntegers_rep {r : CyReg} {L : List Lbl} (h : Rep r L) :
    Rep r.relabelAsIntegers.2 ((List.range L.length).map fun (i : Nat) => .int i) := by
  refine ⟨by simp [relabelAsIntegers, h.stop], ?_, List.nodup_nil, ?_, ?_⟩
  · rw [List.range_eq_range']; exact nodup_intRange 0 _
  · intro k w
    simp only [relabelAsIntegers, get?_nil]
    constructor
    · rintro ⟨⟩
    · rintro ⟨i, _, hi, hne⟩
      rw [List.getElem?_map, Option.map_eq_some_iff] at hi
      obtain ⟨a, ha, rfl⟩ := hi
      obtain ⟨_, ha⟩ := List.getElem?_eq_some_iff.1 ha
      simp at ha; subst ha; exact absurd rfl hne
  · intro k w
    simp only [relabelAsIntegers, get?_nil]
    constructor
    · rintro ⟨⟩
    · rintro ⟨i, _, hi, hne⟩
      rw [List.getElem?_map, Option.map_eq_some_iff] at hi
      obtain ⟨a, ha, rfl⟩ := hi
      obtain ⟨_, ha⟩ := List.getElem?_eq_some_iff.1 ha
      simp at ha; subst ha; exact absurd rfl hne

end CyReg
end DG
