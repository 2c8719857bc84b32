import Verif.Proofs.SessionAgree

/-! The states of circuits in all histories with simulations. -/

noncomputable section

namespace DG
open Spec Run

theorem goodSlot_set {n : Nat} {t : StateSlot} (h : GoodSlot t) (a : NDArr) (f z : Bool) : GoodSlot (t.setState n a f z).2 := by
  have key : ∀ a, GoodSlot (t.setState n a f false).2 := by
    intro a
    by_cases hf : f = true ∨ t.state = none ∧ t.dm = none
    · rw [setState_eq n a f t hf]
      obtain ⟨h1, h2⟩ := assertState_ok n a
      rcases h2 with h2 | h2
      · obtain ⟨g1, g2, g3⟩ := h1.1 h2
        rw [isClose1_eq] at g3
        rw [h2]
        rcases g2 with g2 | g2
        · simp only [g2, List.length_singleton, if_true]
          exact .inr (.inl ⟨n, a, g1, rfl, g2, g3, .inl rfl⟩)
        · simp only [g2, List.length_cons, List.length_nil, Nat.reduceAdd, OfNat.ofNat_ne_one, if_false]
          exact .inr (.inr ⟨n, a, g1, rfl, rfl, g2, g3⟩)
      · rw [h2]; exact h
    · unfold StateSlot.setState
      rw [if_pos]
      · exact h
      · rcases f with _ | _
        · rcases hs : t.state with _ | _
          · rcases hd : t.dm with _ | _
            · exact absurd (.inr ⟨hs, hd⟩) hf
            · rfl
          · rfl
        · exact absurd (.inl rfl) hf
  rcases z with _ | _
  · exact key a
  · rw [setState_normalize]; exact key _

theorem goodSlot_getDm {t : StateSlot} (h : GoodSlot t) : GoodSlot t.getDm.2 := by
  rcases h with ⟨h1, h2⟩ | ⟨m, a, h0, h1, h2, h3, h4 | h4⟩ | ⟨m, a, h0, h1, h2, h3, h4⟩
  · unfold StateSlot.getDm; rw [h1]; exact .inl ⟨h1, h2⟩
  · unfold StateSlot.getDm; rw [h1, h4]; exact .inr (.inl ⟨m, a, h0, rfl, h2, h3, .inr rfl⟩)
  · unfold StateSlot.getDm; rw [h1, h4]; exact .inr (.inl ⟨m, a, h0, h1, h2, h3, .inr h4⟩)
  · unfold StateSlot.getDm; rw [h1]; exact .inr (.inr ⟨m, a, h0, h1, h2, h3, h4⟩)

/-- All states are good. -/
def GoodSlots (s : Sess) : Prop := ∀ c, GoodSlot (s.slots c)

/-- The computation keeps states good. -/
def PresS {α : Type} (m : Ses α) : Prop := ∀ s, GoodSlots s → GoodSlots (m s).2

theorem PresS.bind {α β : Type} {m : Ses α} {f : α → Ses β} (hm : PresS m) (hf : ∀ a, PresS (f a)) : PresS (m >>= f) := by
  intro s hs
  have h := hm s hs
  show GoodSlots (Ses.bind m f s).2
  unfold Ses.bind
  generalize m s = z at h
  obtain ⟨_ | a, s1⟩ := z
  · exact h
  · exact hf a s1 h

theorem PresS.slots {α : Type} {m : Ses α} (h : ∀ s, (m s).2.slots = s.slots) : PresS m := fun s hs c => by rw [h]; exact hs c

theorem Keeps1.pres {α : Type} {m : Ses α} (h : ∀ s0, Keeps1 (fun _ => True) (fun _ => True) s0 m) : PresS m :=
  .slots fun s => (h s s (.refl s)).slots

theorem presS_setState (c : Nat) (a : NDArr) (f z : Bool) : PresS (setStateCirc c a f z) := by
  intro s hs
  unfold setStateCirc
  split
  · exact hs
  have hq := (keeps1_qubitList (P := fun _ => True) (Q := fun _ => True) (s0 := s) c s (.refl s)).slots
  generalize qubitList c s = y at hq
  obtain ⟨e | qs, s1⟩ := y
  · intro d
    show GoodSlot (s1.slots d)
    rw [hq]; exact hs d
  · intro d
    show GoodSlot (Function.update s1.slots c _ d)
    by_cases hd : d = c
    · subst hd
      rw [Function.update_self]
      exact goodSlot_set (by rw [hq]; exact hs d) a f z
    · rw [Function.update_of_ne hd, hq]; exact hs d

theorem concerns_all (w : World ℝ) (os : List Nat) : Concerns w os (fun _ => True) (fun _ => True) := fun _ _ _ _ _ _ _ => ⟨trivial, fun _ _ _ _ => trivial⟩

theorem presS_simulate (u : Nat → ℝ) (c : Nat) (mixed le : Bool) : PresS (simulateSes u c mixed le) := by
  refine .bind (Keeps1.pres fun _ => keeps1_qubitList c) fun qs => ?_
  split
  · exact .slots fun _ => rfl
  refine .bind (.slots fun _ => rfl) fun C => ?_
  split
  · exact .bind (Keeps1.pres fun s0 => keeps1_densityLoop u qs _ (concerns_all _ _) _) fun l => .bind (.slots fun _ => rfl) fun a => presS_setState c a true false
  · exact .bind (Keeps1.pres fun s0 => keeps1_vectorLoop u qs le _ (concerns_all _ _) _) fun l => presS_setState c _ true false

theorem presS_readDm (c : Nat) : PresS (readDmCirc c) := by
  intro s hs d
  show GoodSlot (Function.update s.slots c _ d)
  by_cases hd : d = c
  · subst hd
    rw [Function.update_self]
    exact goodSlot_getDm (hs d)
  · rw [Function.update_of_ne hd]; exact hs d

theorem presS_with {α : Type} (enter : M ℝ α) {body : Ses Unit} (exit : α → M ℝ Unit) (h : PresS body) : PresS (withSes enter body exit) := by
  intro s hs
  unfold withSes
  rcases enter s.w with ⟨e | a, w1⟩
  · exact hs
  · have hb : GoodSlots (body { s with w := w1 }).2 := h _ hs
    dsimp only
    rcases exit a (body { s with w := w1 }).2.w with ⟨e | x, w3⟩
    · exact hb
    · exact hb

theorem presS_run : ∀ p : SProg, PresS p.run
  | .skip => .slots fun _ => rfl
  | .call _ => .slots fun _ => rfl
  | .simulate u c m le => presS_simulate u c m le
  | .setState c a f n => presS_setState c a f n
  | .readDm c => presS_readDm c
  | .seq p q => .bind (presS_run p) fun _ => presS_run q
  | .withCtx c p => presS_with _ _ (presS_run p)
  | .withFreeze p => presS_with _ _ (presS_run p)
  | .attempt p => presS_run p

theorem presS_visits : ∀ (p : SProg) (s s' : Sess), GoodSlots s → p.Visits s s' → GoodSlots s'
  | .skip, s, s', hs, h => by rcases h with rfl | rfl <;> exact hs
  | .call _, s, s', hs, h => by rcases h with rfl | rfl <;> exact hs
  | .simulate u c m le, s, s', hs, h => by
    rcases h with rfl | rfl
    · exact hs
    · exact presS_run (.simulate u c m le) s hs
  | .setState c a f n, s, s', hs, h => by
    rcases h with rfl | rfl
    · exact hs
    · exact presS_run (.setState c a f n) s hs
  | .readDm c, s, s', hs, h => by
    rcases h with rfl | rfl
    · exact hs
    · exact presS_run (.readDm c) s hs
  | .seq p q, s, s', hs, h => by
    rcases h with h | ⟨s1, h1, h2⟩
    · exact presS_visits p s s' hs h
    · refine presS_visits q s1 s' ?_ h2
      have := presS_run p s hs
      rw [h1] at this
      exact this
  | .withCtx c p, s, s', hs, h => by
    rcases h with rfl | rfl | ⟨x, w1, -, h | rfl⟩
    · exact hs
    · exact hs
    · exact presS_visits p { s with w := w1 } s' hs h
    · exact presS_run p { s with w := w1 } hs
  | .withFreeze p, s, s', hs, h => by
    rcases h with rfl | rfl | ⟨w1, -, h | rfl⟩
    · exact hs
    · exact hs
    · exact presS_visits p { s with w := w1 } s' hs h
    · exact presS_run p { s with w := w1 } hs
  | .attempt p, s, s', hs, h => presS_visits p s s' hs h

/-! ## The state after a simulation that did not raise -/

theorem setState_good {n : Nat} {a : NDArr} {t : StateSlot} (h : (t.setState n a true false).1 = .ok ()) :
    1 ≤ n ∧ NearOne a.norm ∧ ((a.shape = [2 ^ n] ∧ (t.setState n a true false).2 = ⟨some a, none⟩) ∨ (a.shape = [2 ^ n, 2 ^ n] ∧ (t.setState n a true false).2 = ⟨none, some a⟩)) := by
  rw [setState_eq n a true t (.inl rfl)] at h ⊢
  obtain ⟨h1, h2⟩ := assertState_ok n a
  rcases h2 with h2 | h2
  · obtain ⟨g1, g2, g3⟩ := h1.1 h2
    rw [isClose1_eq] at g3
    rw [h2]
    refine ⟨g1, g3, ?_⟩
    rcases g2 with g2 | g2
    · left; exact ⟨g2, by simp [g2]⟩
    · right; exact ⟨g2, by simp [g2]⟩
  · rw [h2] at h; cases h

theorem ses_ok_inv {α β : Type} {m : Ses α} {f : α → Ses β} {s s2 : Sess} {b : β} (h : (m >>= f) s = (.ok b, s2)) : ∃ a s1, m s = (.ok a, s1) ∧ f a s1 = (.ok b, s2) := by
  change Ses.bind m f s = _ at h
  unfold Ses.bind at h
  generalize hz : m s = z at h
  obtain ⟨_ | a, s1⟩ := z
  · cases h
  · exact ⟨a, s1, rfl, h⟩

/-- The computation does not touch circuits. -/
def SameCircs {α : Type} (m : Ses α) : Prop := ∀ s, (m s).2.w.circs = s.w.circs

theorem SameCircs.bind {α β : Type} {m : Ses α} {f : α → Ses β} (hm : SameCircs m) (hf : ∀ a, SameCircs (f a)) : SameCircs (m >>= f) := by
  intro s
  have h := hm s
  show (Ses.bind m f s).2.w.circs = _
  unfold Ses.bind
  generalize m s = z at h
  obtain ⟨_ | a, s1⟩ := z
  · exact h
  · exact (hf a s1).trans h

theorem store_circs (bits : Option (List Nat)) (idx : Nat) (m : Int) (w : World ℝ) : (store bits idx m w).circs = w.circs := by
  unfold Run.store
  rcases bits with _ | bs
  · rfl
  dsimp only
  rcases bs[idx]? with _ | b
  · rfl
  dsimp only
  unfold setBit
  rcases w.bits[b]? with _ | x
  · rfl
  · rfl

theorem sameCircs_measureQubits (u : Nat → ℝ) (op : Sim.SOp) : ∀ ts idx l, SameCircs (measureQubits u op ts idx l)
  | [], _, _ => fun _ => rfl
  | t :: ts, idx, l => by
    intro s
    unfold measureQubits
    rcases Sim.sampleQubit t l.mem (u l.drawn) true false with e | ⟨m, mem⟩
    · rfl
    · exact (sameCircs_measureQubits u op ts (idx + 1) ⟨mem, l.drawn + 1⟩ _).trans (store_circs _ _ _ _)

theorem sameCircs_instruction (u : Nat → ℝ) (n : Nat) (op : Sim.SOp) (nc : Bool) (ts : List Nat) (le cj : Bool) (l : Run.Local) : SameCircs (instruction u n op nc ts le cj l) := by
  intro s
  unfold instruction
  split
  · rfl
  split
  · split
    · rfl
    · exact sameCircs_measureQubits u op ts 0 l _
  · split
    · rfl
    · split <;> rfl

theorem sameCircs_vectorLoop (u : Nat → ℝ) (qs : List Nat) (le : Bool) : ∀ os l, SameCircs (vectorLoop u qs le os l)
  | [], _ => fun _ => rfl
  | o :: os, l => by
    intro s
    unfold vectorLoop
    split
    · rfl
    split
    · rfl
    exact SameCircs.bind (sameCircs_instruction _ _ _ _ _ _ _ _) (fun l1 => sameCircs_vectorLoop u qs le os l1) s

theorem sameCircs_densityLoop (u : Nat → ℝ) (qs : List Nat) : ∀ os l, SameCircs (densityLoop u qs os l)
  | [], _ => fun _ => rfl
  | o :: os, l => by
    intro s
    unfold densityLoop
    split
    · rfl
    split
    · rfl
    split
    · rfl
    exact SameCircs.bind (sameCircs_instruction _ _ _ _ _ _ _ _) (fun l1 => .bind (sameCircs_instruction _ _ _ _ _ _ _ _) fun l2 => sameCircs_densityLoop u qs os l2) s

/-- The vector or matrix stored by a simulation of a circuit with qubits `items`. -/
theorem simulate_size {A : Call ℝ → Prop} {s s' : Sess} (h : Reach A s.w) {c : Nat} {C : Circ} (hC : s.w.circs[c]? = some C) {items : List Nat}
    (hi : seen (qubitsOf c s.w).1 = .ok (items.map Lbl.obj)) (hne : items ≠ []) {u : Nat → ℝ} {mixed le : Bool} (hs : simulateSes u c mixed le s = (.ok (), s')) :
    ∃ a, NearOne a.norm ∧ if mixed then a.shape = [2 ^ items.length, 2 ^ items.length] ∧ s'.slots c = ⟨none, some a⟩ else a.shape = [2 ^ items.length] ∧ s'.slots c = ⟨some a, none⟩ := by
  obtain ⟨C', hb, hq⟩ := qubitList_eq h hC hi
  obtain ⟨hq1, hq2⟩ := hq s rfl
  have hlt : c < s.w.circs.length := (List.getElem?_eq_some_iff.1 hC).1
  have hget : (s.w.setCirc c C').circs[c]? = some C' := by simp [World.setCirc, hlt]
  unfold simulateSes at hs
  rw [ses_ok hq1, if_neg hne, ses_ok (a := C') (s1 := { s with w := s.w.setCirc c C' })
    (by unfold Ses.ofM circ M.deref; simp only [hget])] at hs
  have key : ∀ (a : NDArr) (s2 : Sess), s2.w.circs = (s.w.setCirc c C').circs → setStateCirc c a true false s2 = (.ok (), s') →
      NearOne a.norm ∧ ((a.shape = [2 ^ items.length] ∧ s'.slots c = ⟨some a, none⟩) ∨ (a.shape = [2 ^ items.length, 2 ^ items.length] ∧ s'.slots c = ⟨none, some a⟩)) := by
    intro a s2 hw e
    unfold setStateCirc at e
    simp only [Bool.not_true, Bool.false_and, Bool.false_eq_true, if_false] at e
    rw [hq2 s2 (by rw [hw]; exact hget)] at e
    simp only [Prod.mk.injEq] at e
    obtain ⟨e1, rfl⟩ := e
    obtain ⟨-, g2, g3⟩ := setState_good e1
    refine ⟨g2, ?_⟩
    simp only [Function.update_self]
    exact g3
  rcases mixed with _ | _
  · simp only [Bool.false_eq_true, if_false] at hs ⊢
    obtain ⟨l, s2, h1, h2⟩ := ses_ok_inv hs
    have hw := sameCircs_vectorLoop u items le C'.ops ⟨Sim.initialState items.length, 0⟩ { s with w := s.w.setCirc c C' }
    rw [h1] at hw
    obtain ⟨g1, g2⟩ := key _ s2 hw h2
    refine ⟨_, g1, ?_⟩
    rcases g2 with g2 | ⟨g2, -⟩
    · exact g2
    · have := congrArg List.length g2; cases this
  · simp only [if_true] at hs ⊢
    obtain ⟨l, s2, h1, h2⟩ := ses_ok_inv hs
    have hw := sameCircs_densityLoop u items C'.ops ⟨Sim.initialState (2 * items.length), 0⟩ { s with w := s.w.setCirc c C' }
    rw [h1] at hw
    obtain ⟨a, s3, h3, h4⟩ := ses_ok_inv h2
    have e3 : s3 = s2 := (Prod.mk.inj h3).2.symm
    subst e3
    have ha : a.shape = [1 <<< items.length, 1 <<< items.length] := by
      have := (Prod.mk.inj h3).1
      unfold square at this
      split at this
      · cases this; rfl
      · cases this
    obtain ⟨g1, g2⟩ := key _ s3 hw h4
    refine ⟨_, g1, ?_⟩
    rcases g2 with ⟨g2, -⟩ | g2
    · rw [ha] at g2; have := congrArg List.length g2; cases this
    · exact g2

end DG
