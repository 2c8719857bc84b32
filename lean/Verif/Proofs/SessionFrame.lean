import Verif.Proofs.Session

/-! What simulations leave as it is, whether they succeed or not. -/

noncomputable section

namespace DG
open Spec Run

/-- At most values of bits in `P` and records of measurements in `Q` have changed. -/
structure Frame (P Q : Nat → Prop) (s0 s : Sess) : Prop where
  rest : s.w = { s0.w with bits := s.w.bits, circs := s.w.circs }
  circs : s.w.circs.map bare = s0.w.circs.map bare
  labels : s.w.bits.map BitObj.label = s0.w.bits.map BitObj.label
  bits : ∀ b, ¬ P b → s.w.bits[b]? = s0.w.bits[b]?
  records : ∀ o, ¬ Q o → s.records o = s0.records o
  slots : s.slots = s0.slots

variable {P Q : Nat → Prop} {s0 : Sess}

theorem Frame.refl (s : Sess) : Frame P Q s s := ⟨rfl, rfl, rfl, fun _ _ => rfl, fun _ _ => rfl, rfl⟩

/-- The computation keeps the frame. -/
def Keeps1 (P Q : Nat → Prop) (s0 : Sess) {α : Type} (m : Ses α) : Prop := ∀ s, Frame P Q s0 s → Frame P Q s0 (m s).2

theorem Keeps1.bind {α β : Type} {m : Ses α} {f : α → Ses β} (hm : Keeps1 P Q s0 m) (hf : ∀ a, Keeps1 P Q s0 (f a)) : Keeps1 P Q s0 (m >>= f) := by
  intro s hs
  have h := hm s hs
  show Frame P Q s0 (Ses.bind m f s).2
  unfold Ses.bind
  generalize m s = z at h
  obtain ⟨_ | a, s1⟩ := z
  · exact h
  · exact hf a s1 h

theorem Keeps1.still {α : Type} {m : Ses α} (h : ∀ s, (m s).2 = s) : Keeps1 P Q s0 m := fun s hs => by rw [h]; exact hs

theorem Frame.store {s : Sess} (h : Frame P Q s0 s) (bits : Option (List Nat)) (hb : ∀ bs, bits = some bs → ∀ b ∈ bs, P b) (idx : Nat) (m : Int) :
    Frame P Q s0 { s with w := store bits idx m s.w } := by
  unfold Run.store
  rcases bits with _ | bs
  · exact h
  dsimp only
  rcases hi : bs[idx]? with _ | b
  · exact h
  have hP := hb bs rfl b (List.mem_of_getElem? hi)
  dsimp only
  unfold setBit
  rcases hx : s.w.bits[b]? with _ | x
  · exact h
  dsimp only
  refine ⟨?_, h.circs, ?_, fun d hd => ?_, h.records, h.slots⟩
  · show ({ s.w with bits := _ } : World ℝ) = _
    conv_lhs => rw [h.rest]
  · show (s.w.bits.set b _).map _ = _
    rw [List.map_set, ← h.labels]
    apply List.ext_getElem?
    intro i
    rw [List.getElem?_set]
    split
    · next e =>
      subst e
      have := (List.getElem?_eq_some_iff.1 hx)
      simp [this.1, this.2, hx]
    · rfl
  · show (s.w.bits.set b _)[d]? = _
    rw [List.getElem?_set_ne (by rintro rfl; exact hd hP)]
    exact h.bits d hd

theorem Frame.record {s : Sess} (h : Frame P Q s0 s) {o : Nat} (ho : Q o) (r : Sim.Record) : Frame P Q s0 { s with records := Function.update s.records o r } :=
  ⟨h.rest, h.circs, h.labels, h.bits, fun d hd => by
    show Function.update s.records o r d = _
    rw [Function.update_of_ne (by rintro rfl; exact hd ho)]; exact h.records d hd, h.slots⟩

theorem keeps1_measureQubits (u : Nat → ℝ) (op : Sim.SOp) (hb : ∀ bs, op.bits = some bs → ∀ b ∈ bs, P b) (ho : Q op.oid) :
    ∀ ts idx l, Keeps1 P Q s0 (measureQubits u op ts idx l)
  | [], _, _ => .still fun _ => rfl
  | t :: ts, idx, l => by
    intro s hs
    unfold measureQubits
    rcases Sim.sampleQubit t l.mem (u l.drawn) true false with e | ⟨m, mem⟩
    · exact hs
    · exact keeps1_measureQubits u op hb ho ts (idx + 1) ⟨mem, l.drawn + 1⟩ _ ((hs.store op.bits hb idx m).record ho _)

theorem keeps1_instruction (u : Nat → ℝ) (n : Nat) (op : Sim.SOp) (hop : op.kind = .measurement → (∀ bs, op.bits = some bs → ∀ b ∈ bs, P b) ∧ Q op.oid) (nc : Bool)
    (ts : List Nat) (le cj : Bool) (l : Local) : Keeps1 P Q s0 (instruction u n op nc ts le cj l) := by
  intro s hs
  unfold instruction
  split
  · exact hs
  split
  · next hk =>
    obtain ⟨h1, h2⟩ := hop hk
    split
    · exact hs
    · exact keeps1_measureQubits u op h1 h2 ts 0 l _ (hs.record h2 _)
  · split
    · exact hs
    · split <;> exact hs

/-- The kind of an operation that is a measurement for the simulator. -/
theorem kind_measurement {k : OpCls} {op : OpObj ℝ} (h : kind k op = .measurement) : k.kind = .measurement := by
  unfold kind at h
  have hc : ∀ ps, controlled k ps ≠ .measurement := by
    intro ps e
    unfold controlled at e
    split at e
    · cases e
    · split at e <;> cases e
  split at h
  · assumption
  · exact absurd h (hc _)
  · exact absurd h (hc _)
  · split at h
    · cases h
    · cases h
    · cases h
    · cases h
    · split at h <;> cases h

/-- Operations `os` that are measurements only concern the bits in `P` and the records in `Q`. -/
def Concerns (w : World ℝ) (os : List Nat) (P Q : Nat → Prop) : Prop := ∀ o ∈ os, ∀ (op : OpObj ℝ) (k : OpCls), w.ops[o]? = some op → w.classes[op.cls]? = some k →
  k.kind = .measurement → Q o ∧ ∀ bs, op.bits = some bs → ∀ b ∈ bs, P b

theorem Concerns.op {os : List Nat} (h : Concerns s0.w os P Q) {s : Sess} (hs : Frame P Q s0 s) {o : Nat} (ho : o ∈ os) {p : Sim.SOp} (e : Run.op s.w o = .ok p)
    (hk : p.kind = .measurement) : (∀ bs, p.bits = some bs → ∀ b ∈ bs, P b) ∧ Q p.oid := by
  unfold Run.op at e
  have h1 : s.w.ops = s0.w.ops := by rw [hs.rest]
  have h2 : s.w.classes = s0.w.classes := by rw [hs.rest]
  rw [h1] at e
  split at e
  · cases e
  next op hop =>
  rw [h2] at e
  split at e
  · next k qs hcl hqs =>
    cases e
    obtain ⟨g1, g2⟩ := h o ho op k hop hcl (kind_measurement hk)
    exact ⟨g2, g1⟩
  · cases e

theorem keeps1_vectorLoop (u : Nat → ℝ) (qs : List Nat) (le : Bool) : ∀ os, Concerns s0.w os P Q → ∀ l, Keeps1 P Q s0 (vectorLoop u qs le os l)
  | [], _, _ => .still fun _ => rfl
  | o :: os, hc, l => by
    intro s hs
    unfold vectorLoop
    split
    · exact hs
    next p hp =>
    split
    · exact hs
    exact Keeps1.bind (keeps1_instruction _ _ _ (hc.op hs (by simp) hp) _ _ _ _ _)
      (fun l1 => keeps1_vectorLoop u qs le os (fun o ho => hc o (by simp [ho])) l1) s hs

theorem keeps1_densityLoop (u : Nat → ℝ) (qs : List Nat) : ∀ os, Concerns s0.w os P Q → ∀ l, Keeps1 P Q s0 (densityLoop u qs os l)
  | [], _, _ => .still fun _ => rfl
  | o :: os, hc, l => by
    intro s hs
    unfold densityLoop
    split
    · next hm =>
      refine hs.record ?_ _
      unfold isMeasurement at hm
      have h1 : s.w.ops = s0.w.ops := by rw [hs.rest]
      have h2 : s.w.classes = s0.w.classes := by rw [hs.rest]
      rw [h1, h2] at hm
      split at hm
      · cases hm
      · next op hop =>
        split at hm
        · cases hm
        · next k hk => exact (hc o (by simp) op k hop hk (by simpa using hm)).1
    split
    · exact hs
    next p hp =>
    split
    · exact hs
    exact Keeps1.bind (keeps1_instruction _ _ _ (hc.op hs (by simp) hp) _ _ _ _ _)
      (fun l1 => Keeps1.bind (keeps1_instruction _ _ _ (hc.op hs (by simp) hp) _ _ _ _ _)
        fun l2 => keeps1_densityLoop u qs os (fun o ho => hc o (by simp [ho])) l2) s hs

theorem keeps1_qubitList (c : Nat) : Keeps1 P Q s0 (qubitList c) := by
  refine .bind (fun s hs => ?_) fun _ => .bind (.still fun _ => rfl) fun _ => .still fun _ => rfl
  show Frame P Q s0 { s with w := (qubitsOf c s.w).2 }
  unfold qubitsOf
  rcases hC : s.w.circs[c]? with _ | C
  · exact hs
  · dsimp only
    refine ⟨?_, ?_, hs.labels, hs.bits, hs.records, hs.slots⟩
    · show ({ s.w with circs := _ } : World ℝ) = _
      conv_lhs => rw [hs.rest]
      rfl
    · show (s.w.circs.set c _).map bare = _
      rw [List.map_set, ← hs.circs]
      apply List.ext_getElem?
      intro i
      rw [List.getElem?_set]
      split
      · next e =>
        subst e
        have := (List.getElem?_eq_some_iff.1 hC)
        simp only [List.length_map, this.1, if_true, List.getElem?_map, hC, Option.map_some, bare]
        congr 2
        unfold Bank.flat
        split
        · rfl
        · split <;> rfl
      · rfl

/-- At most the state of circuit `c` is another one, if there was no exception. -/
structure Stored (c : Nat) (P Q : Nat → Prop) (s0 : Sess) (ok : Bool) (s : Sess) : Prop where
  frame : Frame P Q s0 { s with slots := s0.slots }
  other : ∀ d, d ≠ c → s.slots d = s0.slots d
  same : ok = false → s.slots = s0.slots

theorem Frame.stored {c : Nat} {ok : Bool} {s : Sess} (h : Frame P Q s0 s) : Stored c P Q s0 ok s :=
  ⟨by rw [← h.slots]; exact h, fun d _ => by rw [h.slots], fun _ => h.slots⟩

/-- Was there no exception? -/
def isOk {α : Type} : Except Err α → Bool
  | .ok _ => true
  | .error _ => false

theorem setState_fails {n : Nat} {a : NDArr} {f z : Bool} {s : StateSlot} (h : isOk (StateSlot.setState n a f z s).1 = false) :
    (StateSlot.setState n a f z s).2 = s := by
  unfold StateSlot.setState at h ⊢
  split at h
  · rw [if_pos (by assumption)]
  · rw [if_neg (by assumption)]
    dsimp only at h ⊢
    generalize (if z = true then a.scale a.norm else a) = a' at h ⊢
    generalize StateSlot.assertState n a' = z at h
    rcases z with e | _
    · rfl
    · dsimp only at h
      split at h <;> cases h

theorem stored_setState (c : Nat) (a : NDArr) (f z : Bool) {s : Sess} (hs : Frame P Q s0 s) :
    Stored c P Q s0 (isOk (setStateCirc c a f z s).1) (setStateCirc c a f z s).2 := by
  unfold setStateCirc
  split
  · exact hs.stored
  have hq := keeps1_qubitList c s hs
  generalize qubitList c s = y at hq
  obtain ⟨e | qs, s1⟩ := y
  · exact hq.stored
  · dsimp only at hq ⊢
    refine ⟨?_, fun d hd => ?_, fun hok => ?_⟩
    · have := hq.slots
      show Frame P Q s0 { s1 with slots := s0.slots }
      rw [← this]; exact hq
    · show Function.update s1.slots c _ d = _
      rw [Function.update_of_ne hd, hq.slots]
    · show Function.update s1.slots c _ = _
      rw [setState_fails hok, Function.update_eq_self, hq.slots]

theorem stored_bind {c : Nat} {α : Type} {m : Ses α} {f : α → Ses Unit} (hm : Keeps1 P Q s0 m)
    (hf : ∀ a s, Frame P Q s0 s → Stored c P Q s0 (isOk (f a s).1) (f a s).2) {s : Sess} (hs : Frame P Q s0 s) :
    Stored c P Q s0 (isOk ((m >>= f) s).1) ((m >>= f) s).2 := by
  have h := hm s hs
  show Stored c P Q s0 (isOk (Ses.bind m f s).1) (Ses.bind m f s).2
  unfold Ses.bind
  generalize m s = z at h
  obtain ⟨_ | a, s1⟩ := z
  · exact h.stored
  · exact hf a s1 h

/-- What a simulation leaves as it is. -/
theorem stored_simulate (u : Nat → ℝ) (c : Nat) (mixed le : Bool) (s0 : Sess) (hc : Concerns s0.w (opsOf s0.w c) P Q) :
    Stored c P Q s0 (isOk (simulateSes u c mixed le s0).1) (simulateSes u c mixed le s0).2 := by
  refine stored_bind (keeps1_qubitList c) (fun qs s hs => ?_) (.refl s0)
  split
  · exact hs.stored
  have hops : ∀ C, s.w.circs[c]? = some C → C.ops = opsOf s0.w c := by
    intro C hC
    have := congrArg (fun l => l[c]?.map Circ.ops) hs.circs
    simp only [List.getElem?_map, hC, Option.map_some] at this
    rcases h0 : s0.w.circs[c]? with _ | C0
    · simp [h0] at this
    · simp only [h0, Option.map_some, bare, Option.some.injEq] at this
      simp [opsOf, h0, this]
  rcases hC : s.w.circs[c]? with _ | C
  · have : Ses.ofM (circ c) s = (.error .typeError, s) := by
      unfold Ses.ofM circ M.deref
      simp only [hC]
    simp only [Bind.bind, Ses.bind, this]
    exact hs.stored
  · have : Ses.ofM (circ c) s = (.ok C, s) := by
      unfold Ses.ofM circ M.deref
      simp only [hC]
    have e : ∀ f : Circ → Ses Unit, (Ses.ofM (circ c) >>= f) s = f C s := by
      intro f
      show Ses.bind _ f s = _
      unfold Ses.bind
      rw [this]
    rw [e, hops C hC]
    split
    · exact stored_bind (keeps1_densityLoop u qs _ hc _) (fun l s hs => stored_bind (.still fun _ => rfl) (fun a s hs => stored_setState c a true false hs) hs) hs
    · exact stored_bind (keeps1_vectorLoop u qs le _ hc _) (fun l s hs => stored_setState c _ true false hs) hs

end DG
