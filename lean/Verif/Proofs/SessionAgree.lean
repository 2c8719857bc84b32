import Verif.Proofs.SessionFrame
import Verif.Proofs.RunEffect
import Verif.Proofs.CircuitState

/-! A simulation operation by operation, and the simulation of `Model/Simulator.lean`. -/

noncomputable section

namespace DG
open Spec Run Sim

/-! ## Gates -/

theorem map_bind {α : Type} {m : Except Err α} {f f2 : α → Except Err Sim.World} {g : Sim.World → Sim.World} (h : ∀ a, f2 a = (f a).map g) :
    (m >>= f2) = (m >>= f).map g := by
  rcases m with e | a
  · rfl
  · exact h a

theorem apply_gate (u : Nat → ℝ) (n : Nat) {op : SOp} (hk : op.kind ≠ .measurement) (ts : List Nat) (le cj : Bool) {v v2 : Sim.World}
    (hb : isBlocked op v2.bits = isBlocked op v.bits) (hm : v2.mem = v.mem) :
    applyInstruction u n op ts le cj v2 = (applyInstruction u n op ts le cj v).map fun r => { v2 with mem := r.mem } := by
  have hp : ∀ mem : List ℂ, (pure { v2 with mem := mem } : Except Err Sim.World) = (pure { v with mem := mem } : Except Err Sim.World).map fun r => { v2 with mem := r.mem } :=
    fun _ => rfl
  have h0 : (Except.ok v2 : Except Err Sim.World) = (Except.ok v : Except Err Sim.World).map fun r => { v2 with mem := r.mem } := by
    show Except.ok v2 = Except.ok ({ v2 with mem := v.mem } : Sim.World)
    rw [← hm]
  unfold applyInstruction
  rw [hb]
  split
  · exact h0
  generalize op.kind = kd at hk
  cases kd with
  | measurement => exact absurd rfl hk
  | swap => exact map_bind fun _ => map_bind fun _ => by rw [hm]; exact map_bind fun _ => hp _
  | cswap => exact map_bind fun _ => map_bind fun _ => map_bind fun _ => by rw [hm]; exact map_bind fun _ => hp _
  | ccx => exact map_bind fun _ => map_bind fun _ => map_bind fun _ => by rw [hm]; exact map_bind fun _ => hp _
  | controlled nc b =>
    refine map_bind fun _ => ?_
    split
    · exact map_bind fun _ => map_bind fun _ => by rw [hm]; exact map_bind fun _ => hp _
    · split
      · exact map_bind fun _ => map_bind fun _ => map_bind fun _ => by rw [hm]; exact map_bind fun _ => hp _
      · exact h0
  | single b => exact map_bind fun _ => map_bind fun _ => by rw [hm]; exact map_bind fun _ => hp _
  | barrier =>
    dsimp only
    split
    · rfl
    · split <;> rfl
  | «opaque» => rfl

/-! ## The correspondence -/

/-- The state of the simulation `v` of `Model/Simulator.lean`, as local variables and objects. -/
structure Corr (w0 : World ℝ) (slots : Nat → StateSlot) (v : Sim.World) (l : Run.Local) (s : Sess) : Prop where
  mem : v.mem = l.mem
  drawn : v.drawn = l.drawn
  w : s.w = { w0 with bits := withValues w0 v.bits }
  records : s.records = v.records
  slots : s.slots = slots

theorem bitValues_with {w0 : World ℝ} {f : Nat → Option Bool} {b : Nat} (hb : b < w0.bits.length) :
    bitValues { w0 with bits := withValues w0 f } b = f b := by
  unfold bitValues withValues
  dsimp only
  rw [List.getElem?_mapIdx, List.getElem?_eq_getElem hb]
  simp only [Option.map_some, Option.map_map]
  rcases f b with _ | (_ | _) <;> rfl

theorem blocked_with {w0 : World ℝ} {f : Nat → Option Bool} {op : SOp} (h : ∀ bs, op.cond = some bs → ∀ b ∈ bs, b < w0.bits.length) :
    isBlocked op (bitValues { w0 with bits := withValues w0 f }) = isBlocked op f := by
  unfold isBlocked
  rcases hc : op.cond with _ | (_ | ⟨b, bs⟩)
  · rfl
  · rfl
  · dsimp only
    congr 1
    have key : ∀ l : List Nat, (∀ b ∈ l, b < w0.bits.length) →
        (l.all fun b => bitTrue (bitValues { w0 with bits := withValues w0 f } b)) = l.all fun b => bitTrue (f b) := by
      intro l
      induction l with
      | nil => exact fun _ => rfl
      | cons a l ih =>
        intro h
        simp only [List.all_cons]
        rw [ih fun b hb => h b (by simp [hb]), bitValues_with (h a (by simp))]
    exact key _ (h _ hc)

theorem store_with (w0 : World ℝ) (f : Nat → Option Bool) (bits : Option (List Nat)) (idx : Nat) (m : Int) :
    store bits idx m { w0 with bits := withValues w0 f } = { w0 with bits := withValues w0 (storeBit bits idx m f) } := by
  unfold store storeBit
  rcases bits with _ | bs
  · rfl
  dsimp only
  rcases bs[idx]? with _ | b
  · rfl
  dsimp only
  unfold setBit
  have hlen : (withValues w0 f).length = w0.bits.length := by simp [withValues]
  by_cases hb : b < w0.bits.length
  · have hx : (withValues w0 f)[b]? = some { w0.bits[b] with value := (f b).map fun v => if v then 1 else 0 } := by
      unfold withValues
      rw [List.getElem?_mapIdx, List.getElem?_eq_getElem hb]
      rfl
    simp only [hx]
    dsimp only [BitState.set]
    simp only [Bool.not_true, Bool.and_false, Bool.false_eq_true, if_false]
    congr 1
    apply List.ext_getElem?
    intro i
    rw [List.getElem?_set, hlen]
    unfold withValues
    rw [List.getElem?_mapIdx, List.getElem?_mapIdx]
    by_cases e : b = i
    · subst e
      rw [List.getElem?_eq_getElem hb]
      simp only [hb, if_true, Option.map_some, Function.update_self]
    · rw [if_neg e]
      congr 1
      funext x
      rw [Function.update_of_ne (Ne.symm e)]
  · have hx : (withValues w0 f)[b]? = none := List.getElem?_eq_none (by omega)
    simp only [hx]
    congr 1
    unfold withValues
    apply List.ext_getElem?
    intro i
    rw [List.getElem?_mapIdx, List.getElem?_mapIdx]
    rcases hi : w0.bits[i]? with _ | x
    · rfl
    · have : i ≠ b := by
        rintro rfl
        exact hb (List.getElem?_eq_some_iff.1 hi).1
      rw [Function.update_of_ne this]

/-- The two computations end in the same way. -/
def Same (w0 : World ℝ) (slots : Nat → StateSlot) (r : Except Err Sim.World) (z : Except Err Run.Local × Sess) : Prop :=
  match r with
  | .error e => z.1 = .error e
  | .ok v => ∃ l s, z = (.ok l, s) ∧ Corr w0 slots v l s

section
variable {w0 : World ℝ} {slots : Nat → StateSlot}

theorem same_measureQubits (u : Nat → ℝ) (op : SOp) : ∀ ts idx v l s, Corr w0 slots v l s → Same w0 slots (measureLoop u op ts idx v) (measureQubits u op ts idx l s)
  | [], _, v, l, s, h => ⟨l, s, rfl, h⟩
  | t :: ts, idx, v, l, s, h => by
    unfold measureLoop measureQubits
    rw [h.mem, h.drawn]
    rcases sampleQubit t l.mem (u l.drawn) true false with e | ⟨m, mem⟩
    · rfl
    · refine same_measureQubits u op ts (idx + 1) _ _ _ ⟨rfl, rfl, ?_, ?_, h.slots⟩
      · show store op.bits idx m s.w = _
        rw [h.w, store_with]
      · show Function.update s.records _ _ = Function.update v.records _ _
        rw [h.records]

theorem same_instruction (u : Nat → ℝ) (n : Nat) (op : SOp) (hc : ∀ bs, op.cond = some bs → ∀ b ∈ bs, b < w0.bits.length) (nc : Bool)
    (hn : (w0.active.isSome && nc) = false) (ts : List Nat) (le cj : Bool) {v : Sim.World} {l : Run.Local} {s : Sess} (h : Corr w0 slots v l s) :
    Same w0 slots (applyInstruction u n op ts le cj v) (instruction u n op nc ts le cj l s) := by
  have hb : isBlocked op (bitValues s.w) = isBlocked op v.bits := by rw [h.w, blocked_with hc]
  have ha : s.w.active = w0.active := by rw [h.w]
  unfold instruction
  by_cases hk : op.kind = .measurement
  · unfold applyInstruction
    rw [hb]
    split
    · exact ⟨l, s, rfl, h⟩
    rw [hk]
    dsimp only
    split
    · rfl
    · refine same_measureQubits u op ts 0 _ _ _ ⟨h.mem, h.drawn, h.w, ?_, h.slots⟩
      show Function.update s.records _ _ = Function.update v.records _ _
      rw [h.records, h.mem]
  · split
    · next hbl =>
      unfold applyInstruction
      rw [← hb, if_pos hbl]
      exact ⟨l, s, rfl, h⟩
    split
    · exact absurd (by assumption) hk
    rw [ha, hn]
    simp only [Bool.false_eq_true, if_false]
    have := apply_gate u n hk ts le cj (v := v) (v2 := ⟨l.mem, bitValues s.w, l.drawn, s.records⟩) hb h.mem.symm
    rw [this]
    have h2 := apply_gate u n hk ts le cj (v := v) (v2 := v) rfl rfl
    generalize applyInstruction u n op ts le cj v = r at h2
    rcases r with e | r
    · rfl
    · have h3 : r = { v with mem := r.mem } := by
        simp only [Except.map, Except.ok.injEq] at h2
        exact h2
      refine ⟨_, s, rfl, ⟨rfl, ?_, ?_, ?_, h.slots⟩⟩
      · rw [h3]; exact h.drawn
      · rw [h3]; exact h.w
      · rw [h3]; exact h.records

theorem Same.bind {w0 : World ℝ} {slots : Nat → StateSlot} {r : Except Err Sim.World} {m : Ses Run.Local} {s : Sess} (h : Same w0 slots r (m s)) {f : Sim.World → Except Err Sim.World}
    {g : Run.Local → Ses Run.Local} (hf : ∀ v l s, Corr w0 slots v l s → Same w0 slots (f v) (g l s)) : Same w0 slots (r >>= f) ((m >>= g) s) := by
  rcases r with e | v
  · show _ = _
    have h' : (m s).1 = .error e := h
    show (Ses.bind m g s).1 = _
    unfold Ses.bind
    generalize m s = z at h'
    obtain ⟨_ | _, _⟩ := z
    · exact h'
    · cases h'
  · obtain ⟨l, s1, e, hc⟩ := h
    show Same w0 slots (f v) (Ses.bind m g s)
    unfold Ses.bind
    rw [e]
    exact hf v l s1 hc

/-- Operation `o` of `w` is `p` for the simulator. -/
theorem same_vectorLoop (u : Nat → ℝ) (qs : List Nat) (all : List SOp) (le : Bool) : ∀ (os : List Nat) (S : List SOp), Run.ops w0 os = .ok S →
    (∀ p ∈ S, ∀ bs, p.cond = some bs → ∀ b ∈ bs, b < w0.bits.length) → (∀ o ∈ os, (w0.active.isSome && noContext w0 o) = false) →
    ∀ v l s, Corr w0 slots v l s →
    Same w0 slots (S.foldlM (fun w op => do
      let targets ← targetsOf ⟨qs, all⟩ op
      applyInstruction u qs.length op targets le false w) v) (vectorLoop u qs le os l s)
  | [], S, hS, _, _, v, l, s, h => by
    cases hS
    exact ⟨l, s, rfl, h⟩
  | o :: os, S, hS, hc, hn, v, l, s, h => by
    unfold Run.ops at hS
    rcases hp : Run.op w0 o with e | p
    · rw [hp] at hS; cases hS
    rw [hp] at hS
    dsimp only at hS
    rcases hT : Run.ops w0 os with e | T
    · rw [hT] at hS; cases hS
    rw [hT] at hS
    cases hS
    have hp' : Run.op s.w o = .ok p := by rw [h.w, ← hp]; rfl
    have hnc : noContext s.w o = noContext w0 o := by rw [h.w]; rfl
    unfold vectorLoop
    rw [List.foldlM_cons, hp']
    dsimp only
    rw [hnc]
    have e1 : targetsOf ⟨qs, all⟩ p = targetsOf ⟨qs, []⟩ p := rfl
    rw [e1]
    rcases targetsOf ⟨qs, []⟩ p with e | ts
    · rfl
    · exact Same.bind (same_instruction u qs.length p (hc p (by simp)) _ (hn o (by simp)) ts le false h) fun v l s h =>
        same_vectorLoop u qs all le os T hT (fun p hp => hc p (by simp [hp])) (fun o ho => hn o (by simp [ho])) v l s h

end


/-! ## The final check -/

theorem norm_vector (v : List ℂ) : (vector v).norm = norm2 v := by
  unfold NDArr.norm norm2 vector
  congr 3
  funext x
  rw [Complex.sq_norm]

theorem isCloseOne_eq : isCloseOne = IsClose1 := by
  funext x
  unfold isCloseOne IsClose1
  norm_num

theorem assertState_vector {n : Nat} (hn : 1 ≤ n) (v : List ℂ) : StateSlot.assertState n (vector v) = Sim.assertState n v := by
  obtain ⟨m, rfl⟩ : ∃ m, n = m + 1 := ⟨n - 1, by omega⟩
  unfold StateSlot.assertState Sim.assertState StateSlot.stateSize
  rw [norm_vector, isCloseOne_eq]
  dsimp only
  have hs : (vector v).shape = [v.length] := rfl
  rw [hs]
  have hm : 2 <<< (m + 1 - 1) = 2 <<< m := rfl
  rw [hm]
  by_cases hl : v.length = 2 <<< m
  · by_cases hc : IsClose1 (norm2 v)
    · simp [hl, hc]
    · simp [hl, hc]
  · simp [hl]

theorem setState_vector {n : Nat} (hn : 1 ≤ n) (v : List ℂ) (s : StateSlot) : StateSlot.setState n (vector v) true false s =
    match Sim.assertState n v with
    | .error e => (.error e, s)
    | .ok () => (.ok (), ⟨some (vector v), none⟩) := by
  rw [DG.setState_eq n _ true s (.inl rfl), assertState_vector hn]
  rcases Sim.assertState n v with e | _
  · rfl
  · rfl

/-! ## The whole simulation -/

theorem ses_ok {α β : Type} {m : Ses α} {a : α} {s s1 : Sess} (h : m s = (.ok a, s1)) (f : α → Ses β) : (m >>= f) s = f a s1 := by
  show Ses.bind m f s = _
  unfold Ses.bind
  rw [h]

theorem ses_error {α β : Type} {m : Ses α} {e : Err} {s : Sess} (h : (m s).1 = .error e) (f : α → Ses β) : ((m >>= f) s).1 = .error e := by
  show (Ses.bind m f s).1 = _
  unfold Ses.bind
  generalize m s = z at h
  obtain ⟨e' | _, _⟩ := z
  · cases h; rfl
  · cases h

theorem qubitList_eq {A : Call ℝ → Prop} {w : World ℝ} (h : Reach A w) {c : Nat} {C : Circ} (hC : w.circs[c]? = some C) {items : List Nat}
    (hi : seen (qubitsOf c w).1 = .ok (items.map Lbl.obj)) :
    ∃ C', bare C' = bare C ∧ ∀ s : Sess, s.w = w → qubitList c s = (.ok items, { s with w := w.setCirc c C' }) ∧
      ∀ s2 : Sess, s2.w.circs[c]? = some C' → qubitList c s2 = (.ok items, s2) := by
  obtain ⟨r, its, g1, g2⟩ := reach_rep h hC
  rw [g1] at hi
  have e := hi.symm.trans g2.iter_eq
  cases e
  refine ⟨{ C with q := { C.q with cache := some r } }, rfl, fun s hs => ⟨?_, fun s2 h2 => ?_⟩⟩
  · have h1 : Ses.ofM (qubitsOf c) s = (.ok r, { s with w := w.setCirc c { C with q := { C.q with cache := some r } } }) := by
      unfold Ses.ofM
      rw [hs, g1]
    unfold qubitList
    rw [ses_ok h1, ses_ok (a := items.map Lbl.obj) (by unfold Ses.lift; rw [g2.iter_eq])]
    unfold Ses.lift
    rw [run_qubits]
  · have h0 : qubitsOf c s2.w = (.ok r, s2.w) := by
      unfold qubitsOf
      rw [h2]
      unfold Bank.flat
      dsimp only
      congr 1
      unfold World.setCirc
      obtain ⟨hlt, hg⟩ := List.getElem?_eq_some_iff.1 h2
      have : s2.w.circs.set c { C with q := { C.q with cache := some r } } = s2.w.circs := by
        rw [← hg, List.set_getElem_self]
      rw [this]
    have h1 : Ses.ofM (qubitsOf c) s2 = (.ok r, s2) := by
      unfold Ses.ofM
      rw [h0]
    unfold qubitList
    rw [ses_ok h1, ses_ok (a := items.map Lbl.obj) (by unfold Ses.lift; rw [g2.iter_eq])]
    unfold Ses.lift
    rw [run_qubits]

/-- What the simulation `r` of `Model/Simulator.lean` means for the objects. -/
def Ends (s : Sess) (c : Nat) (w1 : World ℝ) (r : Except Err (Option Sim.World)) (z : Except Err Unit × Sess) : Prop :=
  match r with
  | .error e => z.1 = .error e
  | .ok none => False
  | .ok (some v) => z = (.ok (), ⟨{ w1 with bits := withValues s.w v.bits }, Function.update s.slots c ⟨some (vector v.mem), none⟩, v.records⟩)

theorem simulateSes_eq {A : Call ℝ → Prop} {s : Sess} (h : Reach A s.w) {c : Nat} {C : Circ} (hC : s.w.circs[c]? = some C) {items : List Nat}
    (hi : seen (qubitsOf c s.w).1 = .ok (items.map Lbl.obj)) (hne : items ≠ []) {S : List SOp} (hS : List.Forall₂ (Reads s.w) C.ops S)
    (hcond : ∀ p ∈ S, ∀ bs, p.cond = some bs → ∀ b ∈ bs, b < s.w.bits.length)
    (hact : s.w.active = none ∨ ¬ NeedsNoContext s.w C.ops) (u : Nat → ℝ) (le : Bool) :
    ∃ C', bare C' = bare C ∧ Ends s c (s.w.setCirc c C') (simulate u ⟨items, S⟩ le (bitValue s.w) s.records) (simulateSes u c false le s) := by
  obtain ⟨C', hb, hq⟩ := qubitList_eq h hC hi
  obtain ⟨hq1, hq2⟩ := hq s rfl
  have hlt : c < s.w.circs.length := (List.getElem?_eq_some_iff.1 hC).1
  have hget : (s.w.setCirc c C').circs[c]? = some C' := by simp [World.setCirc, hlt]
  have hops : C'.ops = C.ops := by have := congrArg (fun x : Circ => x.ops) hb; exact this
  refine ⟨C', hb, ?_⟩
  unfold simulateSes
  rw [ses_ok hq1, if_neg hne, ses_ok (a := C') (s1 := { s with w := s.w.setCirc c C' })
    (by unfold Ses.ofM circ M.deref; simp only [hget])]
  simp only [Bool.false_eq_true, if_false]
  have hrun : Run.ops (s.w.setCirc c C') C.ops = .ok S := run_ops (hS.imp fun a b h => Reads.of_same (w' := s.w.setCirc c C') rfl rfl h)
  have hno : ∀ o ∈ C.ops, ((s.w.setCirc c C').active.isSome && noContext (s.w.setCirc c C') o) = false := by
    intro o ho
    rcases hact with hact | hact
    · rw [show (s.w.setCirc c C').active = none from hact]; rfl
    · rw [Bool.and_eq_false_iff]
      right
      rw [Bool.eq_false_iff]
      intro e
      unfold noContext at e
      rw [needsNoContext_same (w := s.w) (w' := s.w.setCirc c C') rfl rfl] at e
      obtain ⟨o', ho', x⟩ := needsNoContext_iff.1 e
      simp only [List.mem_singleton] at ho'
      subst ho'
      exact hact ⟨o', ho, x⟩
  have hcorr : Corr (s.w.setCirc c C') s.slots { mem := initialState items.length, bits := bitValue s.w, drawn := 0, records := s.records }
      ⟨initialState items.length, 0⟩ { s with w := s.w.setCirc c C' } := by
    refine ⟨rfl, rfl, ?_, rfl, rfl⟩
    show s.w.setCirc c C' = { s.w.setCirc c C' with bits := withValues s.w (bitValue s.w) }
    rw [withValues_same (BitVals.reach h)]
    rfl
  have hsame := same_vectorLoop u items S le C.ops S hrun hcond hno _ _ _ hcorr
  have hn : 1 ≤ items.length := List.length_pos_iff.2 hne
  have hsim : simulate u ⟨items, S⟩ le (bitValue s.w) s.records =
      (loop u ⟨items, S⟩ le { mem := initialState items.length, bits := bitValue s.w, drawn := 0, records := s.records } >>= fun w => do
        Sim.assertState items.length w.mem
        pure (some w)) := by
    unfold simulate
    rw [if_neg (by show ¬ items.length = 0; omega)]
  rw [hsim, hops]
  have hloop : loop u ⟨items, S⟩ le { mem := initialState items.length, bits := bitValue s.w, drawn := 0, records := s.records } =
    S.foldlM (fun w op => do
      let targets ← targetsOf ⟨items, S⟩ op
      applyInstruction u items.length op targets le false w) { mem := initialState items.length, bits := bitValue s.w, drawn := 0, records := s.records } := rfl
  rw [hloop]
  generalize S.foldlM (fun w op => do
      let targets ← targetsOf ⟨items, S⟩ op
      applyInstruction u items.length op targets le false w) { mem := initialState items.length, bits := bitValue s.w, drawn := 0, records := s.records } = r at hsame
  rcases r with e | v
  · exact ses_error hsame _
  · obtain ⟨l, s2, e, hc⟩ := hsame
    rw [ses_ok e]
    have hx : setStateCirc c (vector l.mem) true false s2 =
        (match Sim.assertState items.length l.mem with
          | .error e => (.error e, s2)
          | .ok () => (.ok (), { s2 with slots := Function.update s2.slots c ⟨some (vector l.mem), none⟩ })) := by
      unfold setStateCirc
      simp only [Bool.not_true, Bool.false_and, Bool.false_eq_true, if_false]
      rw [hq2 s2 (by rw [hc.w]; exact hget)]
      dsimp only
      rw [setState_vector hn]
      rcases Sim.assertState items.length l.mem with e | _
      · dsimp only
        rw [Function.update_eq_self]
      · rfl
    rw [hx, show (Except.ok v >>= fun w => (do Sim.assertState items.length w.mem; pure (some w) : Except Err (Option Sim.World))) =
      (do Sim.assertState items.length v.mem; pure (some v)) from rfl, hc.mem]
    rcases Sim.assertState items.length l.mem with e | _
    · rfl
    · show (Except.ok (), _) = (Except.ok (), _)
      congr 1
      obtain ⟨w2, sl, rc⟩ := s2
      have h1 := hc.w
      have h2 := hc.slots
      have h3 := hc.records
      dsimp only at h1 h2 h3
      subst h1 h2 h3
      rw [hc.mem]
      rfl

end DG
