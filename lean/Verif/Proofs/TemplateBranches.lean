import Verif.Proofs.Template
import Verif.Proofs.Branches

/-! # Branches of templates -/

noncomputable section

namespace DG
open Spec Sim

variable {k n : Nat} {ι : Fin k → Fin n}

theorem onQubits_restrict (hι : Function.Injective ι) (ts : List (Fin k)) (ms : List Bool) : onQubits ι (restrict ts ms) = restrict (ts.map ι) ms := by
  funext ψ x
  simp only [onQubits, restrict, List.map_map, extend_self hι]

/-- The bits of a measurement and those of its copy. -/
def BitsCopied (R : Option (Nat → Nat → Prop)) (s s' : SOp) : Prop :=
  match R with
  | none => s'.bits = none
  | some r => ∃ bs, s'.bits = some bs ∧ List.Forall₂ r ((s.bits.getD []).take s.qubits.length) bs

theorem zip_take {α β : Type} : ∀ (l : List α) (ms : List β) (n : Nat), ms.length = n → l.zip ms = (l.take n).zip ms
  | [], _, _, _ => by simp
  | _ :: _, [], _, _ => by simp
  | a :: l, m :: ms, n, h => by
    cases n with
    | zero => simp at h
    | succ n =>
      rw [List.take_succ_cons, List.zip_cons_cons, List.zip_cons_cons, zip_take l ms n (by simpa using h)]

theorem zip_rel {r : Nat → Nat → Prop} {l l' : List Nat} (h : List.Forall₂ r l l') : ∀ (ms : List Bool),
    List.Forall₂ (fun p p' => r p.1 p'.1 ∧ p.2 = p'.2) (l.zip ms) (l'.zip ms) := by
  induction h with
  | nil => simp
  | cons h _ ih =>
    intro ms
    cases ms with
    | nil => simp
    | cons m ms => exact .cons ⟨h, rfl⟩ (ih ms)

theorem forall₂_flatMap₂ {α β γ : Type} {R : β → γ → Prop} {f : α → List β} {g : α → List γ} (l : List α)
    (h : ∀ a ∈ l, List.Forall₂ R (f a) (g a)) : List.Forall₂ R (l.flatMap f) (l.flatMap g) := forall₂_flatMap h

/-- The operations of a template, and the same operations on qubits of another circuit. -/
theorem template_branches {c c' : SCircuit} {ι : Fin c.qubits.length → Fin c'.qubits.length} (hι : Function.Injective ι) {R : Option (Nat → Nat → Prop)} :
    ∀ (S S' : List SOp), (∀ s ∈ S, (GateOp c s ∨ MeasureOp c s) ∧ s.cond = none) →
    List.Forall₂ (fun s s' => s'.kind = s.kind ∧ s'.cond = none ∧ (∀ ts : List (Fin c.qubits.length), s.qubits = ts.map (qubitAt c) →
      s'.qubits = (ts.map ι).map (qubitAt c')) ∧ (s.kind = .measurement → BitsCopied R s s')) S S' →
    ∀ vals vals', ∃ L L', Branches c S vals L ∧ Branches c' S' vals' L' ∧ List.Forall₂ (CopiedBranch ι R) L L' := by
  intro S
  induction S with
  | nil =>
    intro S' _ h vals vals'
    cases h
    refine ⟨_, _, .nil, .nil, .cons ⟨(onQubits_id hι).symm, ?_⟩ .nil⟩
    cases R
    · rfl
    · exact .nil
  | cons s S ih =>
    intro S' hg h vals vals'
    cases h with
    | @cons _ s' _ S' h1 h2 =>
      obtain ⟨e1, e2, e3, e4⟩ := h1
      obtain ⟨g1, g2⟩ := hg s (by simp)
      have ih' := ih S' (fun s hs => hg s (by simp [hs])) h2
      have nb : ∀ vals, ¬ Blocked s vals := by rintro vals ⟨_, _, h, _⟩; rw [g2] at h; cases h
      have nb' : ∀ vals, ¬ Blocked s' vals := by rintro vals ⟨_, _, h, _⟩; rw [e2] at h; cases h
      rcases g1 with g1 | g1
      · obtain ⟨L, L', i1, i2, i3⟩ := ih' vals vals'
        obtain ⟨ts, f, hts, hf⟩ := gateAct_exists g1
        refine ⟨_, _, .gate (nb _) hts hf i1, .gate (nb' _) (e3 ts hts) (by rw [e1]; exact gateAct_lift hι hf) i2, ?_⟩
        rw [List.forall₂_map_left_iff, List.forall₂_map_right_iff]
        refine i3.imp fun b b' hb => ⟨?_, hb.2⟩
        dsimp only
        rw [hb.1, onQubits_comp hι]
      · obtain ⟨ts, hts⟩ := exists_targets c s.qubits g1.2
        have hl : s.qubits.length = ts.length := by rw [hts]; simp
        choose L L' i1 i2 i3 using ih'
        have hk' : s'.kind = .measurement := by rw [e1]; exact g1.1
        refine ⟨_, _, .measure (nb _) g1.1 hts fun ms _ => i1 (writeBits vals ((s.bits.getD []).zip ms)) (writeBits vals' ((s'.bits.getD []).zip ms)),
          .measure (L := fun ms => L' (writeBits vals ((s.bits.getD []).zip ms)) (writeBits vals' ((s'.bits.getD []).zip ms))) (nb' _) hk' (e3 ts hts)
            fun ms _ => i2 _ _, ?_⟩
        rw [List.length_map]
        refine forall₂_flatMap₂ _ fun ms hms => ?_
        rw [mem_allRows] at hms
        rw [List.forall₂_map_left_iff, List.forall₂_map_right_iff]
        refine (i3 _ _).imp fun b b' hb => ⟨?_, ?_⟩
        · dsimp only
          rw [hb.1, onQubits_comp hι, onQubits_restrict hι]
        · have hbits := e4 g1.1
          have hw := hb.2
          cases R with
          | none =>
            have h0 : s'.bits = none := hbits
            have h1 : b'.writes = [] := hw
            show (s'.bits.getD []).zip ms ++ b'.writes = []
            rw [h0, h1]
            simp
          | some r =>
            obtain ⟨bs, f1, f2⟩ := hbits
            show List.Forall₂ _ ((s.bits.getD []).zip ms ++ b.writes) ((s'.bits.getD []).zip ms ++ b'.writes)
            refine List.rel_append ?_ hw
            rw [f1, Option.getD_some, zip_take (s.bits.getD []) ms s.qubits.length (by rw [hl]; exact hms)]
            exact zip_rel f2 ms

end DG
