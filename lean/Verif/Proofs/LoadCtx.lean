import Verif.Proofs.LoadKeeps
import Verif.Proofs.InterruptCtx

/-! The active context before and after loading. -/

namespace DG
open Spec
variable {K : Type} [DecidableEq K] [Zero K]

/-- Executions without interrupts are executions. -/
theorem Prog.exec_run {I : Call K → Prop} {J : Bool} (p : Prog K) : ∀ w, p.Exec I J w (.of (p.run w).1) (p.run w).2 := by
  induction p with
  | skip => exact fun w => .skip w
  | call e => exact fun w => .call e w
  | seq p q ih1 ih2 =>
    intro w
    have h := ih1 w
    unfold Prog.run
    rw [bind_def]
    generalize p.run w = z at h
    obtain ⟨e | a, w1⟩ := z
    · exact .seqStop p q w w1 _ (by simp [Outcome.of]) h
    · exact .seq p q w w1 _ _ h (ih2 w1)
  | withCtx c p ih =>
    intro w
    unfold Prog.run withStmt
    generalize h1 : openCtx c w = z
    obtain ⟨e | x, w1⟩ := z
    · exact .enterFails c p w w1 e h1
    · have h := ih w1
      dsimp only
      generalize p.run w1 = y at h
      obtain ⟨r, w2⟩ := y
      dsimp only at h ⊢
      generalize h3 : exitCtx x w2 = v
      obtain ⟨e | a, w3⟩ := v
      · exact .exitFails c x p w w1 w2 w3 _ e h1 h h3
      · exact .block c x p w w1 w2 w3 _ h1 h h3
  | withFreeze p ih =>
    intro w
    unfold Prog.run withStmt
    generalize h1 : freezeEnter w = z
    obtain ⟨e | x, w1⟩ := z
    · exact .freezeFails p w w1 e h1
    · have h := ih w1
      dsimp only
      generalize p.run w1 = y at h
      obtain ⟨r, w2⟩ := y
      dsimp only at h ⊢
      generalize h3 : freezeExit w2 = v
      obtain ⟨e | a, w3⟩ := v
      · exact .unfreezeFails p w w1 w2 w3 _ e h1 h h3
      · exact .freeze p w w1 w2 w3 _ h1 h h3
  | attempt p ih =>
    intro w
    exact .attempt p w _ _ (ih w)

/-- Programs that set no bit leave the active context as it is. -/
theorem Prog.active_run {p : Prog K} (hp : p.All SetsNoBit) {w : World K} (hr : Refs w) (hq : QInv false false w) (hc : CInv false w) :
    (p.run w).2.active = w.active := by
  cases ha : w.active with
  | none => exact (p.exec_run (I := fun _ => False) (J := false) w).outside (fun _ h => h.elim) hp hr hq hc ha
  | some x =>
    exact ((ActiveIn.inside (x := x) (c := _) p).1 w ⟨ha, _, List.getElem?_eq_getElem (hr.active x ha), rfl⟩).1

end DG
