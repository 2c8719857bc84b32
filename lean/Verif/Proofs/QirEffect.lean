import Verif.Proofs.QirRound

/-! Loading a QIR program does nothing that a program could not do by calls of the API. -/

namespace DG
open Spec
variable {K : Type} [DecidableEq K] [Zero K]

/-- What a program does in a state that is reached leads to a state that is reached. -/
theorem Prog.visits_then {A : Call K → Prop} {q : Prog K} (hq : q.All A) {w w' : World K} (e : q.run w = (.ok (), w')) :
    ∀ (p : Prog K), p.All A → ∀ w0, p.Visits w0 w → ∃ p' : Prog K, p'.All A ∧ p'.Visits w0 w' := by
  have hv : q.Visits w w' := by
    have := q.visits_run w
    rwa [e] at this
  have after : ∀ (p : Prog K) (w0 : World K), p.All A → (p.run w0).2 = w → ∃ p' : Prog K, p'.All A ∧ p'.Visits w0 w' := by
    intro p w0 hp hw
    refine ⟨.seq (.attempt p) q, ⟨hp, hq⟩, .inr ⟨w, ?_, hv⟩⟩
    simp only [Prog.run, tryPass, hw]
  intro p
  induction p with
  | skip => rintro - w0 rfl; exact ⟨q, hq, hv⟩
  | call c =>
    rintro hp w0 (rfl | rfl)
    · exact ⟨q, hq, hv⟩
    · exact after (.call c) w0 hp rfl
  | seq p1 p2 ih1 ih2 =>
    rintro hp w0 (h | ⟨w1, h1, h2⟩)
    · exact ih1 hp.1 w0 h
    · obtain ⟨p', g1, g2⟩ := ih2 hp.2 w1 h2
      exact ⟨.seq p1 p', ⟨hp.1, g1⟩, .inr ⟨w1, h1, g2⟩⟩
  | withCtx c p ih =>
    rintro hp w0 (rfl | rfl | ⟨x, w1, h1, h2 | rfl⟩)
    · exact ⟨q, hq, hv⟩
    · rcases ho : openCtx c w0 with ⟨err | x, w1⟩
      · refine after (.withCtx c p) w0 hp ?_
        simp [Prog.run, withStmt, ho]
      · rw [ho] at hv
        exact ⟨.withCtx c q, hq, .inr (.inr ⟨x, w1, ho, .inl hv⟩)⟩
    · obtain ⟨p', g1, g2⟩ := ih hp w1 h2
      exact ⟨.withCtx c p', g1, .inr (.inr ⟨x, w1, h1, .inl g2⟩)⟩
    · refine after (.withCtx c p) w0 hp ?_
      simp only [Prog.run, withStmt, h1]
      rcases exitCtx x (p.run w1).2 with ⟨err | -, w3⟩ <;> rfl
  | withFreeze p ih =>
    rintro hp w0 (rfl | rfl | ⟨w1, h1, h2 | rfl⟩)
    · exact ⟨q, hq, hv⟩
    · rcases ho : freezeEnter w0 with ⟨err | x, w1⟩
      · refine after (.withFreeze p) w0 hp ?_
        simp [Prog.run, withStmt, ho]
      · rw [ho] at hv
        exact ⟨.withFreeze q, hq, .inr (.inr ⟨w1, ho, .inl hv⟩)⟩
    · obtain ⟨p', g1, g2⟩ := ih hp w1 h2
      exact ⟨.withFreeze p', g1, .inr (.inr ⟨w1, h1, .inl g2⟩)⟩
    · refine after (.withFreeze p) w0 hp ?_
      simp only [Prog.run, withStmt, h1]
      rcases freezeExit (p.run w1).2 with ⟨err | -, w3⟩ <;> rfl
  | attempt p ih =>
    intro hp w0 h
    exact ih hp w0 h

theorem reach_after {A : Call K → Prop} {w w' : World K} (h : Reach A w) {q : Prog K} (hq : q.All A) (e : q.run w = (.ok (), w')) : Reach A w' := by
  obtain ⟨p, hp, hv⟩ := h
  exact Prog.visits_then hq e p hp _ hv

/-- If `m` succeeds, then a program of calls that satisfy `A` does the same. -/
def Programmed (A : Call K → Prop) {α : Type} (m : M K α) : Prop :=
  ∀ w a w', m w = (.ok a, w') → ∃ p : Prog K, p.All A ∧ p.run w = (.ok (), w')

namespace Programmed
variable {A : Call K → Prop} {α β : Type}

theorem still {m : M K α} (h : ∀ w, (m w).2 = w) : Programmed A m := by
  intro w a w' e
  refine ⟨.skip, trivial, ?_⟩
  have := h w
  rw [e] at this
  cases this
  rfl

theorem bind {m : M K α} {f : α → M K β} (hm : Programmed A m) (hf : ∀ a, Programmed A (f a)) : Programmed A (m >>= f) := by
  intro w b w' e
  rcases h : m w with ⟨err | a, w1⟩
  · simp [Bind.bind, M.bind, h] at e
  · simp only [Bind.bind, M.bind, h] at e
    obtain ⟨p, h1, h2⟩ := hm w a w1 h
    obtain ⟨q, h3, h4⟩ := hf a w1 b w' e
    exact ⟨.seq p q, ⟨h1, h3⟩, by simp only [Prog.run, Bind.bind, M.bind, h2, h4]⟩

theorem call {m : M K α} (e : Call K) (hA : A e) (he : execCall e = m.void) : Programmed A m := by
  intro w a w' h
  exact ⟨.call e, hA, by simp only [Prog.run, he, M.void, h]⟩

theorem void {m : M K α} (h : Programmed A m) : Programmed A m.void := by
  intro w a w' e
  simp only [M.void] at e
  rcases h' : m w with ⟨err | a', w1⟩
  · rw [h'] at e; cases e
  · rw [h'] at e
    cases e
    exact h w a' _ h'

theorem unit {m : M K Unit} (e : Call K) (hA : A e) (he : execCall e = m) : Programmed A m := by
  intro w a w' h
  exact ⟨.call e, hA, by simp only [Prog.run, he, h]⟩

theorem each {body : α → M K Unit} (h : ∀ a, Programmed A (body a)) : ∀ l : List α, Programmed A (M.each l body)
  | [] => still fun _ => rfl
  | _ :: l => bind (h _) fun _ => each h l

theorem whenever {m : M K Unit} (c : Bool) (h : Programmed A m) : Programmed A (M.whenever c m) := by
  intro w a w' e
  cases c with
  | true => exact h w a w' e
  | false => cases e; exact ⟨.skip, trivial, rfl⟩

theorem withCtx {m : M K Unit} (c : Nat) (h : Programmed A m) : Programmed A (withStmt (openCtx c) m exitCtx) := by
  intro w a w' e
  unfold withStmt at e
  rcases h1 : openCtx c w with ⟨err | x, w1⟩
  · rw [h1] at e; cases e
  rw [h1] at e
  dsimp only at e
  rcases h2 : m w1 with ⟨r, w2⟩
  rw [h2] at e
  dsimp only at e
  rcases h3 : exitCtx x w2 with ⟨err | y, w3⟩
  · rw [h3] at e; cases e
  rw [h3] at e
  cases e
  obtain ⟨p, g1, g2⟩ := h w1 _ w2 h2
  exact ⟨.withCtx c p, g1, by simp only [Prog.run, withStmt, h1, g2, h3]⟩

end Programmed

namespace Qir

/-- The calls that the loader makes. -/
def LoaderCall : Call K → Prop
  | .newCirc .. | .addQubit .. | .addBit .. | .readQubits .. | .readBits .. | .unlock .. | .construct .. | .measureInto .. => True
  | _ => False

open Programmed in
theorem programmed_apply (lib : String → Nat) (c : Nat) (name : String) (ps : List K) (qs : List Nat) :
    Programmed LoaderCall (Qir.apply lib c name ps qs) := by
  refine bind (call (.readQubits c) trivial rfl) fun r => bind (still fun _ => rfl) fun l => bind (still fun w => ?_) fun k => ?_
  · unfold clsObj M.deref
    split <;> rfl
  · split
    · exact still fun _ => rfl
    · exact void (call (.construct _ _ _) trivial rfl)

open Programmed in
theorem programmed_loadGate (lib : String → Nat) (c : Nat) (name : String) (ps : List K) (qs : List Nat) :
    Programmed LoaderCall (Qir.loadGate lib c name ps qs) :=
  bind (call (.readQubits c) trivial rfl) fun _ => bind (each (fun _ => unit (.addQubit c .none none) trivial rfl) _) fun _ =>
    bind (unit (.unlock c) trivial rfl) fun _ => withCtx c (programmed_apply lib c name ps qs)

open Programmed in
theorem programmed_applyMeasure (lib : String → Nat) (c : Nat) (qs bs : List Nat) : Programmed LoaderCall (K := K) (Qir.applyMeasure lib c qs bs) :=
  bind (call (.readQubits c) trivial rfl) fun _ => bind (still fun _ => rfl) fun _ => bind (call (.readBits c) trivial rfl) fun _ =>
    bind (still fun _ => rfl) fun _ => bind (call (.construct _ _ _) trivial rfl) fun o => unit (.measureInto o _) trivial rfl

open Programmed in
theorem programmed_addMeasurements (lib : String → Nat) (c : Nat) (qs bs : List Nat) : Programmed LoaderCall (K := K) (Qir.addMeasurements lib c qs bs) :=
  bind (call (.readBits c) trivial rfl) fun _ => bind (each (fun _ => unit (.addBit c .none none) trivial rfl) _) fun _ =>
    bind (unit (.unlock c) trivial rfl) fun _ => withCtx c (programmed_applyMeasure lib c qs bs)

open Programmed in
theorem programmed_loadCall (lib : String → Nat) (c : Nat) (f : String) (args : List (QirArg K)) (acc : List Nat × List Nat) :
    Programmed LoaderCall (Qir.loadCall lib c f args acc) := by
  unfold Qir.loadCall
  split
  · exact still fun _ => rfl
  split
  · exact still fun _ => rfl
  split
  · exact still fun _ => rfl
  split
  · exact still fun _ => rfl
  · exact bind (programmed_loadGate lib c _ _ _) fun _ => still fun _ => rfl

open Programmed in
theorem programmed_loadBlock (lib : String → Nat) (c : Nat) : ∀ (b : List (LInstr K)) (acc : List Nat × List Nat),
    Programmed LoaderCall (Qir.loadBlock lib c b acc)
  | [], _ => still fun _ => rfl
  | .ret :: _, _ => still fun _ => rfl
  | .other :: is, acc => programmed_loadBlock lib c is acc
  | .call f args :: is, acc => bind (programmed_loadCall lib c f args acc) fun _ => programmed_loadBlock lib c is _

open Programmed in
theorem programmed_loadFunction (lib : String → Nat) (c : Nat) : ∀ (f : List (List (LInstr K))) (acc : List Nat × List Nat),
    Programmed LoaderCall (Qir.loadFunction lib c f acc)
  | [], _ => still fun _ => rfl
  | b :: bs, acc => bind (programmed_loadBlock lib c b acc) fun r => by
      split
      · exact still fun _ => rfl
      · exact programmed_loadFunction lib c bs _

open Programmed in
theorem programmed_loadFunctions (lib : String → Nat) (c : Nat) : ∀ (P : QirProgram K) (acc : List Nat × List Nat),
    Programmed LoaderCall (Qir.loadFunctions lib c P acc)
  | [], _ => still fun _ => rfl
  | f :: fs, acc => bind (programmed_loadFunction lib c f acc) fun _ => programmed_loadFunctions lib c fs _

open Programmed in
theorem programmed_fromQir (lib : String → Nat) (P : QirProgram K) : Programmed LoaderCall (fromQir lib P) :=
  bind (call (.newCirc false none none) trivial rfl) fun c => bind (bind (programmed_loadFunctions lib c P _) fun _ =>
    whenever _ (programmed_addMeasurements lib c _ _)) fun _ => still fun _ => rfl

end Qir

/-- The state after loading a program is reached by calls of the API. -/
theorem reach_fromQir {A : Call K → Prop} (hA : ∀ e, Qir.LoaderCall e → A e) {w : World K} (h : Reach A w) {lib : String → Nat} {P : QirProgram K} {c : Nat}
    {w' : World K} (e : fromQir lib P w = (.ok c, w')) : Reach A w' := by
  obtain ⟨p, h1, h2⟩ := Qir.programmed_fromQir lib P w c w' e
  exact reach_after h (h1.imp hA) h2

end DG
