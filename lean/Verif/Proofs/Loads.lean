import Verif.Proofs.QirEffect
import Verif.Spec.Loads

/-! Loading, whether it succeeds or not, does nothing that a program could not do by calls of the API. -/

namespace DG
open Spec
variable {K : Type} [DecidableEq K] [Zero K]

/-- There is a program of calls that satisfy `A` that leads to the same state as `m`, without exception. -/
def Done (A : Call K → Prop) {α : Type} (m : M K α) : Prop := ∀ w, ∃ p : Prog K, p.All A ∧ p.run w = (.ok (), (m w).2)

namespace Done
variable {A : Call K → Prop} {α β : Type}

theorem still {m : M K α} (h : ∀ w, (m w).2 = w) : Done A m := fun w => ⟨.skip, trivial, by rw [h w]; rfl⟩

theorem bind {m : M K α} {f : α → M K β} (hm : Done A m) (hf : ∀ a, Done A (f a)) : Done A (m >>= f) := by
  intro w
  obtain ⟨p, h1, h2⟩ := hm w
  rcases h : m w with ⟨err | a, w1⟩
  · rw [h] at h2
    exact ⟨p, h1, by simpa [Bind.bind, M.bind, h] using h2⟩
  · rw [h] at h2
    obtain ⟨q, h3, h4⟩ := hf a w1
    exact ⟨.seq p q, ⟨h1, h3⟩, by simp only [Prog.run, Bind.bind, M.bind, h2, h4, h]⟩

theorem of_prog {m : M K α} (p : Prog K) (hp : p.All A) (he : ∀ w, (p.run w).2 = (m w).2) : Done A m := fun w =>
  ⟨.attempt p, hp, by simp only [Prog.run, tryPass, he]⟩

theorem call {m : M K α} (e : Call K) (hA : A e) (he : execCall e = m.void) : Done A m := by
  refine of_prog (.call e) hA fun w => ?_
  simp only [Prog.run, he, M.void]
  rcases m w with ⟨_ | _, _⟩ <;> rfl

theorem unit {m : M K Unit} (e : Call K) (hA : A e) (he : execCall e = m) : Done A m := of_prog (.call e) hA fun w => by simp only [Prog.run, he]

theorem void {m : M K α} (h : Done A m) : Done A m.void := by
  intro w
  obtain ⟨p, h1, h2⟩ := h w
  refine ⟨p, h1, ?_⟩
  rw [h2]
  simp only [M.void]
  rcases m w with ⟨_ | _, _⟩ <;> rfl

theorem each {body : α → M K Unit} (h : ∀ a, Done A (body a)) : ∀ l : List α, Done A (M.each l body)
  | [] => still fun _ => rfl
  | _ :: l => bind (h _) fun _ => each h l

theorem whenever {m : M K Unit} (c : Bool) (h : Done A m) : Done A (M.whenever c m) := by
  cases c with
  | true => exact h
  | false => exact still fun _ => rfl

theorem withCtx {m : M K Unit} (c : Nat) (h : Done A m) : Done A (withStmt (openCtx c) m exitCtx) := by
  intro w
  rcases h1 : openCtx c w with ⟨err | x, w1⟩
  · exact ⟨.attempt (.withCtx c .skip), trivial, by simp [Prog.run, tryPass, withStmt, h1]⟩
  · obtain ⟨p, g1, g2⟩ := h w1
    refine ⟨.attempt (.withCtx c p), g1, ?_⟩
    simp only [Prog.run, tryPass, withStmt, h1, g2]
    rcases exitCtx x (m w1).2 with ⟨_ | _, _⟩ <;> rfl

theorem withFreeze {m : M K Unit} (h : Done A m) : Done A (withStmt freezeEnter m fun _ => freezeExit) := by
  intro w
  rcases h1 : freezeEnter w with ⟨err | x, w1⟩
  · exact ⟨.attempt (.withFreeze .skip), trivial, by simp [Prog.run, tryPass, withStmt, h1]⟩
  · obtain ⟨p, g1, g2⟩ := h w1
    refine ⟨.attempt (.withFreeze p), g1, ?_⟩
    simp only [Prog.run, tryPass, withStmt, h1, g2]
    rcases freezeExit (m w1).2 with ⟨_ | _, _⟩ <;> rfl

end Done

namespace Qir

open Done in
theorem done_apply (lib : String → Nat) (c : Nat) (name : String) (ps : List K) (qs : List Nat) : Done BuildCall (Qir.apply lib c name ps qs) := by
  refine bind (call (.readQubits c) trivial rfl) fun r => bind (still fun _ => rfl) fun l => bind (still fun w => ?_) fun k => ?_
  · unfold clsObj M.deref
    split <;> rfl
  · split
    · exact still fun _ => rfl
    · exact void (call (.construct _ _ _) trivial rfl)

open Done in
theorem done_loadGate (lib : String → Nat) (c : Nat) (name : String) (ps : List K) (qs : List Nat) : Done BuildCall (Qir.loadGate lib c name ps qs) :=
  bind (call (.readQubits c) trivial rfl) fun _ => bind (each (fun _ => unit (.addQubit c .none none) trivial rfl) _) fun _ =>
    bind (unit (.unlock c) trivial rfl) fun _ => withCtx c (done_apply lib c name ps qs)

open Done in
theorem done_applyMeasure (lib : String → Nat) (c : Nat) (qs bs : List Nat) : Done BuildCall (K := K) (Qir.applyMeasure lib c qs bs) :=
  bind (call (.readQubits c) trivial rfl) fun _ => bind (still fun _ => rfl) fun _ => bind (call (.readBits c) trivial rfl) fun _ =>
    bind (still fun _ => rfl) fun _ => bind (call (.construct _ _ _) trivial rfl) fun o => unit (.measureInto o _) trivial rfl

open Done in
theorem done_addMeasurements (lib : String → Nat) (c : Nat) (qs bs : List Nat) : Done BuildCall (K := K) (Qir.addMeasurements lib c qs bs) :=
  bind (call (.readBits c) trivial rfl) fun _ => bind (each (fun _ => unit (.addBit c .none none) trivial rfl) _) fun _ =>
    bind (unit (.unlock c) trivial rfl) fun _ => withCtx c (done_applyMeasure lib c qs bs)

open Done in
theorem done_loadCall (lib : String → Nat) (c : Nat) (f : String) (args : List (QirArg K)) (acc : List Nat × List Nat) :
    Done BuildCall (Qir.loadCall lib c f args acc) := by
  unfold Qir.loadCall
  split
  · exact still fun _ => rfl
  split
  · exact still fun _ => rfl
  split
  · exact still fun _ => rfl
  split
  · exact still fun _ => rfl
  · exact bind (done_loadGate lib c _ _ _) fun _ => still fun _ => rfl

open Done in
theorem done_loadBlock (lib : String → Nat) (c : Nat) : ∀ (b : List (LInstr K)) (acc : List Nat × List Nat), Done BuildCall (Qir.loadBlock lib c b acc)
  | [], _ => still fun _ => rfl
  | .ret :: _, _ => still fun _ => rfl
  | .other :: is, acc => done_loadBlock lib c is acc
  | .call f args :: is, acc => bind (done_loadCall lib c f args acc) fun _ => done_loadBlock lib c is _

open Done in
theorem done_loadFunction (lib : String → Nat) (c : Nat) : ∀ (f : List (List (LInstr K))) (acc : List Nat × List Nat),
    Done BuildCall (Qir.loadFunction lib c f acc)
  | [], _ => still fun _ => rfl
  | b :: bs, acc => bind (done_loadBlock lib c b acc) fun r => by
      split
      · exact still fun _ => rfl
      · exact done_loadFunction lib c bs _

open Done in
theorem done_loadFunctions (lib : String → Nat) (c : Nat) : ∀ (P : QirProgram K) (acc : List Nat × List Nat),
    Done BuildCall (Qir.loadFunctions lib c P acc)
  | [], _ => still fun _ => rfl
  | f :: fs, acc => bind (done_loadFunction lib c f acc) fun _ => done_loadFunctions lib c fs _

open Done in
theorem done_loadInto (lib : String → Nat) (c : Nat) (P : QirProgram K) : Done BuildCall (loadInto lib c P) :=
  bind (done_loadFunctions lib c P _) fun _ => whenever _ (done_addMeasurements lib c _ _)

open Done in
theorem done_fromQir (lib : String → Nat) (P : QirProgram K) : Done BuildCall (fromQir lib P) :=
  bind (call (.newCirc false none none) trivial rfl) fun c => bind (done_loadInto lib c P) fun _ => still fun _ => rfl

end Qir

theorem Done.imp {A B : Call K → Prop} {α : Type} {m : M K α} (hab : ∀ e, A e → B e) (h : Done A m) : Done B m := fun w => by
  obtain ⟨p, h1, h2⟩ := h w
  exact ⟨p, h1.imp hab, h2⟩

/-- Programs with loading lead to states that programs without loading lead to. -/
theorem done_run {A : Call K → Prop} (hA : ∀ e, BuildCall e → A e) (lib : String → Nat) : ∀ (p : LProg K), p.All A → Done A (p.run lib)
  | .skip, _ => .still fun _ => rfl
  | .call e, h => .unit e h rfl
  | .load c P, _ => (Qir.done_loadInto lib c P).imp hA
  | .loadNew P, _ => .void ((Qir.done_fromQir lib P).imp hA)
  | .seq p q, h => .bind (done_run hA lib p h.1) fun _ => done_run hA lib q h.2
  | .withCtx c p, h => .withCtx c (done_run hA lib p h)
  | .withFreeze p, h => .withFreeze (done_run hA lib p h)
  | .attempt p, h => fun w => by
      obtain ⟨q, h1, h2⟩ := done_run hA lib p h w
      exact ⟨q, h1, h2⟩

theorem visits_run' {A : Call K → Prop} {q : Prog K} (hq : q.All A) {w w' : World K} (e : q.run w = (.ok (), w')) : ∃ q : Prog K, q.All A ∧ q.Visits w w' := by
  refine ⟨q, hq, ?_⟩
  have := q.visits_run w
  rwa [e] at this

theorem LProg.visits_run (lib : String → Nat) (p : LProg K) : ∀ w : World K, p.Visits lib w (p.run lib w).2 := by
  induction p with
  | skip => exact fun w => rfl
  | call e => exact fun w => .inr rfl
  | load c P => exact fun w => .inr rfl
  | loadNew P =>
    intro w
    refine .inr ?_
    unfold LProg.run M.void
    generalize fromQir lib P w = z
    obtain ⟨_ | _, _⟩ := z <;> rfl
  | seq p q ih1 ih2 =>
    intro w
    have h1 := ih1 w
    have e : (LProg.seq p q).run lib = (p.run lib >>= fun _ => q.run lib) := rfl
    rw [e, bind_def]
    show _ ∨ _
    generalize he : p.run lib w = x at h1
    obtain ⟨e | _, w1⟩ := x
    · exact .inl h1
    · exact .inr ⟨w1, rfl, ih2 w1⟩
  | withCtx c p ih =>
    intro w
    unfold LProg.run withStmt
    generalize h1 : openCtx c w = z
    obtain ⟨e | x, w1⟩ := z
    · exact .inr (.inl (by rw [h1]))
    · refine .inr (.inr ⟨x, w1, h1, .inr ?_⟩)
      dsimp only
      generalize p.run lib w1 = y
      obtain ⟨r, w2⟩ := y
      dsimp only
      generalize exitCtx x w2 = v
      obtain ⟨e | a, w3⟩ := v <;> rfl
  | withFreeze p ih =>
    intro w
    unfold LProg.run withStmt
    generalize h1 : freezeEnter w = z
    obtain ⟨e | x, w1⟩ := z
    · exact .inr (.inl (by rw [h1]))
    · refine .inr (.inr ⟨w1, h1, .inr ?_⟩)
      dsimp only
      generalize p.run lib w1 = y
      obtain ⟨r, w2⟩ := y
      dsimp only
      generalize freezeExit w2 = v
      obtain ⟨e | a, w3⟩ := v <;> rfl
  | attempt p ih => exact fun w => ih w

theorem visits_loads {A : Call K → Prop} (hA : ∀ e, BuildCall e → A e) (lib : String → Nat) : ∀ (p : LProg K), p.All A → ∀ w w', p.Visits lib w w' →
    ∃ q : Prog K, q.All A ∧ q.Visits w w' := by
  intro p
  induction p with
  | skip => rintro - w w' rfl; exact ⟨.skip, trivial, rfl⟩
  | call e => intro hp w w' h; exact ⟨.call e, hp, h⟩
  | load c P =>
    rintro hp w w' (rfl | rfl)
    · exact ⟨.skip, trivial, rfl⟩
    · obtain ⟨q, h1, h2⟩ := (Qir.done_loadInto lib c P).imp hA w
      exact visits_run' h1 h2
  | loadNew P =>
    rintro hp w w' (rfl | rfl)
    · exact ⟨.skip, trivial, rfl⟩
    · obtain ⟨q, h1, h2⟩ := (Qir.done_fromQir lib P).imp hA w
      exact visits_run' h1 h2
  | seq p q ih1 ih2 =>
    rintro ⟨hp, hq⟩ w w' (h | ⟨w1, h1, h2⟩)
    · exact ih1 hp w w' h
    · obtain ⟨p', g1, g2⟩ := done_run hA lib p hp w
      obtain ⟨q', g3, g4⟩ := ih2 hq w1 w' h2
      rw [h1] at g2
      exact ⟨.seq p' q', ⟨g1, g3⟩, .inr ⟨w1, g2, g4⟩⟩
  | withCtx c p ih =>
    rintro hp w w' (rfl | rfl | ⟨x, w1, h1, h2 | rfl⟩)
    · exact ⟨.skip, trivial, rfl⟩
    · exact ⟨.withCtx c .skip, trivial, .inr (.inl rfl)⟩
    · obtain ⟨q, g1, g2⟩ := ih hp w1 w' h2
      exact ⟨.withCtx c q, g1, .inr (.inr ⟨x, w1, h1, .inl g2⟩)⟩
    · obtain ⟨q, g1, g2⟩ := done_run hA lib p hp w1
      refine ⟨.withCtx c q, g1, .inr (.inr ⟨x, w1, h1, .inr ?_⟩)⟩
      rw [g2]
  | withFreeze p ih =>
    rintro hp w w' (rfl | rfl | ⟨w1, h1, h2 | rfl⟩)
    · exact ⟨.skip, trivial, rfl⟩
    · exact ⟨.withFreeze .skip, trivial, .inr (.inl rfl)⟩
    · obtain ⟨q, g1, g2⟩ := ih hp w1 w' h2
      exact ⟨.withFreeze q, g1, .inr (.inr ⟨w1, h1, .inl g2⟩)⟩
    · obtain ⟨q, g1, g2⟩ := done_run hA lib p hp w1
      refine ⟨.withFreeze q, g1, .inr (.inr ⟨w1, h1, .inr ?_⟩)⟩
      rw [g2]
  | attempt p ih => intro hp w w' h; exact ih hp w w' h

end DG
