import Verif.Proofs.Loads
import Verif.Spec.Session

/-! What simulations do to objects, whether they succeed or not. -/

noncomputable section

namespace DG
open Spec Run

/-- There is a program of calls that satisfy `A` that leads to the same objects as `m`, without exception. -/
def SDone (A : Call ℝ → Prop) {α : Type} (m : Ses α) : Prop := ∀ s, ∃ p : Prog ℝ, p.All A ∧ p.run s.w = (.ok (), (m s).2.w)

namespace SDone
variable {A : Call ℝ → Prop} {α β : Type}

theorem still {m : Ses α} (h : ∀ s, (m s).2.w = s.w) : SDone A m := fun s => ⟨.skip, trivial, by rw [h s]; rfl⟩

theorem ofM {m : M ℝ α} (h : Done A m) : SDone A (.ofM m) := fun s => h s.w

theorem seq {p q : Prog ℝ} (hp : p.All A) (hq : q.All A) {w w1 w2 : World ℝ} (h1 : p.run w = (.ok (), w1)) (h2 : q.run w1 = (.ok (), w2)) :
    ∃ p : Prog ℝ, p.All A ∧ p.run w = (.ok (), w2) := ⟨.seq p q, ⟨hp, hq⟩, by simp only [Prog.run, Bind.bind, M.bind, h1, h2]⟩

theorem bind {m : Ses α} {f : α → Ses β} (hm : SDone A m) (hf : ∀ a, SDone A (f a)) : SDone A (m >>= f) := by
  intro s
  obtain ⟨p, h1, h2⟩ := hm s
  rcases h : m s with ⟨err | a, s1⟩
  · rw [h] at h2
    exact ⟨p, h1, by simpa [Bind.bind, Ses.bind, h] using h2⟩
  · rw [h] at h2
    obtain ⟨q, h3, h4⟩ := hf a s1
    obtain ⟨r, h5, h6⟩ := seq h1 h3 h2 h4
    exact ⟨r, h5, by simpa only [Bind.bind, Ses.bind, h] using h6⟩

theorem imp {B : Call ℝ → Prop} {m : Ses α} (hab : ∀ e, A e → B e) (h : SDone A m) : SDone B m := fun s => by
  obtain ⟨p, h1, h2⟩ := h s
  exact ⟨p, h1.imp hab, h2⟩

end SDone

theorem sdone_store (bits : Option (List Nat)) (idx : Nat) (m : Int) (w : World ℝ) :
    ∃ p : Prog ℝ, p.All SimCall ∧ p.run w = (.ok (), store bits idx m w) := by
  unfold store
  rcases bits with _ | bs
  · exact ⟨.skip, trivial, rfl⟩
  · dsimp only
    rcases bs[idx]? with _ | b
    · exact ⟨.skip, trivial, rfl⟩
    · exact ⟨.attempt (.call (.setBit b (decide (m ≠ 0)) true)), rfl, rfl⟩

theorem sdone_measureQubits (u : Nat → ℝ) (op : Sim.SOp) : ∀ ts idx l, SDone SimCall (measureQubits u op ts idx l)
  | [], _, _ => .still fun _ => rfl
  | t :: ts, idx, l => by
    intro s
    unfold measureQubits
    rcases Sim.sampleQubit t l.mem (u l.drawn) true false with e | ⟨m, mem⟩
    · exact ⟨.skip, trivial, rfl⟩
    · obtain ⟨p, h1, h2⟩ := sdone_store op.bits idx m s.w
      obtain ⟨q, h3, h4⟩ := sdone_measureQubits u op ts (idx + 1) ⟨mem, l.drawn + 1⟩
        { s with w := store op.bits idx m s.w,
                 records := Function.update s.records op.oid { s.records op.oid with indices := (s.records op.oid).indices ++ [t] } }
      exact SDone.seq h1 h3 h2 h4

theorem sdone_instruction (u : Nat → ℝ) (n : Nat) (op : Sim.SOp) (nc : Bool) (ts : List Nat) (le cj : Bool) (l : Local) :
    SDone SimCall (instruction u n op nc ts le cj l) := by
  intro s
  unfold instruction
  split
  · exact ⟨.skip, trivial, rfl⟩
  split
  · split
    · exact ⟨.skip, trivial, rfl⟩
    · exact sdone_measureQubits u op ts 0 l (recordState op.oid l s)
  · split
    · exact ⟨.skip, trivial, rfl⟩
    · split <;> exact ⟨.skip, trivial, rfl⟩

theorem sdone_vectorLoop (u : Nat → ℝ) (qs : List Nat) (le : Bool) : ∀ os l, SDone SimCall (vectorLoop u qs le os l)
  | [], _ => .still fun _ => rfl
  | o :: os, l => by
    intro s
    unfold vectorLoop
    split
    · exact ⟨.skip, trivial, rfl⟩
    split
    · exact ⟨.skip, trivial, rfl⟩
    exact SDone.bind (sdone_instruction _ _ _ _ _ _ _ _) (fun l1 => sdone_vectorLoop u qs le os l1) s

theorem sdone_densityLoop (u : Nat → ℝ) (qs : List Nat) : ∀ os l, SDone SimCall (densityLoop u qs os l)
  | [], _ => .still fun _ => rfl
  | o :: os, l => by
    intro s
    unfold densityLoop
    split
    · exact ⟨.skip, trivial, rfl⟩
    split
    · exact ⟨.skip, trivial, rfl⟩
    split
    · exact ⟨.skip, trivial, rfl⟩
    exact SDone.bind (sdone_instruction _ _ _ _ _ _ _ _) (fun l1 => SDone.bind (sdone_instruction _ _ _ _ _ _ _ _) fun l2 => sdone_densityLoop u qs os l2) s

theorem sdone_qubitList (c : Nat) : SDone SimCall (qubitList c) :=
  .bind (.ofM (.call (.readQubits c) trivial rfl)) fun _ => .bind (.still fun _ => rfl) fun _ => .still fun _ => rfl

theorem sdone_setState (c : Nat) (a : NDArr) (f n : Bool) : SDone SimCall (setStateCirc c a f n) := by
  intro s
  unfold setStateCirc
  split
  · exact ⟨.skip, trivial, rfl⟩
  obtain ⟨p, h1, h2⟩ := sdone_qubitList c s
  refine ⟨p, h1, ?_⟩
  rw [h2]
  rcases qubitList c s with ⟨_ | _, _⟩ <;> rfl

theorem sdone_simulate (u : Nat → ℝ) (c : Nat) (mixed le : Bool) : SDone SimCall (simulateSes u c mixed le) := by
  refine .bind (sdone_qubitList c) fun qs => ?_
  split
  · exact .still fun _ => rfl
  refine .bind (.ofM (.still fun w => ?_)) fun C => ?_
  · unfold circ M.deref
    split <;> rfl
  split
  · exact .bind (sdone_densityLoop _ _ _ _) fun l => .bind (.still fun _ => rfl) fun _ => sdone_setState _ _ _ _
  · exact .bind (sdone_vectorLoop _ _ _ _ _) fun l => sdone_setState _ _ _ _

theorem sdone_run {A : Call ℝ → Prop} (hA : ∀ e, SimCall e → A e) : ∀ p : SProg, p.All A → SDone A p.run
  | .skip, _ => .still fun _ => rfl
  | .call e, h => .ofM (.unit e h rfl)
  | .simulate u c m le, _ => (sdone_simulate u c m le).imp hA
  | .setState c a f n, _ => (sdone_setState c a f n).imp hA
  | .readDm c, _ => .still fun _ => rfl
  | .seq p q, h => .bind (sdone_run hA p h.1) fun _ => sdone_run hA q h.2
  | .withCtx c p, h => fun s => by
    rcases h1 : openCtx c s.w with ⟨err | x, w1⟩
    · exact ⟨.attempt (.withCtx c .skip), trivial, by simp [Prog.run, SProg.run, tryPass, withStmt, withSes, h1]⟩
    · obtain ⟨q, g1, g2⟩ := sdone_run hA p h { s with w := w1 }
      refine ⟨.attempt (.withCtx c q), g1, ?_⟩
      simp only [Prog.run, SProg.run, tryPass, withStmt, withSes, h1, g2]
      rcases exitCtx x (p.run { s with w := w1 }).2.w with ⟨_ | _, _⟩ <;> rfl
  | .withFreeze p, h => fun s => by
    rcases h1 : freezeEnter s.w with ⟨err | x, w1⟩
    · exact ⟨.attempt (.withFreeze .skip), trivial, by simp [Prog.run, SProg.run, tryPass, withStmt, withSes, h1]⟩
    · obtain ⟨q, g1, g2⟩ := sdone_run hA p h { s with w := w1 }
      refine ⟨.attempt (.withFreeze q), g1, ?_⟩
      simp only [Prog.run, SProg.run, tryPass, withStmt, withSes, h1, g2]
      rcases freezeExit (p.run { s with w := w1 }).2.w with ⟨_ | _, _⟩ <;> rfl
  | .attempt p, h => fun s => sdone_run hA p h s

theorem visits_sims {A : Call ℝ → Prop} (hA : ∀ e, SimCall e → A e) : ∀ p : SProg, p.All A → ∀ s s', p.Visits s s' →
    ∃ q : Prog ℝ, q.All A ∧ q.Visits s.w s'.w := by
  intro p
  have leaf : ∀ p : SProg, p.All A → ∀ s s' : Sess, (s' = s ∨ s' = (p.run s).2) → ∃ q : Prog ℝ, q.All A ∧ q.Visits s.w s'.w := by
    rintro p hp s s' (rfl | rfl)
    · exact ⟨.skip, trivial, rfl⟩
    · obtain ⟨q, h1, h2⟩ := sdone_run hA p hp s
      exact visits_run' h1 h2
  induction p with
  | skip => intro hp s s' h; exact leaf .skip hp s s' h
  | call e => intro hp s s' h; exact leaf (.call e) hp s s' h
  | simulate u c m le => intro hp s s' h; exact leaf (.simulate u c m le) hp s s' h
  | setState c a f n => intro hp s s' h; exact leaf (.setState c a f n) hp s s' h
  | readDm c => intro hp s s' h; exact leaf (.readDm c) hp s s' h
  | seq p q ih1 ih2 =>
    rintro ⟨hp, hq⟩ s s' (h | ⟨s1, h1, h2⟩)
    · exact ih1 hp s s' h
    · obtain ⟨p', g1, g2⟩ := sdone_run hA p hp s
      obtain ⟨q', g3, g4⟩ := ih2 hq s1 s' h2
      rw [h1] at g2
      exact ⟨.seq p' q', ⟨g1, g3⟩, .inr ⟨s1.w, g2, g4⟩⟩
  | withCtx c p ih =>
    rintro hp s s' (rfl | rfl | ⟨x, w1, h1, h2 | rfl⟩)
    · exact ⟨.skip, trivial, rfl⟩
    · exact ⟨.withCtx c .skip, trivial, .inr (.inl rfl)⟩
    · obtain ⟨q, g1, g2⟩ := ih hp _ s' h2
      exact ⟨.withCtx c q, g1, .inr (.inr ⟨x, w1, h1, .inl g2⟩)⟩
    · obtain ⟨q, g1, g2⟩ := sdone_run hA p hp { s with w := w1 }
      refine ⟨.withCtx c q, g1, .inr (.inr ⟨x, w1, h1, .inr ?_⟩)⟩
      rw [g2]
  | withFreeze p ih =>
    rintro hp s s' (rfl | rfl | ⟨w1, h1, h2 | rfl⟩)
    · exact ⟨.skip, trivial, rfl⟩
    · exact ⟨.withFreeze .skip, trivial, .inr (.inl rfl)⟩
    · obtain ⟨q, g1, g2⟩ := ih hp _ s' h2
      exact ⟨.withFreeze q, g1, .inr (.inr ⟨w1, h1, .inl g2⟩)⟩
    · obtain ⟨q, g1, g2⟩ := sdone_run hA p hp { s with w := w1 }
      refine ⟨.withFreeze q, g1, .inr (.inr ⟨w1, h1, .inr ?_⟩)⟩
      rw [g2]
  | attempt p ih => intro hp s s' h; exact ih hp s s' h

end DG
