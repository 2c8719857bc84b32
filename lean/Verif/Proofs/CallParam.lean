import Verif.Proofs.CallCirc
import Verif.Proofs.Enter

/-! Calls of parametric circuits. -/

namespace DG
open Spec
variable {K : Type}

theorem setVar_val {w : World K} {v : Nat} (hv : v < w.vars.length) (x : K) :
    ∃ l, setVar v x w = (.ok (), { w with vars := l }) ∧ l.length = w.vars.length ∧
      ∀ u, World.varVal { w with vars := l } u = if u = v then some x else w.varVal u := by
  unfold setVar M.write
  have h := List.getElem?_eq_getElem hv
  simp only [h]
  refine ⟨_, rfl, by simp, fun u => ?_⟩
  unfold World.varVal
  dsimp only
  by_cases hu : u = v
  · subst hu
    rw [List.getElem?_set_self hv]
    simp
  · rw [List.getElem?_set_ne (fun e => hu e.symm)]
    simp [hu]

theorem assigned_cons (v : Nat) (vs : List Nat) (x : K) (xs : List K) (old : Nat → Option K) (hv : v ∉ vs) (u : Nat) :
    assigned (v :: vs) (x :: xs) old u = assigned vs xs (fun u => if u = v then some x else old u) u := by
  unfold assigned
  by_cases hu : u = v
  · subst hu
    have h1 : vs.idxOf? u = none := by simpa [List.idxOf?_eq_none_iff] using hv
    simp [h1, List.idxOf?_cons]
  · have hvu : ¬ v = u := fun e => hu e.symm
    cases h1 : vs.idxOf? u with
    | none => simp [h1, List.idxOf?_cons, hvu, hu]
    | some i => simp [h1, List.idxOf?_cons, hvu]

theorem setVars_ok {vs : List Nat} {xs : List K} {w : World K} (hn : vs.Nodup) (hv : ∀ v ∈ vs, v < w.vars.length) (hl : vs.length ≤ xs.length) :
    ∃ l, setVars vs xs w = (.ok (), { w with vars := l }) ∧ l.length = w.vars.length ∧
      ∀ u, World.varVal { w with vars := l } u = assigned vs xs w.varVal u := by
  induction vs generalizing xs w with
  | nil => exact ⟨w.vars, rfl, rfl, fun u => by simp [assigned]⟩
  | cons v vs ih =>
    cases xs with
    | nil => simp at hl
    | cons x xs =>
      obtain ⟨l1, h1, h2, h3⟩ := setVar_val (hv v (by simp)) x
      obtain ⟨l, h4, h5, h6⟩ := ih (w := { w with vars := l1 }) (List.nodup_cons.1 hn).2 (fun u hu => by rw [h2]; exact hv u (by simp [hu]))
        (xs := xs) (by simpa using hl)
      refine ⟨l, ?_, h5.trans h2, fun u => ?_⟩
      · unfold setVars
        simp only [bind_def, h1, h4]
      · rw [assigned_cons v vs x xs _ (List.nodup_cons.1 hn).1]
        have := h6 u
        rw [funext h3] at this
        exact this

theorem setVars_short {vs : List Nat} {xs : List K} {w : World K} (hn : vs.Nodup) (hv : ∀ v ∈ vs, v < w.vars.length) (hl : xs.length < vs.length) :
    ∃ l, setVars vs xs w = (.error .indexError, { w with vars := l }) ∧ l.length = w.vars.length ∧
      ∀ u, World.varVal { w with vars := l } u = assigned (vs.take xs.length) xs w.varVal u := by
  induction vs generalizing xs w with
  | nil => simp at hl
  | cons v vs ih =>
    cases xs with
    | nil => exact ⟨w.vars, rfl, rfl, fun u => by simp [assigned]⟩
    | cons x xs =>
      obtain ⟨l1, h1, h2, h3⟩ := setVar_val (hv v (by simp)) x
      obtain ⟨l, h4, h5, h6⟩ := ih (w := { w with vars := l1 }) (List.nodup_cons.1 hn).2 (fun u hu => by rw [h2]; exact hv u (by simp [hu]))
        (xs := xs) (by simpa using hl)
      refine ⟨l, ?_, h5.trans h2, fun u => ?_⟩
      · unfold setVars
        simp only [bind_def, h1, h4]
      · rw [List.length_cons, List.take_succ_cons,
          assigned_cons v _ x xs _ (fun hm => (List.nodup_cons.1 hn).1 (List.mem_of_mem_take hm))]
        have := h6 u
        rw [funext h3] at this
        exact this

variable [DecidableEq K] [Zero K]

/-- A call of a parametric circuit with enough parameters inside of a context: the variables are set and the exit function is registered, then it
is called like any circuit. -/
theorem callParam_eq {w : World K} (hr : Refs w) {a : Nat} {A : Circ} (hA : w.circs[a]? = some A) (hp : A.param = true)
    (hact : w.active.isSome = true) {ps : List K} (hl : A.vars.length ≤ ps.length) (qs : List Nat) (bits : Option (List Nat)) :
    ∃ l, l.length = w.vars.length ∧ (∀ u, World.varVal { w with vars := l, onExit := w.onExit ++ [a] } u = assigned A.vars ps w.varVal u) ∧
      callParam a ps qs bits w = callCirc a qs bits { w with vars := l, onExit := w.onExit ++ [a] } := by
  obtain ⟨h1, h2⟩ := hr.vars a A hA
  obtain ⟨l, h3, h4, h5⟩ := setVars_ok (xs := ps) h1 h2 hl
  refine ⟨l, h4, h5, ?_⟩
  unfold callParam
  simp only [bind_def, circ, M.deref, hA, M.raiseIf, hp, Bool.not_true, Bool.false_eq_true, if_false, M.read, M.whenever, hact, if_true, h3, M.write]

/-- The same with too few parameters. -/
theorem callParam_short {w : World K} (hr : Refs w) {a : Nat} {A : Circ} (hA : w.circs[a]? = some A) (hp : A.param = true)
    (hact : w.active.isSome = true) {ps : List K} (hl : ps.length < A.vars.length) (qs : List Nat) (bits : Option (List Nat)) :
    ∃ l, l.length = w.vars.length ∧ (∀ u, World.varVal { w with vars := l } u = assigned (A.vars.take ps.length) ps w.varVal u) ∧
      callParam a ps qs bits w = (.error .indexError, { w with vars := l }) := by
  obtain ⟨h1, h2⟩ := hr.vars a A hA
  obtain ⟨l, h3, h4, h5⟩ := setVars_short (xs := ps) h1 h2 hl
  refine ⟨l, h4, h5, ?_⟩
  unfold callParam
  simp only [bind_def, circ, M.deref, hA, M.raiseIf, hp, Bool.not_true, Bool.false_eq_true, if_false, M.read, M.whenever, hact, if_true, h3]

/-- Exit functions stay registered inside of a context. -/
def Registered (l : List Nat) (w : World K) : Prop := w.active.isSome = true ∧ l <+: w.onExit

omit [DecidableEq K] [Zero K] in
theorem Registered.ctl (l : List Nat) : Ctl (K := K) (Registered l) :=
  ⟨fun w w' h1 _ h3 h => by unfold Registered; rw [h1, h3]; exact h⟩

omit [DecidableEq K] [Zero K] in
theorem Registered.setFrozen {l : List Nat} (y : Nat) (b : Bool) : Pres (K := K) (Registered l) (DG.setFrozen y b) := by
  intro w h
  unfold DG.setFrozen M.write
  dsimp only
  split <;> exact h

omit [DecidableEq K] [Zero K] in
theorem Registered.freezeEnter {l : List Nat} : Pres (K := K) (Registered l) freezeEnter := by
  intro w h
  unfold DG.freezeEnter
  split
  · exact h
  · exact Registered.setFrozen _ _ w h

omit [DecidableEq K] [Zero K] in
theorem Registered.freezeExit {l : List Nat} : Pres (K := K) (Registered l) freezeExit := by
  intro w h
  unfold DG.freezeExit
  split
  · exact h
  · exact Registered.setFrozen _ _ w h

omit [DecidableEq K] [Zero K] in
theorem Registered.contextOf {l : List Nat} (c : Nat) : Pres (K := K) (Registered l) (DG.contextOf c) := by
  intro w h
  have hs := contextOf_same c w
  unfold Registered
  rw [hs.active, hs.onExit]
  exact h

theorem Registered.exec {l : List Nat} (e : Call K) : Pres (Registered l) (execCall e) :=
  (Registered.ctl l).exec (fun a w h => ⟨h.1, h.2.trans (List.prefix_append _ _)⟩) (fun X w h => h) e

theorem Registered.inside {l : List Nat} (p : Prog K) : Pres (Registered l) p.run :=
  (DG.inside (A := fun _ => True) (fun w h => h.1) (fun e _ => Registered.exec e) Registered.contextOf
    Registered.freezeEnter Registered.freezeExit p (.of p)).1

/-- What holds inside of a context and is kept, holds at the end if it holds on the way. -/
theorem registered_end {l : List Nat} (p : Prog K) : ∀ {w w' : World K}, w.active.isSome = true → p.Visits w w' → Registered l w' →
    Registered l (p.run w).2 := by
  induction p with
  | skip => intro w w' _ hv h; cases hv; exact h
  | call e =>
    intro w w' _ hv h
    rcases hv with rfl | rfl
    · exact Registered.exec e _ h
    · exact h
  | seq p q ihp ihq =>
    intro w w' ha hv h
    have hq : ∀ w1, (p.run w).2 = w1 → Registered l w1 → Registered l ((Prog.seq p q).run w).2 := by
      intro w1 e hw1
      rw [run_seq]
      generalize p.run w = z at e
      obtain ⟨r, w2⟩ := z
      dsimp only at e
      subst e
      cases r with
      | error e => exact hw1
      | ok u => exact Registered.inside q _ hw1
    rcases hv with hv | ⟨w1, e1, hv⟩
    · exact hq _ rfl (ihp ha hv h)
    · have ha1 : w1.active.isSome = true := by
        have := Registered.inside (l := []) p w ⟨ha, List.nil_prefix⟩
        rw [e1] at this
        exact this.1
      rw [run_seq, e1]
      exact ihq ha1 hv h
  | withCtx c p ih =>
    intro w w' ha hv h
    obtain ⟨e, he⟩ := openCtx_refused c ha
    rw [run_withCtx]
    unfold withStmt
    rw [he]
    rcases hv with rfl | rfl | ⟨x, w1, h1, -⟩
    · exact Registered.contextOf c _ h
    · rw [he] at h; exact h
    · rw [he] at h1; cases h1
  | withFreeze p ih =>
    intro w w' ha hv h
    have hend : ∀ r : Except Err Unit × World K, Registered l (p.run r.2).2 → freezeEnter w = r → Registered l ((Prog.withFreeze p).run w).2 := by
      intro r hr e
      rw [run_withFreeze]
      unfold withStmt
      rw [e]
      obtain ⟨r1, w1⟩ := r
      cases r1 with
      | error e' =>
        unfold freezeEnter at e
        cases hac : w.active with
        | none => rw [hac] at ha; cases ha
        | some x => rw [hac] at e; simp [setFrozen, M.write] at e
      | ok u =>
        have := Registered.freezeExit _ hr
        dsimp only
        generalize freezeExit (p.run w1).2 = z at this
        obtain ⟨r2, w2⟩ := z
        cases r2 <;> exact this
    rcases hv with rfl | rfl | ⟨w1, e1, hv⟩
    · exact hend _ (Registered.inside p _ (Registered.freezeEnter _ h)) rfl
    · exact hend _ (Registered.inside p _ h) rfl
    · have ha1 : w1.active.isSome = true := by
        have := Registered.freezeEnter (l := []) w ⟨ha, List.nil_prefix⟩
        rw [e1] at this
        exact this.1
      rcases hv with hv | rfl
      · exact hend (.ok (), w1) (ih ha1 hv h) e1
      · rw [run_withFreeze]
        unfold withStmt
        rw [e1]
        dsimp only
        generalize freezeExit (p.run w1).2 = z at h
        obtain ⟨r2, w2⟩ := z
        cases r2 <;> exact h
  | attempt p ih =>
    intro w w' ha hv h
    exact ih ha hv h

end DG
