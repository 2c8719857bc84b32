import Verif.Proofs.Threads
import Verif.Props.Contexts

/-!
# Property C92: contexts in several threads
-/

namespace DG.Props
open Spec
variable {K : Type} [DecidableEq K] [Zero K]

/-- All threads start outside of contexts. -/
def begin (w : World K) : Threads K := ⟨w, fun _ => .outside⟩

/-- Once a thread has made the tests of `__enter__`, it makes the next step. -/
def EntersAtOnce (w : World K) (sched : List (Nat × Act K)) : Prop :=
  ∀ k j x c, (Threads.run (sched.take k) (begin w)).place j = .entering x c → ∀ e, sched[k]? = some e → e.1 = j ∧ e.2 = .goOn

/-- The context is frozen. -/
def FrozenCtx (w : World K) (x : Nat) : Prop := ∃ X, w.ctxs[x]? = some X ∧ X.frozen = true

theorem excl_run {s : Threads K} (h : Excl s) : ∀ (sched : List (Nat × Act K)),
    (∀ k j x c, (Threads.run (sched.take k) s).place j = .entering x c → ∀ e, sched[k]? = some e → e.1 = j ∧ e.2 = .goOn) →
    Excl (Threads.run sched s)
  | [], _ => h
  | (i, a) :: l, hat => by
    refine excl_run (h.step fun j x c hj => ?_) l fun k j x c hj e he => hat (k + 1) j x c hj e (by simpa using he)
    have := hat 0 j x c hj (i, a) rfl
    exact ⟨this.1.symm, this.2⟩

/-- **C92** if no thread is interrupted between the tests of `__enter__` and the assignment that follows them: whatever the threads do and whatever the
schedule, if a thread is inside `with c.context`, no other thread is inside of a context, and the operations that it creates are appended to `c` (unless
the context is frozen) and to no other circuit. When it leaves the context, `c` is locked and there is no active context. Missing: the other schedules
(`C92_race_violated`), and operations of threads outside of contexts (`C92_outside_violated`). -/
theorem C92_partial {A : Call K → Prop} {w : World K} (h : Reach A w) (sched : List (Nat × Act K)) (hat : EntersAtOnce w sched)
    {i x c : Nat} {s : Threads K} (hs : s = Threads.run sched (begin w)) (hi : s.place i = .inside x c) :
    (∀ j y d, s.place j = .inside y d → j = i) ∧
    (∀ k ps args o, (construct k ps args s.w).1 = .ok o →
      (¬ FrozenCtx s.w x → opsOf (construct k ps args s.w).2 c = opsOf s.w c ++ [o]) ∧
      ∀ d, d ≠ c → opsOf (construct k ps args s.w).2 d = opsOf s.w d) ∧
    (s.step i .leave).place i = .outside ∧ (s.step i .leave).w.active = none ∧ lockedIn (s.step i .leave).w c = true ∧
    ∀ d, opsOf (s.step i .leave).w d = opsOf s.w d := by
  have h0 : Excl (begin w) := ⟨Refs.reach h, fun _ _ _ e => (by cases e), fun _ _ _ _ _ _ e => (by cases e), fun _ _ _ e => (by cases e)⟩
  have hx : Excl s := hs ▸ excl_run h0 sched hat
  obtain ⟨ha, X, hX, hc⟩ := hx.inside i x c hi
  refine ⟨fun j y d hj => hx.one i x c j y d hi hj, fun k ps args o ho => ?_, ?_⟩
  · obtain ⟨-, g1, g2⟩ := (C26_construct s.w k ps args).2 o ho
    constructor
    · intro hf
      refine g1 c ?_
      have : X.frozen = false := by
        cases e : X.frozen with
        | false => rfl
        | true => exact absurd ⟨X, hX, e⟩ hf
      simp [World.target, ha, hX, this, hc]
    · intro d hd
      refine g2 d ?_
      simp only [World.target, ha, hX]
      split
      · simp
      · rw [hc]; simp; exact fun e => hd e.symm
  · have hstep : s.step i .leave = s.to i .outside (exitCtx x s.w).2 := by unfold Threads.step; rw [hi]
    obtain ⟨vars, C, hC, hu, e⟩ := exitCtx_ok hx.refs hX
    rw [hstep]
    refine ⟨Threads.to_same _ _ _ _, ?_, ?_, fun d => ?_⟩
    · show (exitCtx x s.w).2.active = none
      rw [e]
    · show lockedIn (exitCtx x s.w).2 c = true
      rw [e]
      subst hc
      have hlt := (List.getElem?_eq_some_iff.1 hC).1
      simp [lockedIn, hlt]
    · show opsOf (exitCtx x s.w).2 d = opsOf s.w d
      rw [e]
      subst hc
      have hlt := (List.getElem?_eq_some_iff.1 hC).1
      unfold opsOf
      by_cases ed : X.circuit = d
      · subst ed
        rw [List.getElem?_set_self hlt, hC]
      · rw [List.getElem?_set_ne ed]

/-- The tests and the assignment, one directly after the other, are `__enter__`. -/
theorem C92_enter (c : Nat) (w : World K) : openCtx c w =
    (do let x ← contextOf c; enterTest x; enterSet x; pure x : M K Nat) w := enter_split c w

/-- A class `X` and two circuits with one qubit each. -/
def twoCircuits : World Int := Prog.final
  (.seq (.call (.newClass ⟨"X", .plain, ⟨false, some 1, none, none⟩, none⟩))
    (.seq (.call (.newCirc false (some 1) none)) (.call (.newCirc false (some 1) none))))

/-- `X(q)`. -/
def makeX (q : Nat) : Act Int := .call (.construct 0 none (.qubits (some [q])))

/-- Two threads take turns: thread 1 is refused while thread 0 is inside, and enters after thread 0 has left. -/
def politeThreads : List (Nat × Act Int) :=
  [(0, .enter 0), (0, .goOn), (1, .enter 1), (0, makeX 0), (0, .leave), (1, .enter 1), (1, .goOn), (1, makeX 1)]

theorem twoCircuits_reach : Reach (fun _ => True) twoCircuits :=
  ⟨_, .of _, Prog.visits_run _ _⟩

theorem place_other {K : Type} [DecidableEq K] [Zero K] (i : Nat) : ∀ (sched : List (Nat × Act K)) (s : Threads K), (∀ e ∈ sched, e.1 ≠ i) →
    (Threads.run sched s).place i = s.place i
  | [], _, _ => rfl
  | (j, a) :: l, s, h => by
    have hj : i ≠ j := fun e => h (j, a) (by simp) e.symm
    refine (place_other i l _ fun e he => h e (by simp [he])).trans ?_
    have key : ∀ p w, (s.to j p w).place i = s.place i := fun p w => Threads.to_ne _ _ _ hj
    unfold Threads.step
    split <;> first | exact key _ _ | rfl | (split <;> exact key _ _)

/-- The condition of `C92_partial`. -/
theorem politeThreads_atOnce : EntersAtOnce twoCircuits politeThreads := by
  intro k j x c hj e he
  have hk : k < 8 := (List.getElem?_eq_some_iff.1 he).1
  have hj2 : j < 2 := by
    by_contra hge
    rw [place_other j _ _ (fun e he => by
      have := List.mem_of_mem_take he
      have h2 : ∀ e ∈ politeThreads, e.1 < 2 := by decide +kernel
      have := h2 e this
      omega)] at hj
    cases hj
  have key : ∀ k < 8, ∀ j < 2, (match (Threads.run (politeThreads.take k) (begin twoCircuits)).place j, politeThreads[k]? with
      | .entering _ _, some (i, .goOn) => decide (i = j)
      | .entering _ _, _ => false
      | _, _ => true) = true := by decide +kernel
  have := key k hk j hj2
  rw [hj, he] at this
  obtain ⟨i, a⟩ := e
  cases a with
  | goOn => exact ⟨by simpa using this, rfl⟩
  | _ => cases this

example : (Threads.run (politeThreads.take 3) (begin twoCircuits)).place 0 = .inside 0 0 ∧
    (Threads.run (politeThreads.take 3) (begin twoCircuits)).place 1 = .outside ∧
    (Threads.run politeThreads (begin twoCircuits)).place 1 = .inside 1 1 ∧
    opsOf (Threads.run politeThreads (begin twoCircuits)).w 0 = [0] ∧ opsOf (Threads.run politeThreads (begin twoCircuits)).w 1 = [1] := by
  decide +kernel

/-- C92 is violated: two threads make the tests at the same time, so both enter their contexts; then thread 0 creates an operation on its qubit inside
`with` its circuit's context, and gets `ValueError`, because the active context is that of thread 1. If thread 1 leaves first, the operation of thread 0
is not appended anywhere. -/
theorem C92_race_violated :
    let sched : List (Nat × Act Int) := [(0, .enter 0), (1, .enter 1), (0, .goOn), (1, .goOn)]
    let s := Threads.run sched (begin twoCircuits)
    let s' := s.step 1 .leave
    s.place 0 = .inside 0 0 ∧ s.place 1 = .inside 1 1 ∧
    (construct 0 none (.qubits (some [0])) s.w).1 = .error .valueError ∧
    s'.place 0 = .inside 0 0 ∧ (construct 0 none (.qubits (some [0])) s'.w).1 = .ok 0 ∧
    opsOf (construct 0 none (.qubits (some [0])) s'.w).2 0 = [] := by
  decide +kernel

/-- C92 is violated: thread 1 creates an operation outside of any context, while thread 0 is inside the context of circuit 0; the operation is
appended to circuit 0. -/
theorem C92_outside_violated :
    let s := Threads.run [(0, .enter 0), (0, .goOn)] (begin twoCircuits)
    s.place 0 = .inside 0 0 ∧ s.place 1 = .outside ∧ opsOf s.w 0 = [] ∧ opsOf (s.step 1 (makeX 0)).w 0 = [0] := by
  decide +kernel

end DG.Props
