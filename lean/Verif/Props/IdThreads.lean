import Verif.Proofs.IdThreads
import Verif.Props.Ids

/-!
# Property C91: identifiers are unique in all threads
-/

namespace DG.Props
open IdCounter IdThreads Proofs

/-- A thread is making the ids longer, that is it has read `length` in order to increment it, and has not yet assigned the new generator
(counters.py 58-71). -/
def Lengthening (s : Sys) (i : Nat) : Prop :=
  (∃ k n, s.pc i = .grow k n) ∨ (∃ k, s.pc i = .compare k) ∨ (∃ k, s.pc i = .size k) ∨ ∃ k r, s.pc i = .assign k r

theorem lengthening_iff (s : Sys) (i : Nat) : Lengthening s i ↔ PC.lengthens (s.pc i) = true := by
  unfold Lengthening
  cases s.pc i <;> simp [PC.lengthens]

/-- **C91** if no two threads make the ids longer at the same time: whatever the schedule, the number of threads, the batch size, the length of the first
ids and the choices of `set.pop`, no id is returned twice. Missing: schedules where two threads make the ids longer at the same time
(`C91_duplicate_violated`), and success (`C91_keyError_violated`). -/
theorem C91_unique_partial (length batch : Option Nat) (sched : List (Nat × Nat))
    (hal : ∀ k < sched.length, ∀ i j, Lengthening (run alphanum (sched.take k) (start alphanum length batch)) i →
      Lengthening (run alphanum (sched.take k) (start alphanum length batch)) j → i = j)
    (a b i j : Nat) (x y : List Char) :
    let outs := (run alphanum sched (start alphanum length batch)).outs
    outs[a]? = some (i, .ok x) → outs[b]? = some (j, .ok y) → a ≠ b → x ≠ y := by
  intro outs h1 h2 hab
  obtain ⟨g1, g2⟩ := start_inv alphanum_nodup.1 length batch
  have h := (run_inv alphanum_nodup.1 sched g1 g2 (fun k hk i j hi hj => hal k hk i j ((lengthening_iff _ _).2 hi) ((lengthening_iff _ _).2 hj))).1.outs
  have hnd : (outs.filterMap fun p => p.2.toOption).Nodup := h
  clear_value outs
  clear h hal
  rw [List.Nodup, List.pairwise_filterMap] at hnd
  rw [List.pairwise_iff_getElem] at hnd
  obtain ⟨a1, a2⟩ := List.getElem?_eq_some_iff.1 h1
  obtain ⟨b1, b2⟩ := List.getElem?_eq_some_iff.1 h2
  rcases Nat.lt_or_gt_of_ne hab with lt | lt
  · exact hnd a b a1 b1 lt x (by rw [a2]; rfl) y (by rw [b2]; rfl)
  · exact fun e => hnd b a b1 a1 lt y (by rw [b2]; rfl) x (by rw [a2]; rfl) e.symm

/-- A thread has caught `StopIteration`: all ids of one length have been drawn (counters.py 57). -/
def Exhausted (s : Sys) : Prop := ∃ i k, s.pc i = .caught k

/-- The handling of `StopIteration`. -/
def handling : PC → Bool
  | .grow _ _ | .compare _ | .last | .size _ | .assign _ _ | .again _ | .draw' _ _ => true
  | _ => false

theorem handling_step {alpha : List Char} {s : Sys} (h : ∀ i, handling (s.pc i) = false) (hc : ¬ Exhausted s) (i pick : Nat) :
    ∀ j, handling ((step alpha i pick s).pc j) = false := by
  intro j
  have key : ∀ (t : Sys) (p : PC), handling p = false → t.pc = (s.goto i p).pc → handling (t.pc j) = false := by
    intro t p hp e
    rw [e]
    by_cases ej : j = i
    · subst ej; rw [goto_same]; exact hp
    · rw [goto_ne _ _ ej]; exact h j
  have hi := h i
  unfold step
  cases e : s.pc i with
  | idle => dsimp only; split <;> exact key _ _ rfl rfl
  | loop k => cases k <;> exact key _ _ rfl rfl
  | draw k g => dsimp only; split <;> exact key _ _ rfl rfl
  | add k x => exact key _ _ rfl rfl
  | caught k => exact absurd ⟨i, k, e⟩ hc
  | pop => dsimp only; split <;> exact key _ .idle rfl rfl
  | _ => rw [e] at hi; cases hi

/-- **C91**, as long as no thread has found that all ids of the first length have been drawn (there are 58905 of length 4): no id is returned twice. -/
theorem C91_before_exhaustion_partial (length batch : Option Nat) (sched : List (Nat × Nat))
    (hex : ∀ k < sched.length, ¬ Exhausted (run alphanum (sched.take k) (start alphanum length batch))) (a b i j : Nat) (x y : List Char) :
    let outs := (run alphanum sched (start alphanum length batch)).outs
    outs[a]? = some (i, .ok x) → outs[b]? = some (j, .ok y) → a ≠ b → x ≠ y := by
  have hq : ∀ (l : List (Nat × Nat)) (s : Sys), (∀ i, handling (s.pc i) = false) → (∀ k < l.length, ¬ Exhausted (run alphanum (l.take k) s)) →
      ∀ k ≤ l.length, ∀ i, handling ((run alphanum (l.take k) s).pc i) = false := by
    intro l
    induction l with
    | nil => intro s h _ k hk i; simp at hk; subst hk; exact h i
    | cons e l ih =>
      intro s h hc k hk i
      cases k with
      | zero => exact h i
      | succ k =>
        exact ih _ (handling_step h (hc 0 (by simp)) e.1 e.2) (fun k' hk' => hc (k' + 1) (by simpa using hk')) k (by simpa using hk) i
  refine C91_unique_partial length batch sched (fun k hk i j hi _ => ?_) a b i j x y
  have := hq sched (start alphanum length batch) (fun _ => rfl) hex k hk.le i
  exfalso
  rcases hi with ⟨_, _, e⟩ | ⟨_, e⟩ | ⟨_, e⟩ | ⟨_, _, e⟩ <;> (rw [e] at this; cases this)

/-- `n` steps of thread `i`. -/
def steps (n i : Nat) : List (Nat × Nat) := List.replicate n (i, 0)

/-- Two threads that fill the set at the same time. -/
def twoThreads : List (Nat × Nat) := steps 2 0 ++ steps 2 1 ++ steps 4 0 ++ steps 9 1 ++ steps 4 0

example : (run alphanum twoThreads (start alphanum (some 2) (some 2))).outs.map (fun p => (p.1, p.2.toOption)) =
      [(1, some ['q', '0']), (1, some ['q', '1']), (0, some ['q', 'b'])] ∧
    (∀ k < twoThreads.length, ∀ i < 2, ∀ m < 3, (run alphanum (twoThreads.take k) (start alphanum (some 2) (some 2))).pc i ≠ .caught m) := by
  decide +kernel

/-- C91 is violated: two threads find at the same time that all 36 ids of length 1 have been drawn; both start with the ids of length 2, and both return
`"q0"`. -/
theorem C91_duplicate_violated : ∃ sched : List (Nat × Nat), (∀ e ∈ sched, e.1 < 2) ∧ ∃ a b : Nat, a ≠ b ∧
    let outs : List (Nat × Except Err (List Char)) := (run alphanum sched (start alphanum (some 1) (some 1))).outs
    outs[a]? = some (0, .ok ['q', '0']) ∧ outs[b]? = some (1, .ok ['q', '0']) := by
  refine ⟨steps 219 0 ++ steps 3 1 ++ steps 1 0 ++ steps 1 1 ++ steps 9 0 ++ steps 9 1, by decide +kernel, 36, 37, by decide, ?_⟩
  decide +kernel

/-- C91 is violated: while a thread is between the test that the set is not empty and `pop`, another one takes the last id; then `KeyError` is raised, although
there are more ids. -/
theorem C91_keyError_violated : ∃ sched : List (Nat × Nat), (∀ e ∈ sched, e.1 < 2) ∧
    let s := run alphanum sched (start alphanum (some 1) (some 1))
    s.outs.map (fun p => (p.1, p.2.toOption)) = [(0, some ['q']), (1, none)] ∧ (s.outs[1]?.map fun p => p.2) = some (.error .keyError) ∧
    (s.gens.map fun g => g.2.length) = [35] := by
  refine ⟨steps 5 0 ++ steps 1 1 ++ steps 1 0 ++ steps 1 1, by decide +kernel, ?_⟩
  decide +kernel

/-- And a length can be left out: if two threads find at the same time that all ids of length 1 have been drawn, and one increments the length before
the other one reads it, ids of length 3 follow, and the 630 ids of length 2 are never drawn. -/
theorem C91_skipped_violated : ∃ sched : List (Nat × Nat), (∀ e ∈ sched, e.1 < 2) ∧
    let s := run alphanum sched (start alphanum (some 1) (some 1))
    (s.gens.map fun g => g.1) = [1, 3] ∧ (s.outs[36]?.map fun p => (p.1, p.2.toOption)) = some (1, some ['q', '0', 'a']) := by
  refine ⟨steps 219 0 ++ steps 3 1 ++ steps 2 0 ++ steps 10 1, by decide +kernel, ?_⟩
  decide +kernel

end DG.Props
