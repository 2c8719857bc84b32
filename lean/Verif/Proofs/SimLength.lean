import Verif.Proofs.Sim

/-! The simulator never changes the length of the state vector. -/

noncomputable section

namespace DG
open Complex Sim Kernel Spec Props

theorem foldlM_inv {α β : Type} {P : β → Prop} {f : β → α → Except Err β} (hf : ∀ b a b', P b → f b a = .ok b' → P b') :
    ∀ (l : List α) {b b' : β}, P b → l.foldlM f b = .ok b' → P b' := by
  intro l
  induction l with
  | nil => intro b b' h e; cases e; exact h
  | cons a l ih =>
    intro b b' h e
    rw [List.foldlM_cons] at e
    rcases h1 : f b a with _ | b1
    · rw [h1] at e; cases e
    · rw [h1] at e; exact ih (hf _ _ _ h h1) e

theorem bind_ok {α β : Type} {x : Except Err α} {f : α → Except Err β} {b : β} (h : (x >>= f) = .ok b) : ∃ a, x = .ok a ∧ f a = .ok b := by
  rcases x with _ | a
  · cases h
  · exact ⟨a, rfl, h⟩

theorem run_length {op : OpSpec ℂ} {le : Bool} {nq : BitVec 64} {mem gate : List ℂ} {ts cs : List (BitVec 64)} {fa : ℂ} {r : ℝ × List ℂ}
    (h : run op Complex.normSq le nq mem gate ts cs fa = .ok r) : r.2.length = mem.length := by
  unfold run runOrder at h
  obtain ⟨⟨masks, cmask, iters⟩, -, h⟩ := bind_ok h
  refine foldlM_inv (P := fun s : ℝ × List ℂ => s.2.length = mem.length) ?_ _ rfl h
  intro s pb s' hs e
  unfold body at e
  obtain ⟨amps, -, e⟩ := bind_ok e
  obtain ⟨res, -, e⟩ := bind_ok e
  split at e
  · cases e; exact hs
  · obtain ⟨m, e1, e2⟩ := bind_ok e
    cases e2
    refine foldlM_inv (P := fun m : List ℂ => m.length = mem.length) ?_ _ hs e1
    intro m p m' hm e
    obtain ⟨k, -, e⟩ := bind_ok e
    unfold store at e
    split at e
    · cases e; simpa using hm
    · cases e

theorem callKernel_length {op : OpSpec ℂ} {le : Bool} {nq : Nat} {mem gate mem' : List ℂ} {ts cs : List Nat}
    (h : callKernel op le nq mem gate ts cs = .ok mem') : mem'.length = mem.length := by
  unfold callKernel at h
  obtain ⟨r, h1, h2⟩ := bind_ok h
  cases h2
  exact run_length h1

theorem opSet_length {ops : List (Nat → Nat → ℂ)} {le ap : Bool} {nq : Nat} {mem : List ℂ} {t : Nat} {u : ℝ} {r : Int × List ℂ}
    (h : opSet ops le ap nq mem t u = .ok r) : r.2.length = mem.length := by
  unfold opSet at h
  obtain ⟨⟨i, p⟩, -, h⟩ := bind_ok h
  dsimp only at h
  split at h
  · cases h
  · split at h
    · split at h
      · cases h; rfl
      · obtain ⟨r', h1, h2⟩ := bind_ok h
        cases h2
        exact run_length h1
    · cases h; rfl

theorem measureLoop_length (u : Nat → ℝ) (op : SOp) : ∀ (ts : List Nat) (i : Nat) {w w' : World}, measureLoop u op ts i w = .ok w' →
    w'.mem.length = w.mem.length := by
  intro ts
  induction ts with
  | nil => intro i w w' h; cases h; rfl
  | cons t ts ih =>
    intro i w w' h
    unfold measureLoop at h
    obtain ⟨⟨m, mem⟩, h1, h2⟩ := bind_ok h
    exact (ih _ h2).trans (opSet_length h1)

theorem applyInstruction_length {u : Nat → ℝ} {nq : Nat} {op : SOp} {ts : List Nat} {le cj : Bool} {w w' : World}
    (h : applyInstruction u nq op ts le cj w = .ok w') : w'.mem.length = w.mem.length := by
  unfold applyInstruction at h
  split at h
  · cases h; rfl
  · split at h
    · split at h
      · cases h
      · unfold Sim.measure at h
        exact (measureLoop_length _ _ _ _ h).trans rfl
    · obtain ⟨_, -, h⟩ := bind_ok h
      obtain ⟨_, -, h⟩ := bind_ok h
      obtain ⟨_, h1, h2⟩ := bind_ok h
      cases h2; exact callKernel_length h1
    · obtain ⟨_, -, h⟩ := bind_ok h
      obtain ⟨_, -, h⟩ := bind_ok h
      obtain ⟨_, -, h⟩ := bind_ok h
      obtain ⟨_, h1, h2⟩ := bind_ok h
      cases h2; exact callKernel_length h1
    · obtain ⟨_, -, h⟩ := bind_ok h
      obtain ⟨_, -, h⟩ := bind_ok h
      obtain ⟨_, -, h⟩ := bind_ok h
      obtain ⟨_, h1, h2⟩ := bind_ok h
      cases h2; exact callKernel_length h1
    · obtain ⟨_, -, h⟩ := bind_ok h
      split at h
      · obtain ⟨_, -, h⟩ := bind_ok h
        obtain ⟨_, -, h⟩ := bind_ok h
        obtain ⟨_, h1, h2⟩ := bind_ok h
        cases h2; exact callKernel_length h1
      · split at h
        · obtain ⟨_, -, h⟩ := bind_ok h
          obtain ⟨_, -, h⟩ := bind_ok h
          obtain ⟨_, -, h⟩ := bind_ok h
          obtain ⟨_, h1, h2⟩ := bind_ok h
          cases h2; exact callKernel_length h1
        · cases h; rfl
    · obtain ⟨_, -, h⟩ := bind_ok h
      obtain ⟨_, -, h⟩ := bind_ok h
      obtain ⟨_, h1, h2⟩ := bind_ok h
      cases h2; exact callKernel_length h1
    · split at h
      · cases h
      · split at h <;> cases h
    · cases h

/-- Every list of the right length is the vector of some state. -/
theorem exists_stores {n : Nat} (le : Bool) {mem : List ℂ} (h : mem.length = 2 ^ n) : ∃ ψ : State n ℂ, Stores le mem ψ :=
  ⟨fun x => mem[index le x]'(by rw [h]; exact index_lt le x), h, fun x => List.getElem?_eq_getElem _⟩

theorem stores_unique {n : Nat} {le : Bool} {mem mem' : List ℂ} {ψ : State n ℂ} (h : Stores le mem ψ) (h' : Stores le mem' ψ) : mem = mem' := by
  refine List.ext_getElem? fun i => ?_
  by_cases hi : i < 2 ^ n
  · rw [← index_basisOf le hi, h.2, h'.2]
  · rw [List.getElem?_eq_none (by rw [h.1]; omega), List.getElem?_eq_none (by rw [h'.1]; omega)]

end DG
