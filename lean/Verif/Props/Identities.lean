import Verif.Proofs.IdentitiesTwo
import Verif.Props.Replace

/-! Identities between gates: C113; gates that undo other gates: C114. -/

noncomputable section

namespace DG.Props
open Complex DG.Sim DG.Spec

/-- **C113.** Gates can be replaced by other gates according to the identities between gates, without a change of the simulation: same state, bits, random
numbers and records, or the same exception. -/
theorem C113_same (qs : List Nat) (hnd : qs.Nodup) (cond : Option (List Nat)) (gates gates' : List (Kind × List (Fin qs.length)))
    (h : Same gates gates') (A B : List SOp) (hA : Formed qs cond gates A) (hB : Formed qs cond gates' B) (pre post : List SOp) (u : Nat → ℝ)
    (littleEndian : Bool) (bits : Nat → Option Bool) (records : Nat → Record) :
    (qs.length ≤ 30 → simulate u ⟨qs, pre ++ A ++ post⟩ littleEndian bits records = simulate u ⟨qs, pre ++ B ++ post⟩ littleEndian bits records) ∧
    (qs.length ≤ 15 → simulateMixed u ⟨qs, pre ++ A ++ post⟩ littleEndian bits records =
      simulateMixed u ⟨qs, pre ++ B ++ post⟩ littleEndian bits records) := by
  obtain ⟨f, h1, h2⟩ := same_runs h
  have tA := formed_together hA (same_supported h).1 h1
  have tB := formed_together hB (same_supported h).2 h2
  exact ⟨fun hn => C106_replace qs hnd hn cond _ _ f tA tB pre post u littleEndian bits records,
    fun hn => C106_density qs hnd hn cond _ _ 1 f f tA tB ⟨by simp, fun ψ x => by simp⟩ pre post u littleEndian bits records⟩

/-- **C113.** With the identities that hold up to a global phase, simulations of the density matrix are the same. -/
theorem C113_phase_density (qs : List Nat) (hnd : qs.Nodup) (hn : qs.length ≤ 15) (cond : Option (List Nat)) (bs bs' : List Base) (h : EqualPhase bs bs')
    (t : Fin qs.length) (A B : List SOp) (hA : Formed qs cond (bs.map fun b => (.single b, [t])) A)
    (hB : Formed qs cond (bs'.map fun b => (.single b, [t])) B) (pre post : List SOp) (u : Nat → ℝ) (littleEndian : Bool) (bits : Nat → Option Bool)
    (records : Nat → Record) :
    simulateMixed u ⟨qs, pre ++ A ++ post⟩ littleEndian bits records = simulateMixed u ⟨qs, pre ++ B ++ post⟩ littleEndian bits records := by
  obtain ⟨z, G, H, h1, h2, h3, h4⟩ := phase_product h
  have hl := phase_library h
  refine C106_density qs hnd hn cond A B z _ _ (formed_together hA ?_ (product_runs t h1)) (formed_together hB ?_ (product_runs t h2)) ⟨h3, fun ψ x => ?_⟩
    pre post u littleEndian bits records
  · simpa [Supported] using hl.1
  · simpa [Supported] using hl.2
  · simp only [applyGate, h4, Fintype.sum_bool]; ring

/-- **C113.** With the identities that hold up to a global phase, simulations of the state vector give the same bits, and states that are the same up to a
phase. -/
theorem C113_phase (qs : List Nat) (hnd : qs.Nodup) (h1 : 1 ≤ qs.length) (hn : qs.length ≤ 30) (cond : Option (List Nat)) (bs bs' : List Base)
    (h : EqualPhase bs bs') (t : Fin qs.length) (A B : List SOp) (hA : Formed qs cond (bs.map fun b => (.single b, [t])) A)
    (hB : Formed qs cond (bs'.map fun b => (.single b, [t])) B) (pre post : List SOp)
    (hpre : ∀ op ∈ pre, GateOp ⟨qs, []⟩ op ∨ MeasureOp ⟨qs, []⟩ op) (hpost : ∀ op ∈ post, GateOp ⟨qs, []⟩ op ∨ MeasureOp ⟨qs, []⟩ op)
    (u : Nat → ℝ) (hu : Uniform u) (bits : Nat → Option Bool) (records : Nat → Record) :
    ∃ w w' z, simulate u ⟨qs, pre ++ A ++ post⟩ false bits records = .ok (some w) ∧
      simulate u ⟨qs, pre ++ B ++ post⟩ false bits records = .ok (some w') ∧
      w'.bits = w.bits ∧ w'.drawn = w.drawn ∧ Complex.normSq z = 1 ∧ w'.mem = w.mem.map (z * ·) := by
  obtain ⟨z, G, H, p1, p2, p3, p4⟩ := phase_product h
  have hl := phase_library h
  refine C106_phase qs hnd h1 hn cond A B z _ _ (formed_together hA ?_ (product_runs t p1)) (formed_together hB ?_ (product_runs t p2)) ⟨p3, fun ψ x => ?_⟩
    pre post hpre hpost u hu bits records
  · simpa [Supported] using hl.1
  · simpa [Supported] using hl.2
  · simp only [applyGate, p4, Fintype.sum_bool]; ring

/-- **C114.** Gates and then the gates that undo them can be left out, wherever they are in the circuit. -/
theorem C114_undo (qs : List Nat) (hnd : qs.Nodup) (cond : Option (List Nat)) (gates gates' : List (Kind × List (Fin qs.length)))
    (h : Undo gates gates') (A B : List SOp) (hA : Formed qs cond gates A) (hB : Formed qs cond gates' B) (pre post : List SOp) (u : Nat → ℝ)
    (littleEndian : Bool) (bits : Nat → Option Bool) (records : Nat → Record) :
    (qs.length ≤ 30 → simulate u ⟨qs, pre ++ (A ++ B) ++ post⟩ littleEndian bits records = simulate u ⟨qs, pre ++ post⟩ littleEndian bits records) ∧
    (qs.length ≤ 15 → simulateMixed u ⟨qs, pre ++ (A ++ B) ++ post⟩ littleEndian bits records =
      simulateMixed u ⟨qs, pre ++ post⟩ littleEndian bits records) := by
  obtain ⟨f, g, h1, h2, h3⟩ := undo_runs h
  have hr : Runs (gates ++ gates') id := by
    have := runs_append h1 h2
    rwa [show g ∘ f = id from funext h3] at this
  have hs := undo_supported h
  have tA : Together qs cond (A ++ B) id := formed_together (List.rel_append hA hB) (List.forall_mem_append.2 hs) hr
  have tB : Together qs cond [] id := ⟨[], .nil, .nil⟩
  have e : pre ++ post = pre ++ [] ++ post := by simp
  rw [e]
  exact ⟨fun hn => C106_replace qs hnd hn cond _ _ id tA tB pre post u littleEndian bits records,
    fun hn => C106_density qs hnd hn cond _ _ 1 id id tA tB ⟨by simp, fun ψ x => by simp⟩ pre post u littleEndian bits records⟩

/-- **C114.** A circuit that undoes all its gates ends in the state it began with: the first amplitude is 1 and the others are 0. No bit is written, no
random number is drawn. -/
theorem C114_zero (qs : List Nat) (hnd : qs.Nodup) (h1 : 1 ≤ qs.length) (hn : qs.length ≤ 30) (cond : Option (List Nat))
    (gates gates' : List (Kind × List (Fin qs.length))) (h : Undo gates gates') (A B : List SOp) (hA : Formed qs cond gates A)
    (hB : Formed qs cond gates' B) (u : Nat → ℝ) (littleEndian : Bool) (bits : Nat → Option Bool) (records : Nat → Record) :
    ∃ w, simulate u ⟨qs, A ++ B⟩ littleEndian bits records = .ok (some w) ∧ w.mem = 1 :: List.replicate (2 ^ qs.length - 1) 0 ∧
      w.bits = bits ∧ w.drawn = 0 ∧ w.records = records := by
  have e := (C114_undo qs hnd cond gates gates' h A B hA hB [] [] u littleEndian bits records).1 hn
  simp only [List.nil_append, List.append_nil] at e
  have hi : initialState qs.length = 1 :: List.replicate (2 ^ qs.length - 1) 0 := by
    unfold initialState
    rw [Nat.one_shiftLeft]
    obtain ⟨m, hm⟩ : ∃ m, 2 ^ qs.length = m + 1 := ⟨2 ^ qs.length - 1, by have := Nat.two_pow_pos qs.length; omega⟩
    rw [hm]
    simp [List.replicate_succ]
  have hs : simulate u ⟨qs, []⟩ littleEndian bits records = .ok (some { mem := initialState qs.length, bits := bits, drawn := 0, records := records }) := by
    have h0 : qs.length ≠ 0 := by omega
    have ha : assertState qs.length (initialState qs.length) = .ok () := by
      rw [hi]
      have hp := Nat.two_pow_pos qs.length
      have hl : (1 :: List.replicate (2 ^ qs.length - 1) (0 : ℂ)).length = 2 <<< (qs.length - 1) := by
        rw [Nat.shiftLeft_eq, List.length_cons, List.length_replicate]
        obtain ⟨m, hm⟩ : ∃ m, qs.length = m + 1 := ⟨qs.length - 1, by omega⟩
        rw [hm, Nat.pow_succ]
        simp only [Nat.add_sub_cancel]
        have := Nat.two_pow_pos m
        omega
      unfold assertState
      rw [if_neg (by simp [hl])]
      simp [norm2, isCloseOne]
      positivity
    simp only [simulate, h0, if_false]
    simp [loop, ha]
  exact ⟨_, e.trans hs, hi, rfl, rfl, rfl⟩

/-- **C114.** Every list of gates of the library can be undone. -/
theorem C114_exists (n : Nat) (gates : List (Kind × List (Fin n))) (h : ∀ g ∈ gates, Supported g.1 ∧ g.2.length = arity g.1 ∧ g.2.Nodup) :
    ∃ gates', Undo gates gates' := by
  have base : ∀ b, Library b → ∃ bs, Undoes b bs := by
    intro b hb
    have num : ∀ p : Param, Param.isNum p → ∃ r, p = .num r := fun p hp => by cases p <;> simp [Param.isNum] at hp ⊢
    cases b with
    | identity => exact ⟨_, .identity⟩
    | x => exact ⟨_, .x⟩
    | y => exact ⟨_, .y⟩
    | z => exact ⟨_, .z⟩
    | hadamard => exact ⟨_, .hadamard⟩
    | s => exact ⟨_, .s⟩
    | t => exact ⟨_, .t⟩
    | rx p => obtain ⟨a, rfl⟩ := num p hb; exact ⟨_, .rx a⟩
    | ry p => obtain ⟨a, rfl⟩ := num p hb; exact ⟨_, .ry a⟩
    | rz p => obtain ⟨a, rfl⟩ := num p hb; exact ⟨_, .rz a⟩
    | rotation b g d =>
      obtain ⟨a, rfl⟩ := num b hb.1
      obtain ⟨a', rfl⟩ := num g hb.2.1
      obtain ⟨a'', rfl⟩ := num d hb.2.2
      exact ⟨_, .rotation a a' a''⟩
    | user a => exact absurd hb id
  induction gates with
  | nil => exact ⟨[], .nil⟩
  | cons g rest ih =>
    obtain ⟨B, hB⟩ := ih fun g hg => h g (List.mem_cons_of_mem _ hg)
    obtain ⟨k, ts⟩ := g
    obtain ⟨h1, h2, h3⟩ := h _ List.mem_cons_self
    cases k with
    | single b =>
      obtain ⟨bs, hbs⟩ := base b h1
      match ts, h2 with
      | [t], _ => exact ⟨_, .single t hbs hB⟩
    | controlled nc b =>
      obtain ⟨rfl, hb⟩ := h1
      obtain ⟨bs, hbs⟩ := base b hb
      match ts, h2 with
      | [c, t], _ => exact ⟨_, .controlled c t (by simpa using h3) hbs hB⟩
    | swap =>
      match ts, h2 with
      | [a, b], _ => exact ⟨_, .swap a b (by simpa using h3) hB⟩
    | cswap =>
      match ts, h2 with
      | [c, a, b], _ =>
        simp at h3
        exact ⟨_, .cswap c a b h3.1.1 h3.1.2 h3.2 hB⟩
    | ccx =>
      match ts, h2 with
      | [c, a, b], _ =>
        simp at h3
        exact ⟨_, .ccx c a b h3.1.1 h3.1.2 h3.2 hB⟩
    | _ => exact absurd h1 (by simp [Supported])

/-- In the middle of `demo`, under a condition: SWAP of the qubits 10 and 12, or three times CX. -/
example (u : Nat → ℝ) (le : Bool) (bits : Nat → Option Bool) (r : Nat → Record) :
    simulate u ⟨[10, 11, 12], demoOps ++ [{ oid := 20, kind := .swap, qubits := [10, 12], cond := some [5] }] ++ demoOps⟩ le bits r =
    simulate u ⟨[10, 11, 12], demoOps ++ [{ oid := 30, kind := .controlled 1 .x, qubits := [10, 12], cond := some [5] },
      { oid := 31, kind := .controlled 1 .x, qubits := [12, 10], cond := some [5] },
      { oid := 32, kind := .controlled 1 .x, qubits := [10, 12], cond := some [5] }] ++ demoOps⟩ le bits r :=
  (C113_same [10, 11, 12] (by decide) (some [5]) _ _ (.swap_cx 0 2 (by decide)) _ _ (.cons ⟨rfl, rfl, rfl⟩ .nil)
    (.cons ⟨rfl, rfl, rfl⟩ (.cons ⟨rfl, rfl, rfl⟩ (.cons ⟨rfl, rfl, rfl⟩ .nil))) _ _ u le bits r).1 (by decide)

/-- Two controlled rotations of the density matrix, or one with the sum of the angles. -/
example (u : Nat → ℝ) (le : Bool) (bits : Nat → Option Bool) (r : Nat → Record) :
    simulateMixed u ⟨[10, 11], [{ oid := 1, kind := .single .hadamard, qubits := [11] }] ++
      [{ oid := 2, kind := .controlled 1 (.rz (.num 1)), qubits := [11, 10] }, { oid := 3, kind := .controlled 1 (.rz (.num 2)), qubits := [11, 10] }] ++ []⟩
      le bits r =
    simulateMixed u ⟨[10, 11], [{ oid := 1, kind := .single .hadamard, qubits := [11] }] ++
      [{ oid := 2, kind := .controlled 1 (.rz (.num (1 + 2))), qubits := [11, 10] }] ++ []⟩ le bits r :=
  (C113_same [10, 11] (by decide) none _ _ (.controlled 1 0 (by decide) (.rz_rz 1 2)) _ _ (.cons ⟨rfl, rfl, rfl⟩ (.cons ⟨rfl, rfl, rfl⟩ .nil))
    (.cons ⟨rfl, rfl, rfl⟩ .nil) _ _ u le bits r).2 (by decide)

/-- S is RZ(π / 2) up to a phase, after and before `demo`. -/
example (bits : Nat → Option Bool) (r : Nat → Record) : ∃ w w' z,
    simulate (fun _ => 1 / 2) ⟨[10, 11, 12], demoOps ++ [{ oid := 20, kind := .single (.rz (.num (Real.pi / 2))), qubits := [11] }] ++ demoOps⟩
      false bits r = .ok (some w) ∧
    simulate (fun _ => 1 / 2) ⟨[10, 11, 12], demoOps ++ [{ oid := 20, kind := .single .s, qubits := [11] }] ++ demoOps⟩ false bits r = .ok (some w') ∧
    w'.bits = w.bits ∧ w'.drawn = w.drawn ∧ Complex.normSq z = 1 ∧ w'.mem = w.mem.map (z * ·) :=
  C113_phase [10, 11, 12] (by decide) (by decide) (by decide) none _ _ .s 1 _ _ (.cons ⟨rfl, rfl, rfl⟩ .nil) (.cons ⟨rfl, rfl, rfl⟩ .nil) demoOps demoOps
    demo_ops demo_ops (fun _ => 1 / 2) half_uniform bits r

/-- Hadamard on 10, CT on 10 and 11, CCX. -/
def someOps : List SOp := [{ oid := 1, kind := .single .hadamard, qubits := [10] }, { oid := 2, kind := .controlled 1 .t, qubits := [10, 11] },
  { oid := 3, kind := .ccx, qubits := [10, 11, 12] }]

/-- The undoing. -/
def undoOps : List SOp := [{ oid := 4, kind := .ccx, qubits := [10, 11, 12] }, { oid := 5, kind := .controlled 1 .t, qubits := [10, 11] },
  { oid := 6, kind := .controlled 1 .s, qubits := [10, 11] }, { oid := 7, kind := .controlled 1 .z, qubits := [10, 11] },
  { oid := 8, kind := .single .hadamard, qubits := [10] }]

example (u : Nat → ℝ) (le : Bool) (bits : Nat → Option Bool) (r : Nat → Record) :
    ∃ w, simulate u ⟨[10, 11, 12], someOps ++ undoOps⟩ le bits r = .ok (some w) ∧ w.mem = 1 :: List.replicate 7 0 := by
  obtain ⟨w, h1, h2, -⟩ := C114_zero [10, 11, 12] (by decide) (by decide) (by decide) none _ _
    (.single 0 .hadamard (.controlled 0 1 (by decide) .t (.ccx 0 1 2 (by decide) (by decide) (by decide) .nil))) someOps undoOps
    (.cons ⟨rfl, rfl, rfl⟩ (.cons ⟨rfl, rfl, rfl⟩ (.cons ⟨rfl, rfl, rfl⟩ .nil)))
    (.cons ⟨rfl, rfl, rfl⟩ (.cons ⟨rfl, rfl, rfl⟩ (.cons ⟨rfl, rfl, rfl⟩ (.cons ⟨rfl, rfl, rfl⟩ (.cons ⟨rfl, rfl, rfl⟩ .nil))))) u le bits r
  exact ⟨w, h1, h2⟩

end DG.Props
