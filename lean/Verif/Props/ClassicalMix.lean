import Verif.Proofs.ClassicalMix
import Verif.Props.Classical
import Verif.Props.Sampling

/-!
# C119: classical gates act on any state as they act on values

`classicalOn qs K bits y` is the basis state that the classical program `K` computes from the basis state `y` (`Spec/ClassicalMix.lean`).
-/

noncomputable section

namespace DG.Props
open Complex DG.Sim DG.Spec DG.Classic

theorem classicalOn_eq {qs : List Nat} {os K : List SOp} {bits : Nat → Option Bool} {y : Basis qs.length} :
    classicalOn qs K bits y = valuesOf ⟨qs, os⟩ (K.foldl classicalStep ⟨ofBasis qs y, bits⟩).qubits := rfl

theorem classicalOn_bijective {qs : List Nat} {os K : List SOp} (hnd : qs.Nodup) {u : Nat → ℝ} {s s' : SimState qs.length} (h : Exec ⟨qs, os⟩ u K s s')
    (hK : ∀ op ∈ K, Supported op.kind ∧ ClassicalOp op) : Function.Bijective (classicalOn qs K s.bits) := by
  have hinj : Function.Injective (classicalOn qs K s.bits) := by
    intro y y' e
    have := (exec_point (c := ⟨qs, os⟩) hnd h hK).2.2 (ofBasis qs y) (ofBasis qs y') e
    rwa [valuesOf_ofBasis hnd, valuesOf_ofBasis hnd] at this
  exact ⟨hinj, Finite.surjective_of_injective hinj⟩

/-- **C119.** Classical gates behind any circuit of gates and measurements: the amplitude of every basis state becomes that of the values that the gates compute
from it, up to a phase; exactly so if there are only gates without phases. Every basis state is computed from exactly one. -/
theorem C119_amplitudes (qs : List Nat) (A K : List SOp) (hq : GoodQubits ⟨qs, A ++ K⟩)
    (hA : ∀ op ∈ A, GateOp ⟨qs, A ++ K⟩ op ∨ MeasureOp ⟨qs, A ++ K⟩ op) (hK : ∀ op ∈ K, GateOp ⟨qs, A ++ K⟩ op ∧ ClassicalOp op) (u : Nat → ℝ) (hu : Uniform u)
    (bits : Nat → Option Bool) (records records' : Nat → Record) :
    ∃ w w', simulate u ⟨qs, A⟩ false bits records = .ok (some w) ∧ simulate u ⟨qs, A ++ K⟩ false bits records' = .ok (some w') ∧ w'.bits = w.bits ∧
      Function.Bijective (classicalOn qs K w.bits) ∧
      ∀ y : Basis qs.length, ∃ p a, Complex.normSq p = 1 ∧ ((∀ op ∈ K, NoPhase op) → p = 1) ∧ w.mem[index false y]? = some a ∧
        w'.mem[index false (classicalOn qs K w.bits y)]? = some (p * a) := by
  obtain ⟨w, s, e1, e2, e3, e4, -⟩ := C76_refines ⟨qs, A⟩ hq u bits records hA hu
  obtain ⟨w', s', f1, f2, f3, f4, -⟩ := C76_refines ⟨qs, A ++ K⟩ hq u bits records' (fun op ho => by
    rcases List.mem_append.1 ho with h | h
    · exact hA op h
    · exact .inl (hK op h).1) hu
  obtain ⟨s1, g1, g2⟩ := exec_append.1 f2
  have hs : s1 = s := exec_det (c := ⟨qs, A ++ K⟩) hq.1 g1 (exec_congr e2)
  subst hs
  have hK' : ∀ op ∈ K, Supported op.kind ∧ ClassicalOp op := fun op ho => ⟨(hK op ho).1.1, (hK op ho).2⟩
  obtain ⟨i1, i2, -⟩ := exec_point (c := ⟨qs, A ++ K⟩) hq.1 g2 hK'
  refine ⟨w, w', e1, f1, by rw [f4, e4, i1], by rw [e4]; exact classicalOn_bijective hq.1 g2 hK', fun y => ?_⟩
  obtain ⟨p, p1, p2, p3⟩ := i2 (ofBasis qs y)
  refine ⟨p, s1.ψ y, p1, p2, e3.2 y, ?_⟩
  rw [e4, f3.2]
  rw [valuesOf_ofBasis hq.1] at p3
  exact congrArg some p3

/-- **C119.** Gates that only make phases do not change the probabilities of the basis states. -/
theorem C119_phases (qs : List Nat) (A K : List SOp) (hq : GoodQubits ⟨qs, A ++ K⟩)
    (hA : ∀ op ∈ A, GateOp ⟨qs, A ++ K⟩ op ∨ MeasureOp ⟨qs, A ++ K⟩ op) (hK : ∀ op ∈ K, GateOp ⟨qs, A ++ K⟩ op ∧ PhaseOp op) (u : Nat → ℝ) (hu : Uniform u)
    (bits : Nat → Option Bool) (records records' : Nat → Record) :
    ∃ w w', simulate u ⟨qs, A⟩ false bits records = .ok (some w) ∧ simulate u ⟨qs, A ++ K⟩ false bits records' = .ok (some w') ∧ w'.bits = w.bits ∧
      w'.mem.map Complex.normSq = w.mem.map Complex.normSq := by
  obtain ⟨w, w', h1, h2, h3, -, h4⟩ := C119_amplitudes qs A K hq hA (fun op ho => ⟨(hK op ho).1, phase_classical (hK op ho).2⟩) u hu bits records records'
  refine ⟨w, w', h1, h2, h3, ?_⟩
  have hid : ∀ v : Values, K.foldl classicalStep v = v := by
    have : ∀ (L : List SOp), (∀ op ∈ L, PhaseOp op) → ∀ v : Values, L.foldl classicalStep v = v := by
      intro L
      induction L with
      | nil => intro _ v; rfl
      | cons op L ih => intro h v; rw [List.foldl_cons, phase_act (h op (by simp)), ih (fun o ho => h o (by simp [ho]))]
    exact this K fun op ho => (hK op ho).2
  have hon : ∀ y, classicalOn qs K w.bits y = y := fun y => by
    rw [classicalOn_eq (os := []), hid]
    exact valuesOf_ofBasis hq.1 y
  obtain ⟨w2, s, e1, -, e3, -⟩ := C76_refines ⟨qs, A⟩ hq u bits records hA hu
  obtain rfl : w2 = w := by rw [h1] at e1; cases e1; rfl
  obtain ⟨w3, s', f1, -, f3, -⟩ := C76_refines ⟨qs, A ++ K⟩ hq u bits records' (fun op ho => by
    rcases List.mem_append.1 ho with h | h
    · exact hA op h
    · exact .inl (hK op h).1) hu
  obtain rfl : w3 = w' := by rw [h2] at f1; cases f1; rfl
  refine List.ext_getElem? fun i => ?_
  rw [List.getElem?_map, List.getElem?_map]
  rcases hi : w2.mem[i]? with _ | a
  · have : w2.mem.length ≤ i := List.getElem?_eq_none_iff.1 hi
    rw [List.getElem?_eq_none (by rw [f3.1]; rw [e3.1] at this; exact this)]
  · obtain ⟨y, rfl, -⟩ := stores_get e3 hi
    obtain ⟨p, a', p1, -, p3, p4⟩ := h4 y
    rw [hi] at p3
    cases p3
    rw [hon] at p4
    rw [p4]
    simp [Complex.normSq_mul, p1]

/-- **C119.** Measurements after classical gates: the probability of results is that of the values from which the gates compute them. -/
theorem C119_measured (qs : List Nat) (A K : List SOp) (m : SOp) (hq : GoodQubits ⟨qs, (A ++ K) ++ [m]⟩)
    (hA : ∀ op ∈ A, GateOp ⟨qs, (A ++ K) ++ [m]⟩ op) (hK : ∀ op ∈ K, GateOp ⟨qs, (A ++ K) ++ [m]⟩ op ∧ ClassicalOp op) {bs : List Nat} {ts : List (Fin qs.length)}
    (hk : m.kind = .measurement) (hts : m.qubits = ts.map fun i => qs[i]) (hc : m.cond = none) (hbs : m.bits = some bs) (hnd : bs.Nodup)
    (hl : bs.length = ts.length) (u0 : Nat → ℝ) (bits : Nat → Option Bool) (records : Nat → Record) :
    ∃ w, simulate u0 ⟨qs, A⟩ false bits records = .ok (some w) ∧ ∀ row : List Bool, row.length = ts.length →
      chance ts.length (fun u => ∃ w, simulate u ⟨qs, (A ++ K) ++ [m]⟩ false bits records = .ok (some w) ∧ bs.map w.bits = row.map some) =
        ENNReal.ofReal (∑ y : Basis qs.length, if ts.map (classicalOn qs K bits y) = row then Complex.normSq (w.mem.getD (index false y) 0) else 0) := by
  obtain ⟨ψ, h1, -, h3⟩ := C82_simulated (gates := A ++ K) hq (fun op ho => by
    rcases List.mem_append.1 ho with h | h
    · exact hA op h
    · exact (hK op h).1) hk hts hc hbs hnd hl bits records
  obtain ⟨w, s, e1, e2, e3, e4⟩ := C75_gates ⟨qs, A⟩ hq u0 bits records hA false
  refine ⟨w, e1, fun row hrow => ?_⟩
  rw [h3 row hrow]
  congr 1
  obtain ⟨s1, g1, g2⟩ := exec_append.1 (h1 u0)
  have hs : s1 = s := exec_det (c := ⟨qs, (A ++ K) ++ [m]⟩) hq.1 g1 (exec_congr e2)
  subst hs
  have hb : s1.bits = bits := ((exec_gates_any (c := ⟨qs, (A ++ K) ++ [m]⟩) hA g1).2.1)
  have hK' : ∀ op ∈ K, Supported op.kind ∧ ClassicalOp op := fun op ho => ⟨(hK op ho).1.1, (hK op ho).2⟩
  obtain ⟨-, i2, -⟩ := exec_point (c := ⟨qs, (A ++ K) ++ [m]⟩) hq.1 g2 hK'
  have hbij := classicalOn_bijective (os := (A ++ K) ++ [m]) hq.1 g2 hK'
  rw [hb] at hbij i2
  unfold jointBorn
  rw [← (Equiv.ofBijective _ hbij).sum_comp]
  refine Finset.sum_congr rfl fun y _ => ?_
  obtain ⟨p, p1, -, p3⟩ := i2 (ofBasis qs y)
  rw [valuesOf_ofBasis hq.1] at p3
  have e : Complex.normSq (ψ (classicalOn qs K bits y)) = Complex.normSq (w.mem.getD (index false y) 0) := by
    have h4 : w.mem[index false y]? = some (s1.ψ y) := e3.2 y
    rw [List.getD_eq_getElem?_getD, h4, classicalOn_eq (os := (A ++ K) ++ [m]), show ψ _ = _ from p3, Complex.normSq_mul, p1, one_mul]
    rfl
  simp only [Equiv.ofBijective_apply, e]

/-! ## Example -/

/-- Two Hadamard gates, then the half adder on a superposition, with phases. -/
example (u : Nat → ℝ) (hu : Uniform u) (bits : Nat → Option Bool) (records : Nat → Record) :
    let A : List SOp := [{ oid := 1, kind := .single .hadamard, qubits := [1] }, { oid := 2, kind := .single .hadamard, qubits := [2] }]
    let K : List SOp := [{ oid := 3, kind := .ccx, qubits := [1, 2, 3] }, { oid := 4, kind := .controlled 1 .x, qubits := [1, 2] },
      { oid := 5, kind := .single .s, qubits := [3] }]
    ∃ w w', simulate u ⟨[1, 2, 3], A⟩ false bits records = .ok (some w) ∧ simulate u ⟨[1, 2, 3], A ++ K⟩ false bits records = .ok (some w') ∧
      ∃ p a, Complex.normSq p = 1 ∧ w.mem[6]? = some a ∧ w'.mem[5]? = some (p * a) := by
  intro A K
  obtain ⟨w, w', h1, h2, -, -, h4⟩ := C119_amplitudes [1, 2, 3] A K ⟨by decide, by decide, by decide⟩ (by
    intro op ho
    simp only [A, List.mem_cons, List.not_mem_nil, or_false] at ho
    rcases ho with rfl | rfl <;> exact .inl ⟨trivial, rfl, by decide, by decide⟩) (by
    intro op ho
    simp only [K, List.mem_cons, List.not_mem_nil, or_false] at ho
    rcases ho with rfl | rfl | rfl
    · exact ⟨⟨trivial, rfl, by decide, by decide⟩, trivial⟩
    · exact ⟨⟨⟨rfl, trivial⟩, rfl, by decide, by decide⟩, trivial⟩
    · exact ⟨⟨trivial, rfl, by decide, by decide⟩, trivial⟩) u hu bits records records
  obtain ⟨p, a, p1, -, p2, p3⟩ := h4 ![true, true, false]
  refine ⟨w, w', h1, h2, p, a, p1, p2, ?_⟩
  rw [← p3]
  have : classicalOn [1, 2, 3] K w.bits ![true, true, false] = ![true, false, true] := by
    funext i
    have nb : ∀ (o : Nat) (k : Kind) (l : List Nat) (v : Nat → Option Bool), ¬ Blocked { oid := o, kind := k, qubits := l } v := by
      rintro o k l v ⟨_, _, h, _⟩
      cases h
    simp only [classicalOn, K, List.foldl_cons, List.foldl_nil, classicalStep, nb, if_false, classicalAct]
    fin_cases i <;> rfl
  rw [this]
  rfl

end DG.Props
