import Verif.Proofs.Replace
import Verif.Model.Decomposition
import Verif.Props.Gates
import Verif.Props.Simulator
import Verif.Proofs.UnitaryCircuit

/-! Replacing a part of a circuit by another one that does the same: C106; decompositions: C107. -/

noncomputable section

namespace DG.Props
open Complex DG.Sim DG.Spec DG.Unitary DG.Custom DG.Kernel

/-- **C106.** If two parts of a circuit do the same, exchanging one for the other does not change the simulation, whatever comes before and after: same
state, bits, random numbers and records, or the same exception. -/
theorem C106_replace (qs : List Nat) (hnd : qs.Nodup) (hn : qs.length ≤ 30) (cond : Option (List Nat)) (A B : List SOp) (f : _)
    (hA : Together qs cond A f) (hB : Together qs cond B f) (pre post : List SOp) (u : Nat → ℝ) (littleEndian : Bool) (bits : Nat → Option Bool)
    (records : Nat → Record) :
    simulate u ⟨qs, pre ++ A ++ post⟩ littleEndian bits records = simulate u ⟨qs, pre ++ B ++ post⟩ littleEndian bits records := by
  unfold simulate
  split
  · rfl
  · dsimp only
    rw [loop_eq, loop_eq, foldlM_middle (P := fun w : World => w.mem.length = 2 ^ qs.length) libStep_length
      (fun w hw => vector_same hnd hn u littleEndian hA hB w hw) pre post _ (initialState_length _)]

/-- **C106.** A global phase makes no difference to the simulation of the density matrix. -/
theorem C106_density (qs : List Nat) (hnd : qs.Nodup) (hn : qs.length ≤ 15) (cond : Option (List Nat)) (A B : List SOp) (z : ℂ) (f g : _)
    (hA : Together qs cond A f) (hB : Together qs cond B g) (hz : UpTo z f g) (pre post : List SOp) (u : Nat → ℝ) (littleEndian : Bool)
    (bits : Nat → Option Bool) (records : Nat → Record) :
    simulateMixed u ⟨qs, pre ++ A ++ post⟩ littleEndian bits records = simulateMixed u ⟨qs, pre ++ B ++ post⟩ littleEndian bits records := by
  unfold simulateMixed
  split
  · rfl
  · dsimp only
    rw [densityLoop_eq, densityLoop_eq, foldlM_middle (P := fun w : World => w.mem.length = 2 ^ (2 * qs.length)) libDensity_length
      (fun w hw => density_same hnd (by omega) u hA hB hz w (by rw [hw, two_mul])) pre post _ (initialState_length _)]

/-- **C106.** In simulations of state vectors, also with measurements, a global phase makes no difference to the values of the bits, and the states are the
same up to a phase. -/
theorem C106_phase (qs : List Nat) (hnd : qs.Nodup) (h1 : 1 ≤ qs.length) (hn : qs.length ≤ 30) (cond : Option (List Nat)) (A B : List SOp) (z : ℂ) (f g : _)
    (hA : Together qs cond A f) (hB : Together qs cond B g) (hz : UpTo z f g) (pre post : List SOp)
    (hpre : ∀ op ∈ pre, GateOp ⟨qs, []⟩ op ∨ MeasureOp ⟨qs, []⟩ op) (hpost : ∀ op ∈ post, GateOp ⟨qs, []⟩ op ∨ MeasureOp ⟨qs, []⟩ op)
    (u : Nat → ℝ) (hu : Uniform u) (bits : Nat → Option Bool) (records : Nat → Record) :
    ∃ w w' z', simulate u ⟨qs, pre ++ A ++ post⟩ false bits records = .ok (some w) ∧
      simulate u ⟨qs, pre ++ B ++ post⟩ false bits records = .ok (some w') ∧
      w'.bits = w.bits ∧ w'.drawn = w.drawn ∧ Complex.normSq z' = 1 ∧ w'.mem = w.mem.map (z' * ·) := by
  have hall : ∀ {L : List SOp} {h : _}, Together qs cond L h → ∀ op ∈ pre ++ L ++ post, GateOp ⟨qs, pre ++ L ++ post⟩ op ∨ MeasureOp ⟨qs, pre ++ L ++ post⟩ op := by
    intro L h hL op ho
    rcases List.mem_append.1 ho with ho | ho
    · rcases List.mem_append.1 ho with ho | ho
      · exact hpre op ho
      · exact .inl (together_gateOp hnd hL op ho)
    · exact hpost op ho
  obtain ⟨w, s, a1, a2, a3, a4, a5⟩ := C76_refines ⟨qs, pre ++ A ++ post⟩ ⟨hnd, h1, hn⟩ u bits records (hall hA) hu
  obtain ⟨w', s', b1, b2, b3, b4, b5⟩ := C76_refines ⟨qs, pre ++ B ++ post⟩ ⟨hnd, h1, hn⟩ u bits records (hall hB) hu
  obtain ⟨s2, c1, c2⟩ := exec_split a2
  obtain ⟨s1, c0, c1⟩ := exec_split c1
  obtain ⟨ga, hra, hA⟩ := hA
  obtain ⟨gb, hrb, hB⟩ := hB
  have c2' := exec_circuit (os' := pre ++ B ++ post) c2
  have c0' := exec_circuit (os' := pre ++ B ++ post) c0
  have key : ∃ z', Complex.normSq z' = 1 ∧ s' = scaled z' s := by
    cases hb : isBlocked { oid := 0, kind := .opaque, qubits := [], cond := cond } s1.bits
    · have hs2 := exec_det hnd c1 ((exec_together (os := pre ++ A ++ post) hA hra s1).1 hb)
      subst hs2
      have hx := (exec_together (os := pre ++ B ++ post) (u := u) hB hrb s1).1 hb
      have e : ({ s1 with ψ := g s1.ψ } : SimState qs.length) = scaled z { s1 with ψ := f s1.ψ } := by
        unfold scaled
        congr 1
        exact funext fun x => hz.2 _ x
      rw [e] at hx
      exact ⟨z, hz.1, exec_det hnd b2 (exec_append (exec_append c0' hx) (exec_scaled hz.1 c2'))⟩
    · have hs2 := exec_det hnd c1 ((exec_together (os := pre ++ A ++ post) hA hra s1).2 hb)
      subst hs2
      have hx := (exec_together (os := pre ++ B ++ post) (u := u) hB hrb s2).2 hb
      refine ⟨1, by simp, ?_⟩
      rw [exec_det hnd b2 (exec_append (exec_append c0' hx) c2')]
      unfold scaled
      simp
  obtain ⟨z', hz', rfl⟩ := key
  exact ⟨w, w', z', a1, b1, b4.trans a4.symm, b5.trans a5.symm, hz', stores_scaled a3 b3⟩

theorem common_together {qs : List Nat} {os : List UOp} : ∀ (L : List UOp), (∀ op ∈ L, Common ⟨qs, os⟩ op) →
    ∃ f, Composed ⟨qs, os⟩ L f ∧ Together qs none (L.map (·.toSOp)) f := by
  intro L
  induction L with
  | nil => intro _; exact ⟨id, .nil, [], .nil, .nil⟩
  | cons op L ih =>
    intro h
    obtain ⟨g, i1, gates, i2, i3⟩ := ih fun o ho => h o (by simp [ho])
    obtain ⟨hg, hc, hk⟩ := h op (by simp)
    obtain ⟨ts, f, hts, hf⟩ := gateAct_exists hg
    refine ⟨g ∘ f, .cons ?_ i1, (op.kind, ts) :: gates, .cons hf i2, .cons ⟨hg.1, hc, rfl, hts⟩ i3⟩
    rcases hk with ⟨b, hk⟩ | ⟨b, p, q, hk, hb, h1, h2, h3⟩
    · rw [hk] at hf
      cases hf with
      | single t ha => exact Means.single (c := ⟨qs, os⟩) t hk ha (by rw [hts]; rfl)
    · rw [hk] at hf
      cases hf with
      | controlled1 i t ha hit =>
        have hq : op.qubits = [qs[i], qs[t]] := hts
        rw [h3] at hq
        injection hq with e1 e2
        injection e2 with e2 _
        have hm : t ∉ [i] := fun h => hit (List.mem_singleton.1 h).symm
        refine Means.controlled (c := ⟨qs, os⟩) [i] t hk hb ha (List.nodup_singleton _) hm ?_ ?_
        · rw [h1, e1]; rfl
        · rw [h2, e2]; rfl

/-- **C106.** Parts of a circuit for which `build_unitary` gives the same matrix can be exchanged. (`Common`: single-qubit library gates and
non-parametric controlled library gates with one control, without conditions.) -/
theorem C106_unitary (qs : List Nat) (hnd : qs.Nodup) (A B : List UOp) (hA : ∀ op ∈ A, Common ⟨qs, A⟩ op)
    (hB : ∀ op ∈ B, Common ⟨qs, B⟩ op) (M N : NMat) (hM : buildUnitary ⟨qs, A⟩ = .ok M) (hN : buildUnitary ⟨qs, B⟩ = .ok N)
    (h : ∀ i < 2 ^ qs.length, ∀ j < 2 ^ qs.length, M.e i j = N.e i j) (pre post : List SOp) (u : Nat → ℝ) (littleEndian : Bool)
    (bits : Nat → Option Bool) (records : Nat → Record) :
    (qs.length ≤ 30 → simulate u ⟨qs, pre ++ A.map (·.toSOp) ++ post⟩ littleEndian bits records =
      simulate u ⟨qs, pre ++ B.map (·.toSOp) ++ post⟩ littleEndian bits records) ∧
    (qs.length ≤ 15 → simulateMixed u ⟨qs, pre ++ A.map (·.toSOp) ++ post⟩ littleEndian bits records =
      simulateMixed u ⟨qs, pre ++ B.map (·.toSOp) ++ post⟩ littleEndian bits records) := by
  obtain ⟨f, f1, f2⟩ := common_together A hA
  obtain ⟨g, g1, g2⟩ := common_together B hB
  obtain ⟨M', e1, e2⟩ := buildUnitary_acts (c := ⟨qs, A⟩) hnd f1
  obtain ⟨N', e3, e4⟩ := buildUnitary_acts (c := ⟨qs, B⟩) hnd g1
  rw [hM] at e1
  rw [hN] at e3
  cases e1
  cases e3
  have hfg : f = g := by
    funext ψ x
    rw [e2.2, e4.2]
    exact Finset.sum_congr rfl fun y _ => by rw [h _ (index_lt false x) _ (index_lt false y)]
  subst hfg
  exact ⟨fun hn => C106_replace qs hnd hn none _ _ f f2 g2 pre post u littleEndian bits records,
    fun hn => C106_density qs hnd hn none _ _ 1 f f f2 g2 ⟨by simp, fun ψ x => by simp⟩ pre post u littleEndian bits records⟩

/-! ## Decompositions -/

/-- Together, on one qubit. -/
theorem together_on {qs : List Nat} (t : Fin qs.length) {cond : Option (List Nat)} {bs : List Base} {ops : List SOp} (h : On qs[t] cond bs ops)
    (hl : ∀ b ∈ bs, Library b) {f : _} (hr : Runs (bs.map fun b => (Kind.single b, [t])) f) : Together qs cond ops f := by
  refine ⟨_, hr, ?_⟩
  rw [List.forall₂_map_right_iff]
  clear hr
  unfold On at h
  induction h with
  | nil => exact .nil
  | @cons op b ops bs h _ ih =>
    refine .cons ⟨?_, h.2.2, h.1, h.2.1⟩ (ih fun b hb => hl b (by simp [hb]))
    rw [h.1]
    exact hl b (by simp)

theorem decomposition_cases {cls : String} {names : List String} (hd : DecompAttrs.library.decomposition cls = .ok names) :
    cls = "Z" ∧ names = ["Hadamard", "X", "Hadamard"] ∨ cls = "Rotation" ∧ names = ["RZ", "RY", "RZ"] := by
  unfold DecompAttrs.decomposition DecompAttrs.library at hd
  simp only [PyDict.get?] at hd
  by_cases h1 : "Z" = cls
  · left
    rw [if_pos h1] at hd
    cases hd
    exact ⟨h1.symm, rfl⟩
  · by_cases h2 : "Rotation" = cls
    · right
      rw [if_neg h1, if_pos h2] at hd
      cases hd
      exact ⟨h2.symm, rfl⟩
    · rw [if_neg h1, if_neg h2] at hd
      cases hd

theorem ofClass_hadamard {n : String} {ps : List ℝ} {b : Base} (h : OfClass n ps b) (e : n = "Hadamard") : ps = [] ∧ b = .hadamard := by
  cases h <;> first | exact ⟨rfl, rfl⟩ | exact absurd e (by decide)

theorem ofClass_x {n : String} {ps : List ℝ} {b : Base} (h : OfClass n ps b) (e : n = "X") : ps = [] ∧ b = .x := by
  cases h <;> first | exact ⟨rfl, rfl⟩ | exact absurd e (by decide)

theorem ofClass_z {n : String} {ps : List ℝ} {b : Base} (h : OfClass n ps b) (e : n = "Z") : ps = [] ∧ b = .z := by
  cases h <;> first | exact ⟨rfl, rfl⟩ | exact absurd e (by decide)

theorem ofClass_rz {n : String} {ps : List ℝ} {b : Base} (h : OfClass n ps b) (e : n = "RZ") : ∃ θ : ℝ, ps = [θ] ∧ b = .rz (.num θ) := by
  cases h <;> first | exact ⟨_, rfl, rfl⟩ | exact absurd e (by decide)

theorem ofClass_ry {n : String} {ps : List ℝ} {b : Base} (h : OfClass n ps b) (e : n = "RY") : ∃ θ : ℝ, ps = [θ] ∧ b = .ry (.num θ) := by
  cases h <;> first | exact ⟨_, rfl, rfl⟩ | exact absurd e (by decide)

theorem ofClass_rotation {n : String} {ps : List ℝ} {b : Base} (h : OfClass n ps b) (e : n = "Rotation") : ∃ β γ δ : ℝ, ps = [β, γ, δ] ∧ b = .rotation (.num β) (.num γ) (.num δ) := by
  cases h <;> first | exact ⟨_, _, _, rfl, rfl⟩ | exact absurd e (by decide)

theorem instances_cons {name : String} {names : List String} {ps : List ℝ} {bs : List Base} (h : Instances (name :: names) ps bs) :
    ∃ p b rest bs', ps = p ++ rest ∧ bs = b :: bs' ∧ OfClass name p b ∧ Instances names rest bs' := by
  cases h with
  | cons a h => exact ⟨_, _, _, _, rfl, rfl, a, h⟩

theorem instances_nil {ps : List ℝ} {bs : List Base} (h : Instances [] ps bs) : ps = [] ∧ bs = [] := by
  cases h; exact ⟨rfl, rfl⟩

theorem instances_z {ps : List ℝ} {bs : List Base} (h : Instances ["Hadamard", "X", "Hadamard"] ps bs) : bs = [.hadamard, .x, .hadamard] := by
  obtain ⟨_, _, _, _, rfl, rfl, a1, h⟩ := instances_cons h
  obtain ⟨_, _, _, _, rfl, rfl, a2, h⟩ := instances_cons h
  obtain ⟨_, _, _, _, rfl, rfl, a3, h⟩ := instances_cons h
  obtain ⟨rfl, rfl⟩ := instances_nil h
  obtain ⟨-, rfl⟩ := ofClass_hadamard a1 rfl
  obtain ⟨-, rfl⟩ := ofClass_x a2 rfl
  obtain ⟨-, rfl⟩ := ofClass_hadamard a3 rfl
  rfl

theorem instances_rotation {β γ δ : ℝ} {bs : List Base} (h : Instances ["RZ", "RY", "RZ"] [β, γ, δ] bs) :
    bs = [.rz (.num β), .ry (.num γ), .rz (.num δ)] := by
  obtain ⟨_, _, _, _, e1, rfl, a1, h⟩ := instances_cons h
  obtain ⟨_, _, _, _, rfl, rfl, a2, h⟩ := instances_cons h
  obtain ⟨_, _, _, _, rfl, rfl, a3, h⟩ := instances_cons h
  obtain ⟨rfl, rfl⟩ := instances_nil h
  obtain ⟨_, rfl, rfl⟩ := ofClass_rz a1 rfl
  obtain ⟨_, rfl, rfl⟩ := ofClass_ry a2 rfl
  obtain ⟨_, rfl, rfl⟩ := ofClass_rz a3 rfl
  cases e1
  rfl

/-- **C107.** An operation can be replaced by its decomposition, with its parameters given to the operations of the decomposition in order: this does not
change the simulation, whatever the rest of the circuit is. -/
theorem C107_decomposition (cls : String) (names : List String) (hd : DecompAttrs.library.decomposition cls = .ok names) (ps : List ℝ) (b : Base)
    (hb : OfClass cls ps b) (bs : List Base) (hbs : Instances names ps bs) (qs : List Nat) (hnd : qs.Nodup) (q : Nat) (hq : q ∈ qs)
    (cond : Option (List Nat)) (op : SOp) (hop : On q cond [b] [op]) (L : List SOp) (hL : On q cond bs L) (pre post : List SOp) (u : Nat → ℝ)
    (littleEndian : Bool) (bits : Nat → Option Bool) (records : Nat → Record) :
    (qs.length ≤ 30 → simulate u ⟨qs, pre ++ [op] ++ post⟩ littleEndian bits records = simulate u ⟨qs, pre ++ L ++ post⟩ littleEndian bits records) ∧
    (qs.length ≤ 15 → simulateMixed u ⟨qs, pre ++ [op] ++ post⟩ littleEndian bits records =
      simulateMixed u ⟨qs, pre ++ L ++ post⟩ littleEndian bits records) := by
  obtain ⟨i, hi, rfl⟩ := List.getElem_of_mem hq
  have hcls : cls = "Z" ∧ names = ["Hadamard", "X", "Hadamard"] ∨ cls = "Rotation" ∧ names = ["RZ", "RY", "RZ"] := decomposition_cases hd
  have key : ∃ f, Together qs cond [op] f ∧ Together qs cond L f := by
    rcases hcls with ⟨rfl, rfl⟩ | ⟨rfl, rfl⟩
    · obtain ⟨rfl, rfl⟩ := ofClass_z hb rfl
      obtain rfl := instances_z hbs
      obtain ⟨f, h1, h2⟩ := C59_z (⟨i, hi⟩ : Fin qs.length)
      refine ⟨f, together_on ⟨i, hi⟩ hop (by simp [Library]) ?_, together_on ⟨i, hi⟩ hL (by simp [Library]) h2⟩
      exact (Runs.cons h1 .nil : Runs _ (id ∘ f))
    · obtain ⟨β, γ, δ, rfl, rfl⟩ := ofClass_rotation hb rfl
      obtain rfl := instances_rotation hbs
      obtain ⟨f, h1, h2⟩ := C59_rotation β γ δ (⟨i, hi⟩ : Fin qs.length)
      refine ⟨f, together_on ⟨i, hi⟩ hop (by simp [Library, Param.isNum]) ?_, together_on ⟨i, hi⟩ hL (by simp [Library, Param.isNum]) h2⟩
      exact (Runs.cons h1 .nil : Runs _ (id ∘ f))
  obtain ⟨f, h1, h2⟩ := key
  exact ⟨fun hn => C106_replace qs hnd hn cond _ _ f h1 h2 pre post u littleEndian bits records,
    fun hn => C106_density qs hnd hn cond _ _ 1 f f h1 h2 ⟨by simp, fun ψ x => by simp⟩ pre post u littleEndian bits records⟩

/-- **C107.** The other classes have no decomposition. -/
theorem C107_none (cls : String) (h1 : cls ≠ "Z") (h2 : cls ≠ "Rotation") :
    DecompAttrs.library.decomposition cls = .error .notImplementedError := by
  simp [DecompAttrs.decomposition, DecompAttrs.library, PyDict.get?, Ne.symm h1, Ne.symm h2]

/-- **C107.** There are decompositions: with the parameters of `Z` and of `Rotation`, there is exactly one way to make the operations. -/
theorem C107_exists (cls : String) (ps : List ℝ) (b : Base) (hb : OfClass cls ps b) (h : cls = "Z" ∨ cls = "Rotation") :
    ∃ names, DecompAttrs.library.decomposition cls = .ok names ∧ ∃! bs, Instances names ps bs := by
  rcases h with rfl | rfl
  · obtain ⟨rfl, rfl⟩ := ofClass_z hb rfl
    exact ⟨_, rfl, _, .cons .hadamard (.cons .x (.cons .hadamard .nil)), fun _ h => instances_z h⟩
  · obtain ⟨β, γ, δ, rfl, rfl⟩ := ofClass_rotation hb rfl
    exact ⟨_, rfl, _, .cons (.rz β) (.cons (.ry γ) (.cons (.rz δ) .nil)), fun _ h => instances_rotation h⟩

/-- **C107 (part).** As long as a program only reads decompositions, they stay what they are. -/
theorem C107_reads_partial (calls : List DecompCall) (h : ∀ e ∈ calls, ∃ cls, e = .read cls) (attrs : DecompAttrs) :
    calls.foldl DecompCall.run attrs = attrs := by
  induction calls with
  | nil => rfl
  | cons e es ih =>
    obtain ⟨cls, rfl⟩ := h e (by simp)
    exact ih fun e he => h e (by simp [he])

/-- The list that `decomposition` returns is the one of the class: a program that changes it changes the decomposition of the class, for all later accesses. -/
theorem C107_alias_violated (l : List String) (h : l ≠ []) :
    DecompAttrs.decomposition ([.read "Z", .change "Z" fun _ => l].foldl DecompCall.run DecompAttrs.library) "Z" = .ok l := by
  cases l with
  | nil => exact absurd rfl h
  | cons a l => rfl

/-- If it is emptied, the decomposition is gone. -/
theorem C107_emptied_violated :
    DecompAttrs.decomposition ([.read "Z", .change "Z" fun _ => []].foldl DecompCall.run DecompAttrs.library) "Z" = .error .notImplementedError := rfl

/-! ## Examples -/

/-- Two Hadamards do nothing. -/
theorem twice_hadamard {qs : List Nat} (t : Fin qs.length) (cond : Option (List Nat)) (o o' : Nat) : Together qs cond
    [{ oid := o, kind := .single .hadamard, qubits := [qs[t]], cond := cond }, { oid := o', kind := .single .hadamard, qubits := [qs[t]], cond := cond }] id := by
  refine together_on t (bs := [.hadamard, .hadamard]) (cond := cond) (ops := [{ oid := o, kind := .single .hadamard, qubits := [qs[t]], cond := cond }, { oid := o', kind := .single .hadamard, qubits := [qs[t]], cond := cond }]) (.cons ⟨rfl, rfl, rfl⟩ (.cons ⟨rfl, rfl, rfl⟩ .nil)) (by simp [Library]) ?_
  have hr : Runs ([Base.hadamard, .hadamard].map fun b => (Kind.single b, [t])) _ := .cons (.single t rfl) (.cons (.single t rfl) .nil)
  convert hr using 1
  funext ψ x
  have hs : ((Real.sqrt 2 / 2 : ℝ) : ℂ) * ((Real.sqrt 2 / 2 : ℝ) : ℂ) = 1 / 2 := by
    rw [← ofReal_mul]
    have : (Real.sqrt 2 / 2) * (Real.sqrt 2 / 2) = 1 / 2 := by
      have := Real.mul_self_sqrt (show (0 : ℝ) ≤ 2 by norm_num)
      nlinarith
    rw [this]; simp
  generalize ((Real.sqrt 2 / 2 : ℝ) : ℂ) = f at *
  simp only [Function.comp_apply, id]
  rw [applyGate_comp]
  unfold applyGate
  have hu : Function.update x t (x t) = x := by simp
  cases h : x t <;> simp only [Fintype.sum_bool, gateOf] <;> rw [h] at hu <;> rw [hu] <;> ring_nf
  · linear_combination (-2 * ψ x) * hs
  · linear_combination (-2 * ψ x) * hs

/-- Z is RZ(π) up to a phase. -/
theorem z_rz {qs : List Nat} (t : Fin qs.length) (cond : Option (List Nat)) (o o' : Nat) : ∃ f g,
    Together qs cond [{ oid := o, kind := .single (.rz (.num Real.pi)), qubits := [qs[t]], cond := cond }] f ∧
    Together qs cond [{ oid := o', kind := .single .z, qubits := [qs[t]], cond := cond }] g ∧ UpTo I f g := by
  refine ⟨_, _, together_on t (cond := cond) (ops := [{ oid := o, kind := .single (.rz (.num Real.pi)), qubits := [qs[t]], cond := cond }]) (bs := [.rz (.num Real.pi)]) (.cons ⟨rfl, rfl, rfl⟩ .nil) (by simp [Library, Param.isNum]) (.cons (.single t rfl) .nil),
    together_on t (cond := cond) (ops := [{ oid := o', kind := .single .z, qubits := [qs[t]], cond := cond }]) (bs := [.z]) (.cons ⟨rfl, rfl, rfl⟩ .nil) (by simp [Library]) (.cons (.single t rfl) .nil), by simp, fun ψ x => ?_⟩
  have e1 : exp (-1 * I * (Real.pi : ℂ) / 2) = -I := by
    rw [show -1 * I * (Real.pi : ℂ) / 2 = -(Real.pi / 2 * I) by ring, Complex.exp_neg, Complex.exp_pi_div_two_mul_I]
    simp
  have e2 : exp (I * (Real.pi : ℂ) / 2) = I := by
    rw [show I * (Real.pi : ℂ) / 2 = Real.pi / 2 * I by ring, Complex.exp_pi_div_two_mul_I]
  simp only [Function.comp_apply, id, applyGate, Fintype.sum_bool, e1, e2]
  cases x t <;> simp only [gateOf] <;> ring_nf <;> simp

/-- Qubits 10, 11, 12: the circuit `demo` with two Hadamards or nothing after its third operation. -/
example (u : Nat → ℝ) (le : Bool) (bits : Nat → Option Bool) (r : Nat → Record) :
    simulate u ⟨[10, 11, 12], demoOps.take 3 ++
      [{ oid := 20, kind := .single .hadamard, qubits := [11] }, { oid := 21, kind := .single .hadamard, qubits := [11] }] ++ demoOps.drop 3⟩ le bits r =
    simulate u ⟨[10, 11, 12], demoOps.take 3 ++ [] ++ demoOps.drop 3⟩ le bits r :=
  C106_replace [10, 11, 12] (by decide) (by decide) none _ [] id (twice_hadamard (qs := [10, 11, 12]) 1 none 20 21) ⟨[], .nil, .nil⟩ _ _ u le bits r

example (bits : Nat → Option Bool) (r : Nat → Record) : ∃ w w' z',
    simulate (fun _ => 1 / 2) ⟨[10, 11, 12], demoOps ++ [{ oid := 20, kind := .single (.rz (.num Real.pi)), qubits := [11], cond := some [5] }] ++ demoOps⟩
      false bits r = .ok (some w) ∧
    simulate (fun _ => 1 / 2) ⟨[10, 11, 12], demoOps ++ [{ oid := 20, kind := .single .z, qubits := [11], cond := some [5] }] ++ demoOps⟩
      false bits r = .ok (some w') ∧ w'.bits = w.bits ∧ Complex.normSq z' = 1 ∧ w'.mem = w.mem.map (z' * ·) := by
  obtain ⟨f, g, h1, h2, h3⟩ := z_rz (qs := [10, 11, 12]) 1 (some [5]) 20 20
  obtain ⟨w, w', z', a1, a2, a3, -, a4, a5⟩ := C106_phase [10, 11, 12] (by decide) (by decide) (by decide) (some [5]) _ _ I f g h1 h2 h3 demoOps demoOps
    demo_ops demo_ops (fun _ => 1 / 2) half_uniform bits r
  exact ⟨w, w', z', a1, a2, a3, a4, a5⟩

/-- Rotation(1, 2, 3) on qubit 12, in the middle of `demo`. -/
example (u : Nat → ℝ) (le : Bool) (bits : Nat → Option Bool) (r : Nat → Record) :
    simulate u ⟨[10, 11, 12], demoOps ++ [{ oid := 20, kind := .single (.rotation (.num 1) (.num 2) (.num 3)), qubits := [12] }] ++ demoOps⟩ le bits r =
    simulate u ⟨[10, 11, 12], demoOps ++ [{ oid := 30, kind := .single (.rz (.num 1)), qubits := [12] },
      { oid := 31, kind := .single (.ry (.num 2)), qubits := [12] }, { oid := 32, kind := .single (.rz (.num 3)), qubits := [12] }] ++ demoOps⟩ le bits r :=
  (C107_decomposition "Rotation" _ rfl _ _ (.rotation 1 2 3) _ (.cons (.rz 1) (.cons (.ry 2) (.cons (.rz 3) .nil))) [10, 11, 12] (by decide) 12 (by decide)
    none _ (.cons ⟨rfl, rfl, rfl⟩ .nil) _ (.cons ⟨rfl, rfl, rfl⟩ (.cons ⟨rfl, rfl, rfl⟩ (.cons ⟨rfl, rfl, rfl⟩ .nil))) _ _ u le bits r).1 (by decide)

/-- `build_unitary` gives the same matrix for Z, and for Hadamard, X, Hadamard, on a qubit of a circuit with two qubits. -/
example : ∃ M N,
    (∀ op ∈ ([{ oid := 1, kind := .single .z, qubits := [8] }] : List UOp), Common ⟨[7, 8], [{ oid := 1, kind := .single .z, qubits := [8] }]⟩ op) ∧
    buildUnitary ⟨[7, 8], [{ oid := 1, kind := .single .z, qubits := [8] }]⟩ = .ok M ∧
    buildUnitary ⟨[7, 8], [{ oid := 2, kind := .single .hadamard, qubits := [8] }, { oid := 3, kind := .single .x, qubits := [8] },
      { oid := 4, kind := .single .hadamard, qubits := [8] }]⟩ = .ok N ∧
    ∀ i < 2 ^ 2, ∀ j < 2 ^ 2, M.e i j = N.e i j := by
  obtain ⟨f, h1, h2⟩ := C59_z (1 : Fin 2)
  generalize hk : Kind.single Base.z = k at h1
  generalize ht : [(1 : Fin 2)] = ts at h1
  cases h1 <;> cases hk
  rename_i a t ha
  cases ht
  have c1 : Composed ⟨[7, 8], [{ oid := 1, kind := .single .z, qubits := [8] }]⟩ [{ oid := 1, kind := .single .z, qubits := [8] }] (id ∘ applyGate (1 : Fin 2) (gateOf a)) :=
    .cons (Means.single (c := ⟨[7, 8], _⟩) (1 : Fin 2) rfl ha rfl) .nil
  generalize hg : zDecomposition (1 : Fin 2) = g at h2
  generalize hf : applyGate (1 : Fin 2) (gateOf a) = f at h2 c1
  obtain ⟨M, m1, m2⟩ := buildUnitary_acts (by decide) c1
  unfold zDecomposition at hg
  cases h2 with
  | nil => cases hg
  | cons a1 h2 =>
    cases hg
    cases h2 with
    | cons a2 h2 =>
      cases h2 with
      | cons a3 h2 =>
        cases h2
        cases a1 with
        | single _ a1 =>
          cases a2 with
          | single _ a2 =>
            cases a3 with
            | single _ a3 =>
              have c2 : Composed ⟨[7, 8], [{ oid := 2, kind := .single .hadamard, qubits := [8] }, { oid := 3, kind := .single .x, qubits := [8] },
                  { oid := 4, kind := .single .hadamard, qubits := [8] }]⟩ [{ oid := 2, kind := .single .hadamard, qubits := [8] },
                  { oid := 3, kind := .single .x, qubits := [8] }, { oid := 4, kind := .single .hadamard, qubits := [8] }] _ :=
                .cons (Means.single (c := ⟨[7, 8], _⟩) (1 : Fin 2) rfl a1 rfl) (.cons (Means.single (c := ⟨[7, 8], _⟩) (1 : Fin 2) rfl a2 rfl)
                  (.cons (Means.single (c := ⟨[7, 8], _⟩) (1 : Fin 2) rfl a3 rfl) .nil))
              obtain ⟨N, n1, n2⟩ := buildUnitary_acts (by decide) c2
              refine ⟨M, N, ?_, m1, n1, fun i hi j hj => ?_⟩
              · intro op ho
                simp only [List.mem_cons, List.not_mem_nil, or_false] at ho
                subst ho
                exact ⟨⟨trivial, rfl, by decide, by decide⟩, rfl, .inl ⟨_, rfl⟩⟩
              · have e := (m2.2 (fun y => if y = basisOf false 2 j then 1 else 0) (basisOf false 2 i)).symm.trans
                  (n2.2 (fun y => if y = basisOf false 2 j then 1 else 0) (basisOf false 2 i))
                simp only [mul_ite, mul_one, mul_zero, Finset.sum_ite_eq', Finset.mem_univ, if_true] at e
                have b : ∀ k, k < 2 ^ 2 → index false (basisOf false 2 k) = k := fun k hk => index_basisOf false hk
                rw [← b i hi, ← b j hj]
                exact e

end DG.Props
