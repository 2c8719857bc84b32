import Verif.Proofs.Branches
import Verif.Props.Simulator
import Verif.Props.Run
import Verif.Props.QirLimits

/-!
# Property C99: the joint distribution of all results of a simulation
-/

noncomputable section

namespace DG.Props
open Spec Sim MeasureTheory

/-- C99: simulating any circuit of library gates and measurements, with or without conditions, in the middle or at the end: the probability that the state
and the bits satisfy `Q` at the end is the sum of the Born probabilities of the branches in which they do. -/
theorem C99_distribution {c : SCircuit} (hq : GoodQubits c) (hops : ∀ op ∈ c.ops, GateOp c op ∨ MeasureOp c op) (bits : Nat → Option Bool)
    (records : Nat → Record) {N : Nat} (hN : measuredQubits c.ops ≤ N) :
    ∃ L, Branches c c.ops bits L ∧ ∀ Q : State c.qubits.length ℂ → (Nat → Option Bool) → Prop,
      chance N (fun u => ∃ w ψ, simulate u c false bits records = .ok (some w) ∧ Stores false w.mem ψ ∧ Q ψ w.bits) =
        ENNReal.ofReal (bornSum L (zeroState _) bits Q) := by
  obtain ⟨L, hL⟩ := branches_exist hops bits
  refine ⟨L, hL, fun Q => ?_⟩
  rw [← exec_distribution hq.1 hops hL normSq_zeroState hN Q]
  unfold chance
  congr 1
  ext v
  simp only [Set.mem_ofPred_eq]
  refine and_congr_right fun hv => ?_
  obtain ⟨w, s, e1, e2, e3, e4, -, -⟩ := simulate_all hq hops (stream v) (uniform_stream hv) bits records
  constructor
  · rintro ⟨w', ψ, g1, g2, g3⟩
    rw [e1] at g1
    cases g1
    refine ⟨s, e2, ?_⟩
    rw [← e4, ← stores_unique g2 e3]
    exact g3
  · rintro ⟨s', g1, g2⟩
    have := exec_det hq.1 g1 e2
    subst this
    exact ⟨w, s'.ψ, e1, e3, by rw [e4]; exact g2⟩

/-- C99: the branches are determined by the circuit. -/
theorem C99_unique {c : SCircuit} (hnd : c.qubits.Nodup) {ops : List SOp} {bits : Nat → Option Bool} {L L' : List (Branch c.qubits.length)}
    (h : Branches c ops bits L) (h' : Branches c ops bits L') : L = L' := by
  induction h generalizing L' with
  | nil => cases h'; rfl
  | blocked hb _ ih =>
    cases h' with
    | blocked _ h' => exact ih h'
    | gate hn => exact absurd hb hn
    | measure hn => exact absurd hb hn
  | gate hn ht hf _ ih =>
    cases h' with
    | blocked hb => exact absurd hb hn
    | gate _ ht' hf' h' =>
      rw [ht] at ht'
      have := map_qubitAt_inj hnd ht'
      subst this
      rw [gateAct_det hf hf', ih h']
    | measure _ hk => rw [hk] at hf; cases hf
  | measure hn hk ht _ ih =>
    cases h' with
    | blocked hb => exact absurd hb hn
    | gate _ _ hf => rw [hk] at hf; cases hf
    | measure _ _ ht' h' =>
      rw [ht] at ht'
      have := map_qubitAt_inj hnd ht'
      subst this
      apply List.flatMap_congr
      intro ms hms
      rw [ih ms (mem_allRows.1 hms) (h' ms (mem_allRows.1 hms))]

/-- C99: one part of a circuit after the other: the branches of the second part start with the bits that the branches of the first part leave. -/
theorem C99_append {c : SCircuit} {ops ops' : List SOp} {bits : Nat → Option Bool} {L : List (Branch c.qubits.length)}
    {M : Branch c.qubits.length → List (Branch c.qubits.length)} (h : Branches c ops bits L)
    (h' : ∀ b ∈ L, Branches c ops' (writeBits bits b.writes) (M b)) :
    Branches c (ops ++ ops') bits (L.flatMap fun b => (M b).map fun b' => ⟨b'.act ∘ b.act, b.writes ++ b'.writes⟩) := by
  induction h generalizing M with
  | @nil bits => simpa [writeBits] using h' ⟨id, []⟩ (by simp)
  | blocked hb _ ih => exact .blocked hb (ih h')
  | @gate op ops bits L ts f hn ht hf _ ih =>
    have := ih (M := fun b => M ⟨b.act ∘ f, b.writes⟩) fun b hb => h' ⟨b.act ∘ f, b.writes⟩ (List.mem_map.2 ⟨b, hb, rfl⟩)
    have := Branches.gate hn ht hf this
    simpa [List.map_flatMap, List.flatMap_map, Function.comp_def] using this
  | @measure op ops bits ts L hn hk ht _ ih =>
    have := Branches.measure (ops := ops ++ ops') hn hk ht (L := fun ms => (L ms).flatMap fun b =>
        (M ⟨b.act ∘ restrict ts ms, (op.bits.getD []).zip ms ++ b.writes⟩).map fun b' => ⟨b'.act ∘ b.act, b.writes ++ b'.writes⟩) fun ms hms =>
      ih ms hms (M := fun b => M ⟨b.act ∘ restrict ts ms, (op.bits.getD []).zip ms ++ b.writes⟩) fun b hb => by
        rw [← writeBits_append]
        exact h' _ (List.mem_flatMap.2 ⟨ms, mem_allRows.2 hms, List.mem_map.2 ⟨b, hb, rfl⟩⟩)
    simpa [List.map_flatMap, List.flatMap_map, List.flatMap_assoc, Function.comp_def] using this

/-- C99: the probabilities of all branches add up to 1. -/
theorem C99_total {c : SCircuit} (hnd : c.qubits.Nodup) {ops : List SOp} (hops : ∀ op ∈ ops, GateOp c op ∨ MeasureOp c op) {bits : Nat → Option Bool}
    {L : List (Branch c.qubits.length)} (h : Branches c ops bits L) {ψ : State c.qubits.length ℂ} (h1 : Spec.normSq ψ = 1) :
    (L.map fun b => Spec.normSq (b.act ψ)).sum = 1 := by
  have hd := exec_distribution hnd hops h h1 le_rfl fun _ _ => True
  have he : bornSum L ψ bits (fun _ _ => True) = (L.map fun b => Spec.normSq (b.act ψ)).sum := by simp [bornSum]
  rw [he] at hd
  have hc : chance (measuredQubits ops) (fun u => ∃ s, Exec c u ops ⟨ψ, bits, 0⟩ s ∧ True) = 1 := by
    rw [← cube_volume (measuredQubits ops)]
    unfold chance
    congr 1
    ext v
    simp only [and_true, Set.mem_ofPred_eq, and_iff_left_iff_imp]
    intro hv
    obtain ⟨P, -, -, p3⟩ := branches_ways h hops ψ ψ ⟨.inl h1, fun _ => (normalised_one h1).symm⟩
    obtain ⟨p, -, e⟩ := p3 (stream v) 0 (uniform_stream hv)
    exact ⟨_, e⟩
  rw [hc] at hd
  exact (ENNReal.ofReal_eq_one.1 hd.symm)

/-- C99 for circuits built by programs: the probability that the state that `simulate` returns and the values of the bits `bs` satisfy `Q`. -/
theorem C99_program {A : Call ℝ → Prop} (hA : ∀ e, A e → KeepsRegisters e ∧ KeepsOperands e) {w : World ℝ} (h : Reach A w) {c : Nat}
    {C : Circ} (hC : w.circs[c]? = some C) (hact : w.active = none ∨ ¬ NeedsNoContext w C.ops) {L : Layout} (hL : Shows C.q L) (h1 : 1 ≤ L.items.length)
    (h30 : L.items.length ≤ 30) {S : List SOp} (hS : List.Forall₂ (Reads w) C.ops S) (hg : ∀ s ∈ S, GoodOperands s) (records : Nat → Record)
    {bs : List Nat} (hbs : ∀ b ∈ bs, b < w.bits.length) {N : Nat} (hN : measuredQubits S ≤ N) :
    ∃ B, Branches ⟨L.items, S⟩ S (bitValue w) B ∧ ∀ Q : State L.items.length ℂ → List (Option Bool) → Prop,
      chance N (fun u => ∃ mem recs w' ψ, simulateCirc u c false records w = (.ok (some (mem, recs)), w') ∧ Stores false mem ψ ∧ Q ψ (bs.map (bitValue w'))) =
        ENNReal.ofReal (bornSum B (zeroState _) (bitValue w) fun ψ vals => Q ψ (bs.map vals)) := by
  obtain ⟨g1, g2, g3⟩ := ops_inside hA h hC hL hS hg
  obtain ⟨B, hB⟩ := branches_exist (c := ⟨L.items, S⟩) g3 (bitValue w)
  refine ⟨B, hB, fun Q => ?_⟩
  rw [← exec_distribution (c := ⟨L.items, S⟩) g2 g3 hB normSq_zeroState hN fun ψ vals => Q ψ (bs.map vals)]
  unfold chance
  congr 1
  ext v
  simp only [Set.mem_ofPred_eq]
  refine and_congr_right fun hv => ?_
  obtain ⟨mem, recs, C', s, e1, -, e2, e3⟩ := C81_simulate hA h hC hact hL h1 h30 hS hg (stream v) (uniform_stream hv) records
  have hb : bs.map (bitValue { w.setCirc c C' with bits := withValues w s.bits }) = bs.map s.bits := by
    apply List.map_congr_left
    intro b hb
    exact bitValue_withValues w s.bits rfl (hbs b hb)
  constructor
  · rintro ⟨mem', recs', w', ψ, k1, k2, k3⟩
    rw [e1] at k1
    simp only [Prod.mk.injEq, Except.ok.injEq, Option.some.injEq] at k1
    obtain ⟨⟨rfl, rfl⟩, rfl⟩ := k1
    refine ⟨s, e2, ?_⟩
    rw [← hb, ← stores_unique k2 e3]
    exact k3
  · rintro ⟨s', k1, k2⟩
    have := exec_det (c := ⟨L.items, S⟩) g2 k1 e2
    subst this
    exact ⟨mem, recs, _, s'.ψ, e1, e3, by rw [hb]; exact k2⟩

/-! ## Example: `H 0; measure 0 -> 5; X 1 if bit 5` -/

/-- The operations. -/
def coinOps : List SOp :=
  [ { oid := 1, kind := .single .hadamard, qubits := [10] },
    { oid := 2, kind := .measurement, qubits := [10], bits := some [5] },
    { oid := 3, kind := .single .x, qubits := [11], cond := some [5] } ]

/-- The circuit. -/
def coin : SCircuit := { qubits := [10, 11], ops := coinOps }

theorem coin_good : GoodQubits coin := ⟨by decide, by decide, by decide⟩
theorem coin_ops : ∀ op ∈ coin.ops, GateOp coin op ∨ MeasureOp coin op := by
  intro op h
  simp only [coin, coinOps, List.mem_cons, List.not_mem_nil, or_false] at h
  rcases h with rfl | rfl | rfl
  · exact .inl ⟨trivial, rfl, by decide, by decide⟩
  · exact .inr ⟨rfl, by decide⟩
  · exact .inl ⟨trivial, rfl, by decide, by decide⟩

/-- The two qubits. -/
def coin0 : Fin coin.qubits.length := (0 : Fin 2)
def coin1 : Fin coin.qubits.length := (1 : Fin 2)

/-- The two branches. -/
theorem coin_branches (bits : Nat → Option Bool) : ∃ hh xx, Base.hadamard.matrix = .ok hh ∧ Base.x.matrix = .ok xx ∧
    Branches coin coin.ops bits
      [⟨restrict [coin0] [false] ∘ applyGate coin0 (gateOf hh), [(5, false)]⟩,
       ⟨(applyGate coin1 (gateOf xx) ∘ restrict [coin0] [true]) ∘ applyGate coin0 (gateOf hh), [(5, true)]⟩] := by
  obtain ⟨hh, h1, -⟩ := library_cols (b := .hadamard) trivial
  obtain ⟨xx, h2, -⟩ := library_cols (b := .x) trivial
  refine ⟨hh, xx, h1, h2, ?_⟩
  have hX : Branches coin [{ oid := 3, kind := .single .x, qubits := [11], cond := some [5] }] (writeBits bits [(5, true)])
      [⟨id ∘ applyGate coin1 (gateOf xx), []⟩] := by
    refine .gate (ts := [coin1]) ?_ rfl (.single _ h2) .nil
    rintro ⟨bs, b, e1, e2, e3⟩
    cases e1
    rw [List.mem_singleton.1 e2] at e3
    simp [writeBits] at e3
  have hI : Branches coin [{ oid := 3, kind := .single .x, qubits := [11], cond := some [5] }] (writeBits bits [(5, false)])
      [⟨id, []⟩] := .blocked ⟨[5], 5, rfl, by simp, by simp [writeBits]⟩ .nil
  exact .gate (ts := [coin0]) (by rintro ⟨_, _, h, _⟩; cases h) rfl (.single _ h1)
    (.measure (ts := [coin0]) (L := fun ms => if ms = [true] then [⟨id ∘ applyGate coin1 (gateOf xx), []⟩] else [⟨id, []⟩])
      (by rintro ⟨_, _, h, _⟩; cases h) rfl rfl fun ms hms => by
        obtain ⟨m, rfl⟩ := List.length_eq_one_iff.1 hms
        cases m
        · exact hI
        · exact hX)

theorem coin_false {hh : Arr2} (h : Base.hadamard.matrix = .ok hh) (m : Bool) :
    restrict [0] [m] (applyGate 0 (gateOf hh) (zeroState 2)) = fun x => ((1 / Real.sqrt 2 : ℝ) : ℂ) * basisState (![m, false] : Spec.Basis 2) x := by
  cases h
  funext x
  have hx : x = ![x 0, x 1] := by ext i; fin_cases i <;> rfl
  rw [hx]
  generalize x 0 = a
  generalize x 1 = b
  have hs : (Real.sqrt 2 / 2 : ℝ) = 1 / Real.sqrt 2 := by
    have : Real.sqrt 2 * Real.sqrt 2 = 2 := Real.mul_self_sqrt (by norm_num)
    field_simp
    linarith
  rw [hs]
  cases a <;> cases b <;> cases m <;> simp [restrict, applyGate, zeroState, basisState, gateOf, funext_iff, Fin.forall_fin_two]

theorem coin_sum (φ φ' : State 2 ℂ) (h : φ = fun x => ((1 / Real.sqrt 2 : ℝ) : ℂ) * basisState (![false, false] : Spec.Basis 2) x)
    (h' : φ' = fun x => ((1 / Real.sqrt 2 : ℝ) : ℂ) * basisState (![true, true] : Spec.Basis 2) x) (bits : Nat → Option Bool) (m : Bool)
    {_ : Decidable (normalised φ = basisState (![m, m] : Spec.Basis 2) ∧ writeBits bits [(5, false)] 5 = some m)}
    {_ : Decidable (normalised φ' = basisState (![m, m] : Spec.Basis 2) ∧ writeBits bits [(5, true)] 5 = some m)} :
    ((if normalised φ = basisState (![m, m] : Spec.Basis 2) ∧ writeBits bits [(5, false)] 5 = some m then Spec.normSq φ else 0) +
      if normalised φ' = basisState (![m, m] : Spec.Basis 2) ∧ writeBits bits [(5, true)] 5 = some m then Spec.normSq φ' else 0) = 1 / 2 := by
  have hs2 : (0 : ℝ) < 1 / Real.sqrt 2 := by positivity
  have hn : (1 / Real.sqrt 2 : ℝ) ^ 2 * 1 = 1 / 2 := by
    rw [div_pow, Real.sq_sqrt (by norm_num)]
    norm_num
  have e0 : normalised (fun x => ((1 / Real.sqrt 2 : ℝ) : ℂ) * basisState (![false, false] : Spec.Basis 2) x) = _ := normalised_scale hs2 _
  have e0' : normalised (fun x => ((1 / Real.sqrt 2 : ℝ) : ℂ) * basisState (![true, true] : Spec.Basis 2) x) = _ := normalised_scale hs2 _
  rw [normalised_one (normSq_basisState _)] at e0 e0'
  subst h h'
  simp only [e0, e0', normSq_scale, normSq_basisState, hn]
  cases m <;> simp [writeBits]

/-- With probability 1/2 each, the bit is 0 and the state is |00>, or the bit is 1 and the state is |11>. -/
example (bits : Nat → Option Bool) (r : Nat → Record) (m : Bool) :
    chance 1 (fun u => ∃ w ψ, simulate u coin false bits r = .ok (some w) ∧ Stores false w.mem ψ ∧
      ψ = basisState (![m, m] : Spec.Basis 2) ∧ w.bits 5 = some m) = ENNReal.ofReal (1 / 2) := by
  obtain ⟨L, h1, h2⟩ := C99_distribution coin_good coin_ops bits r (N := 1) (by decide)
  obtain ⟨hh, xx, e1, e2, e3⟩ := coin_branches bits
  have := C99_unique coin_good.1 h1 e3
  subst this
  refine (h2 fun ψ vals => ψ = basisState (![m, m] : Spec.Basis 2) ∧ vals 5 = some m).trans ?_
  have g0 : restrict [0] [false] (applyGate 0 (gateOf hh) (zeroState 2)) = _ := coin_false e1 false
  have g1 : applyGate 1 (gateOf xx) (restrict [0] [true] (applyGate 0 (gateOf hh) (zeroState 2))) =
      fun x => ((1 / Real.sqrt 2 : ℝ) : ℂ) * basisState (![true, true] : Spec.Basis 2) x := by
    rw [coin_false e1 true, gateAct_scale (.single (1 : Fin 2) e2), applyGate_x_basisState e2]
    ext i
    fin_cases i <;> rfl
  congr 1
  show (_ : List ℝ).sum = _
  simp only [List.map_cons, List.map_nil, Function.comp_apply, List.sum_cons, List.sum_nil, add_zero]
  exact coin_sum _ _ g0 g1 bits m

end DG.Props
