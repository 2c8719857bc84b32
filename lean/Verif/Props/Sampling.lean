import Verif.Proofs.Sampling
import Verif.Props.Simulator

/-!
# Property C82: distribution of samples

`chance N E` is the probability of the event `E` for `N` independent random numbers, uniformly distributed in [0, 1); `expected N f` is an expected value;
`jointBorn` is the Born rule for several qubits (see `Spec/Sampling.lean`).
-/

noncomputable section

namespace DG.Props
open Spec Sim MeasureTheory

variable {n : Nat}

/-- The argument means the qubits `qs`, by their indices: it is the list of the indices, or missing and `qs` are the qubits that were measured. -/
def MeansQubits (r : Record) (qs : List (Fin n)) (arg : QubitArg) : Prop :=
  arg = .seq (qs.map fun t : Fin n => (t.val : Int)) ∨ arg = .none ∧ r.indices = qs.map Fin.val

/-- The bits as Python integers. -/
def ints (row : List Bool) : List Int := row.map fun b => (b.toNat : Int)

theorem ints_inj : Function.Injective ints := by
  apply List.map_injective_iff.2
  intro a b h
  cases a <;> cases b <;> first | rfl | (simp at h)

theorem sample_rows (hn : n ≤ 30) {r : Record} {mem : List ℂ} {ψ : State n ℂ} (hr : r.state = some mem) (hm : Stores false mem ψ) (h1 : Spec.normSq ψ = 1)
    {qs : List (Fin n)} (hne : qs ≠ []) {arg : QubitArg} (ha : MeansQubits r qs arg) (num : Nat) (u : Nat → ℝ) (hu : Uniform u) :
    sampleArg u r arg num = .ok (((List.range num).map fun k => (measureAll u qs (k * qs.length) ψ).1).map ints, r) := by
  obtain ⟨state, indices⟩ := r
  dsimp only at hr
  subst hr
  have key : ∀ l : List Nat, sample u { state := some mem, indices := l } (some (qs.map fun t : Fin n => (t.val : Int))) num =
      .ok (((List.range num).map fun k => (measureAll u qs (k * qs.length) ψ).1).map ints, { state := some mem, indices := l }) := by
    intro l
    unfold sample
    dsimp only
    have hlt : ¬ ∃ m, (qs.map fun t : Fin n => (t.val : Int)).max? = some m ∧ m ≥ (mem.length.log2 : Int) := by
      rw [max?_lt_iff, log2_length hm]
      rintro ⟨x, hx, hge⟩
      obtain ⟨t, _, rfl⟩ := List.mem_map.1 hx
      have := t.isLt
      omega
    cases hmax : (qs.map fun t : Fin n => (t.val : Int)).max? with
    | none =>
      rw [List.max?_eq_none_iff] at hmax
      exact absurd (List.map_eq_nil_iff.1 hmax) hne
    | some m =>
      dsimp only
      rw [if_neg (fun hge => hlt ⟨m, hmax, hge⟩), sampleLoop_ok hn u hu qs hm h1 num 0, ok_bind]
      simp only [Nat.zero_add, List.map_map]
      rfl
  rcases ha with rfl | ⟨rfl, hi⟩
  · exact key _
  · dsimp only at hi
    subst hi
    have hnone : sample u { state := some mem, indices := qs.map Fin.val } none num =
      sample u { state := some mem, indices := qs.map Fin.val } (some ((qs.map Fin.val).map Int.ofNat)) num := rfl
    unfold sampleArg
    dsimp only
    rw [hnone, List.map_map]
    exact key _

/-- C82: samples are independent, and each follows the Born rule: the probability that `sample(qubits, num_samples)` returns the given rows is the
product, over the rows, of the probabilities that the Born rule gives for measuring the qubits in the recorded state. -/
theorem C82_independent (hn : n ≤ 30) {r : Record} {mem : List ℂ} {ψ : State n ℂ} (hr : r.state = some mem) (hm : Stores false mem ψ)
    (h1 : Spec.normSq ψ = 1) {qs : List (Fin n)} (hne : qs ≠ []) {arg : QubitArg} (ha : MeansQubits r qs arg) (rows : List (List Bool))
    (hrows : ∀ row ∈ rows, row.length = qs.length) :
    chance (rows.length * qs.length) (fun u => sampleArg u r arg rows.length = .ok (rows.map ints, r)) =
      ENNReal.ofReal (rows.map fun row => jointBorn qs row ψ).prod := by
  refine chance_rows qs ψ h1 rows hrows fun u hu => ?_
  rw [sample_rows hn hr hm h1 hne ha rows.length u hu]
  simp only [Except.ok.injEq, Prod.mk.injEq, and_true]
  exact (List.map_injective_iff.2 ints_inj).eq_iff

/-- C82: the probabilities of the rows add up to 1, and those with 1 at position `j` to the probability that qubit `j` is 1. -/
theorem C82_marginal (qs : List (Fin n)) (ψ : State n ℂ) (j : Fin qs.length) :
    (∑ f : Fin qs.length → Bool, if f j = true then jointBorn qs (List.ofFn f) ψ else 0) = born qs[j] true ψ :=
  jointBorn_marginal qs j ψ

theorem join_chars (row : List Bool) : String.join (row.map (toString ∘ fun b => (b.toNat : Int))) = String.ofList (row.map fun b => if b then '1' else '0') := by
  induction row with
  | nil => rfl
  | cons b row ih =>
    rw [List.map_cons, String.join_cons, ih, List.map_cons]
    cases b <;> simp <;> rfl

/-- C82: `sample(..., as_bitstring=True)` returns the same samples, every row as a string of the characters 0 and 1. -/
theorem C82_bitstrings (u : Nat → ℝ) (r r' : Record) (arg : QubitArg) (num : Nat) (rows : List (List Bool))
    (h : sampleArg u r arg num = .ok (rows.map ints, r')) :
    sampleStrings u r arg num = .ok (rows.map fun row => String.ofList (row.map fun b => if b then '1' else '0'), r') := by
  unfold sampleStrings
  rw [h]
  dsimp only
  congr 2
  unfold bitstrings
  rw [List.map_map]
  apply List.map_congr_left
  intro row _
  simp only [Function.comp, ints, List.map_map]
  exact join_chars row

/-- The entries of `expval`: averages. -/
theorem means_rows (rows : List (List Bool)) (m : Nat) (hne : rows ≠ []) (hrows : ∀ row ∈ rows, row.length = m) :
    means (rows.map ints) = .ok ((List.range m).map fun j => (rows.map fun row => if row.getD j false then (1 : ℝ) else 0).sum / rows.length) := by
  cases rows with
  | nil => exact absurd rfl hne
  | cons row rows =>
    simp only [List.map_cons, means]
    congr 1
    have hl : (ints row).length = m := by simp [ints, hrows row (by simp)]
    rw [hl]
    apply List.map_congr_left
    intro j _
    have hg : ∀ row : List Bool, (((ints row).getD j 0 : Int) : ℝ) = if row.getD j false then (1 : ℝ) else 0 := by
      intro row
      simp only [ints, List.getD_eq_getElem?_getD, List.getElem?_map]
      cases row[j]? with
      | none => simp
      | some b => cases b <;> simp
    simp only [List.map_cons, List.map_map, Function.comp_def, hg, List.length_cons, List.length_map]

theorem expval_rows (hn : n ≤ 30) {r : Record} {mem : List ℂ} {ψ : State n ℂ} (hr : r.state = some mem) (hm : Stores false mem ψ)
    (h1 : Spec.normSq ψ = 1) {qs : List (Fin n)} (hne : qs ≠ []) {arg : QubitArg} (ha : MeansQubits r qs arg) {num : Nat} (hnum : 1 ≤ num)
    (u : Nat → ℝ) (hu : Uniform u) :
    expval u r arg num = .ok ((List.range qs.length).map fun j =>
      ((List.range num).map fun k => outcomeAt u qs (k * qs.length) ψ j).sum / num, r) := by
  unfold expval
  rw [sample_rows hn hr hm h1 hne ha num u hu]
  dsimp only
  rw [means_rows _ qs.length]
  · dsimp only
    congr 2
    apply List.map_congr_left
    intro j _
    simp only [List.map_map, List.length_map, List.length_range]
    rfl
  · simp; omega
  · intro row h
    obtain ⟨k, _, rfl⟩ := List.mem_map.1 h
    exact measureAll_length u qs _ ψ

/-- C82: `expval(qubits, num_samples)` returns one number for every qubit, the fraction of the samples that are 1. -/
theorem C82_expval (hn : n ≤ 30) {r : Record} {mem : List ℂ} {ψ : State n ℂ} (hr : r.state = some mem) (hm : Stores false mem ψ)
    (h1 : Spec.normSq ψ = 1) {qs : List (Fin n)} (hne : qs ≠ []) {arg : QubitArg} (ha : MeansQubits r qs arg) {num : Nat} (hnum : 1 ≤ num)
    (u : Nat → ℝ) (hu : Uniform u) :
    ∃ rows : List (List Bool), sampleArg u r arg num = .ok (rows.map ints, r) ∧ rows.length = num ∧ (∀ row ∈ rows, row.length = qs.length) ∧
      expval u r arg num = .ok ((List.range qs.length).map fun j => ((rows.countP fun row => row.getD j false : Nat) : ℝ) / num, r) := by
  refine ⟨_, sample_rows hn hr hm h1 hne ha num u hu, by simp, ?_, ?_⟩
  · intro row h
    obtain ⟨k, _, rfl⟩ := List.mem_map.1 h
    exact measureAll_length u qs _ ψ
  · rw [expval_rows hn hr hm h1 hne ha hnum u hu]
    congr 2
    apply List.map_congr_left
    intro j _
    congr 1
    rw [List.countP_map]
    generalize List.range num = l
    induction l with
    | nil => simp
    | cons k l ih =>
      rw [List.map_cons, List.sum_cons, List.countP_cons, ih]
      simp only [outcomeAt, Function.comp]
      split <;> simp only [Nat.cast_add, Nat.cast_one, Nat.cast_zero, add_zero, zero_add, add_comm]

/-- C82: the expected value of entry `j` of `expval` is the probability that qubit `j` is found to be 1. -/
theorem C82_expected (hn : n ≤ 30) {r : Record} {mem : List ℂ} {ψ : State n ℂ} (hr : r.state = some mem) (hm : Stores false mem ψ)
    (h1 : Spec.normSq ψ = 1) {qs : List (Fin n)} {arg : QubitArg} (ha : MeansQubits r qs arg) {num : Nat} (hnum : 1 ≤ num) (j : Fin qs.length) :
    expected (num * qs.length) (fun u => match expval u r arg num with | .ok (l, _) => l.getD j 0 | .error _ => 0) = born qs[j] true ψ := by
  have hne : qs ≠ [] := by
    rintro rfl
    exact j.elim0
  rw [← expected_mean num hnum h1 j]
  unfold expected
  apply setIntegral_congr_fun (cube_measurable _)
  intro v hv
  dsimp only
  rw [expval_rows hn hr hm h1 hne ha hnum (stream v) (uniform_stream hv)]
  dsimp only
  rw [List.getD_eq_getElem?_getD, List.getElem?_map, List.getElem?_range j.isLt]
  rfl

/-- Gates don't read random numbers and don't write bits. -/
theorem exec_gates_any {c : SCircuit} {u : Nat → ℝ} {gates : List SOp} (hg : ∀ op ∈ gates, GateOp c op) {s s' : SimState c.qubits.length}
    (h : Exec c u gates s s') : (∀ u', Exec c u' gates s s') ∧ s'.bits = s.bits ∧ s'.drawn = s.drawn := by
  induction h with
  | nil => exact ⟨fun _ => .nil, rfl, rfl⟩
  | @cons op ops s s' s'' h1 _ ih =>
    obtain ⟨i1, i2, i3⟩ := ih fun o ho => hg o (by simp [ho])
    cases h1 with
    | blocked hb => exact ⟨fun u' => .cons (.blocked hb) (i1 u'), i2, i3⟩
    | gate hb ht hf => exact ⟨fun u' => .cons (.gate hb ht hf) (i1 u'), i2, i3⟩
    | measure _ hk _ =>
      have := (hg op (by simp)).1
      rw [hk] at this
      exact this.elim

/-- C82: a circuit of gates with a measurement at the end: the probability of the bits that `simulate` stores is given by the Born rule for the state
after the gates. -/
theorem C82_simulated {qs : List Nat} {gates : List SOp} {m : SOp} {bs : List Nat} (hq : GoodQubits ⟨qs, gates ++ [m]⟩)
    (hg : ∀ op ∈ gates, GateOp ⟨qs, gates ++ [m]⟩ op) {ts : List (Fin qs.length)} (hk : m.kind = .measurement) (hts : m.qubits = ts.map fun i => qs[i])
    (hc : m.cond = none) (hbs : m.bits = some bs) (hnd : bs.Nodup) (hl : bs.length = ts.length) (bits : Nat → Option Bool) (records : Nat → Record) :
    ∃ ψ : State qs.length ℂ, (∀ u, Exec ⟨qs, gates ++ [m]⟩ u gates ⟨zeroState _, bits, 0⟩ ⟨ψ, bits, 0⟩) ∧ Spec.normSq ψ = 1 ∧
      ∀ row : List Bool, row.length = ts.length →
        chance ts.length (fun u => ∃ w, simulate u ⟨qs, gates ++ [m]⟩ false bits records = .ok (some w) ∧ bs.map w.bits = row.map some) =
          ENNReal.ofReal (jointBorn ts row ψ) := by
  set c : SCircuit := ⟨qs, gates ++ [m]⟩ with hcdef
  obtain ⟨w0, s0, -, e2, -, -, -, -, e7⟩ := loop_gates hq (fun _ => 0) false gates hg
    { mem := initialState c.qubits.length, bits := bits, drawn := 0, records := records } ⟨zeroState _, bits, 0⟩
    (stores_initial false) rfl rfl
  rw [normSq_zeroState] at e7
  obtain ⟨f1, f2, f3⟩ := exec_gates_any hg e2
  obtain ⟨ψ, bits', d⟩ := s0
  dsimp only at f2 f3 e7
  subst f2 f3
  refine ⟨ψ, f1, e7, fun row hrow => ?_⟩
  have hops : ∀ op ∈ c.ops, GateOp c op ∨ MeasureOp c op := by
    intro op h
    rcases List.mem_append.1 h with h | h
    · exact .inl (hg op h)
    · rw [List.mem_singleton.1 h]
      refine .inr ⟨hk, ?_⟩
      rw [hts]
      intro q hq
      obtain ⟨i, _, rfl⟩ := List.mem_map.1 hq
      exact List.getElem_mem _
  have hts' : m.qubits = List.map (qubitAt c) (ts : List (Fin c.qubits.length)) := hts
  have hev : ∀ v ∈ cube ts.length, (∃ w, simulate (stream v) c false bits' records = .ok (some w) ∧ bs.map w.bits = row.map some) ↔
      (measureAll (stream v) ts 0 ψ).1 = row := by
    intro v hv
    obtain ⟨w, s, g1, g2, -, g4, -, -⟩ := simulate_all hq hops (stream v) (uniform_stream hv) bits' records
    have hstep : Exec c (stream v) c.ops ⟨zeroState _, bits', 0⟩ _ :=
      exec_append.2 ⟨_, f1 (stream v), .cons (.measure (ts := ts) (by rintro ⟨_, _, h, _⟩; rw [hc] at h; cases h) hk hts') .nil⟩
    have hs := exec_det hq.1 g2 hstep
    subst hs
    have hb : bs.map w.bits = (measureAll (stream v) ts 0 ψ).1.map some := by
      rw [g4]
      simp only [hbs, Option.getD_some]
      exact writeBits_get _ _ _ hnd (by rw [measureAll_length, hl])
    constructor
    · rintro ⟨w', h1, h2⟩
      rw [g1] at h1
      cases h1
      rw [hb] at h2
      exact List.map_injective_iff.2 (Option.some_injective _) h2
    · intro h
      exact ⟨w, g1, by rw [hb, h]⟩
  rw [← chance_row (N := ts.length) (k := 0) (ts := ts) (by simp) e7 hrow]
  unfold chance
  congr 1
  ext v
  simp only [Set.mem_ofPred_eq]
  exact and_congr_right (hev v)

/-- C82 is violated: the signature of `expval` asks for the index of a qubit; but with an index `TypeError` is raised, for every measurement that
has a state. -/
theorem C82_index_violated (u : Nat → ℝ) (r : Record) (mem : List ℂ) (hr : r.state = some mem) (q : Int) (num : Nat) :
    expval u r (.index q) num = .error .typeError := by
  simp [expval, sampleArg, hr]

/-- C82: `sample` and `expval` of a measurement that was not simulated raise `CircuitError`, and `expval` without samples raises `ValueError`. -/
theorem C82_errors (u : Nat → ℝ) (r : Record) (arg : QubitArg) (num : Nat) :
    (r.state = none → sampleArg u r arg num = .error .circuitError ∧ expval u r arg num = .error .circuitError) ∧
    ∀ (mem : List ℂ) (l : List (List Int)) (r' : Record), r.state = some mem → sampleArg u r arg 0 = .ok (l, r') →
      expval u r arg 0 = .error .valueError := by
  constructor
  · intro h
    have hs : sampleArg u r arg num = .error .circuitError := by
      cases arg <;> simp [sampleArg, sample, h]
    exact ⟨hs, by simp [expval, hs]⟩
  · intro mem l r' h hs
    have hl : l = [] := by
      cases arg with
      | index q => simp [sampleArg, h] at hs
      | none =>
        simp only [sampleArg, sample, h] at hs
        split at hs
        · cases hs
        · split at hs
          · cases hs
          · simp only [sampleLoop, bind, Except.bind, pure, Except.pure, Except.ok.injEq, Prod.mk.injEq] at hs
            exact hs.1.symm
      | seq q =>
        simp only [sampleArg, sample, h] at hs
        split at hs
        · cases hs
        · split at hs
          · cases hs
          · simp only [sampleLoop, bind, Except.bind, pure, Except.pure, Except.ok.injEq, Prod.mk.injEq] at hs
            exact hs.1.symm
    subst hl
    simp [expval, hs, means]

/-! ## Example: the state (|00> + |11>) / √2 -/

/-- The state. -/
def bell : State 2 ℂ := fun x => if x 0 = x 1 then ((1 / Real.sqrt 2 : ℝ) : ℂ) else 0

/-- A measurement of both qubits in this state. -/
def bellRecord : Record := { state := some [((1 / Real.sqrt 2 : ℝ) : ℂ), 0, 0, ((1 / Real.sqrt 2 : ℝ) : ℂ)], indices := [0, 1] }

theorem sum_two (f : (Fin 2 → Bool) → ℝ) : ∑ x, f x = f ![false, false] + f ![false, true] + f ![true, false] + f ![true, true] := by
  rw [← (finTwoArrowEquiv Bool).symm.sum_comp, Fintype.sum_prod_type]
  simp [finTwoArrowEquiv]
  ring

theorem bell_stores : Stores false [((1 / Real.sqrt 2 : ℝ) : ℂ), 0, 0, ((1 / Real.sqrt 2 : ℝ) : ℂ)] bell := by
  refine ⟨rfl, fun x => ?_⟩
  have : x = ![x 0, x 1] := by ext i; fin_cases i <;> rfl
  rw [this]
  generalize x 0 = a
  generalize x 1 = b
  cases a <;> cases b <;> rfl

theorem bell_amp : Complex.normSq ((1 / Real.sqrt 2 : ℝ) : ℂ) = 1 / 2 := by
  rw [Complex.normSq_ofReal, div_mul_div_comm, Real.mul_self_sqrt (by norm_num)]
  norm_num

theorem bell_norm : Spec.normSq bell = 1 := by
  unfold Spec.normSq
  rw [sum_two]
  simp only [bell, Matrix.cons_val_zero, Matrix.cons_val_one, if_true, Bool.false_eq_true, Bool.true_eq_false, if_false, bell_amp, map_zero]
  norm_num

theorem bell_joint (a b : Bool) : jointBorn [0, 1] [a, b] bell = if a = b then 1 / 2 else 0 := by
  unfold jointBorn
  rw [sum_two]
  cases a <;> cases b <;> simp [bell, -one_div, bell_amp]

/-- Both qubits agree in every sample, and the common values of different samples are independent coin flips. -/
example (coins : List Bool) : chance (coins.length * 2) (fun u => sampleArg u bellRecord .none coins.length =
    .ok (coins.map fun b => [(b.toNat : Int), b.toNat], bellRecord)) = ENNReal.ofReal ((1 / 2) ^ coins.length) := by
  have h := C82_independent (n := 2) (by norm_num) (r := bellRecord) rfl bell_stores bell_norm (qs := [0, 1]) (by simp) (arg := .none)
    (.inr ⟨rfl, rfl⟩) (coins.map fun b => [b, b]) (by
      intro row h
      obtain ⟨b, _, rfl⟩ := List.mem_map.1 h
      rfl)
  simp only [List.map_map, List.length_map, Function.comp_def, bell_joint, if_true, List.length_cons, List.length_nil] at h
  simpa [ints] using h

/-- The expected values are 1/2. -/
example (j : Fin 2) : expected (1000 * 2) (fun u => match expval u bellRecord (.seq [0, 1]) 1000 with | .ok (l, _) => l.getD j 0 | .error _ => 0) = 1 / 2 := by
  have h := C82_expected (n := 2) (by norm_num) (r := bellRecord) rfl bell_stores bell_norm (qs := [0, 1]) (arg := .seq [0, 1])
    (.inl rfl) (num := 1000) (by norm_num) j
  refine h.trans ?_
  unfold born
  rw [sum_two]
  fin_cases j <;> simp [bell, -one_div]

/-- A circuit that meets the hypotheses of `C82_simulated`: `H 10; CX 10 11; measure 10 11 -> 5 6`. -/
example (bits : Nat → Option Bool) (records : Nat → Record) :
    ∃ ψ : State 2 ℂ, Spec.normSq ψ = 1 ∧ ∀ a b, chance 2 (fun u => ∃ w, simulate u ⟨[10, 11], demoOps.take 2 ++ [{ oid := 4, kind := .measurement, qubits := [10, 11], bits := some [5, 6] }]⟩
      false bits records = .ok (some w) ∧ w.bits 5 = some a ∧ w.bits 6 = some b) = ENNReal.ofReal (jointBorn [0, 1] [a, b] ψ) := by
  obtain ⟨ψ, -, h1, h2⟩ := C82_simulated (qs := [10, 11]) (gates := demoOps.take 2) (m := { oid := 4, kind := .measurement, qubits := [10, 11], bits := some [5, 6] })
    (bs := [5, 6]) ⟨by decide, by decide, by decide⟩ (by
      intro op h
      simp only [demoOps, List.take_succ_cons, List.take_zero, List.mem_cons, List.not_mem_nil, or_false] at h
      rcases h with rfl | rfl
      · exact ⟨trivial, rfl, by decide, by decide⟩
      · exact ⟨⟨rfl, trivial⟩, rfl, by decide, by decide⟩) (ts := [0, 1]) rfl rfl rfl rfl (by decide) rfl bits records
  refine ⟨ψ, h1, fun a b => ?_⟩
  have h := h2 [a, b] rfl
  simpa using h

end DG.Props
