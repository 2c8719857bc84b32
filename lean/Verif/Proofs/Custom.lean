import Verif.Spec.Custom
import Verif.Proofs.SimLength
import Verif.Proofs.UnitaryCircuit
import Verif.Proofs.SimDensity

/-! Operations made from circuits with one qubit: the kernel call with the product matrix is the sequence of the kernel calls. -/

noncomputable section

namespace DG
open Complex Sim Kernel Spec Props Unitary Custom

variable {n : Nat}

/-- The gates, one after the other, on qubit `t`. -/
def applyAll (t : Fin n) (A : List Arr2) (ψ : State n ℂ) : State n ℂ := A.foldl (fun ψ a => applyGate t (gateOf a) ψ) ψ

theorem applyAll_one : ∀ (A : List Arr2), ∃ G : Bool → Bool → ℂ, ∀ (n : Nat) (t : Fin n) (ψ : State n ℂ), applyAll t A ψ = applyGate t G ψ := by
  intro A
  induction A with
  | nil =>
    refine ⟨fun i j => if i = j then 1 else 0, fun n t ψ => ?_⟩
    funext x
    have : Function.update x t (x t) = x := Function.update_eq_self t x
    cases hx : x t <;> simp [applyAll, applyGate, hx] <;> rw [← hx, this]
  | cons a A ih =>
    obtain ⟨G, hG⟩ := ih
    refine ⟨fun i j => ∑ k, G i k * gateOf a k j, fun n t ψ => ?_⟩
    rw [← applyGate_comp, ← hG]
    rfl

theorem applyAll_conj (t : Fin n) (cj : Bool) : ∀ (A : List Arr2) (ψ : State n ℂ),
    applyAll t (A.map (conjIf cj)) ψ = conjAct cj (applyAll t A) ψ := by
  intro A
  induction A with
  | nil => intro ψ; cases cj <;> simp [applyAll, conjAct]
  | cons a A ih =>
    intro ψ
    show applyAll t (A.map (conjIf cj)) (applyGate t (gateOf (conjIf cj a)) ψ) = _
    rw [ih, applyGate_conj]
    cases cj
    · rfl
    · simp [conjAct, applyAll]

theorem applyGate_comm {t t' : Fin n} (h : t ≠ t') (G H : Bool → Bool → ℂ) (ψ : State n ℂ) :
    applyGate t G (applyGate t' H ψ) = applyGate t' H (applyGate t G ψ) := by
  funext x
  simp only [applyGate, Fintype.sum_bool, Function.update_of_ne h, Function.update_of_ne h.symm, Function.update_comm h]
  ring

theorem applyAll_comm {t t' : Fin n} (h : t ≠ t') (G : Bool → Bool → ℂ) : ∀ (A : List Arr2) (ψ : State n ℂ),
    applyGate t' G (applyAll t A ψ) = applyAll t A (applyGate t' G ψ) := by
  intro A
  induction A with
  | nil => intro ψ; rfl
  | cons a A ih =>
    intro ψ
    show applyGate t' G (applyAll t A (applyGate t (gateOf a) ψ)) = applyAll t A (applyGate t (gateOf a) (applyGate t' G ψ))
    rw [ih, applyGate_comm h]

theorem foldlM_single {α β : Type} (f : β → α → Except Err β) (b : β) (a : α) : [a].foldlM f b = f b a := by
  rw [List.foldlM_cons]
  cases f b a <;> rfl

/-- The operations and the matrices. -/
def Gates (L : List SOp) (A : List Arr2) : Prop :=
  List.Forall₂ (fun (o : SOp) (a : Arr2) => ∃ b, o.kind = .single b ∧ Library b ∧ b.matrix = .ok a) L A

theorem fold_gates (hn : n ≤ 30) (u : Nat → ℝ) (t : Fin n) (le cj : Bool) (cond : Option (List Nat)) : ∀ {L : List SOp} {A : List Arr2},
    Gates L A → (∀ o ∈ L, o.cond = cond) → ∀ (w : World) {ψ : State n ℂ}, Stores le w.mem ψ →
    isBlocked { oid := 0, kind := .opaque, qubits := [], cond := cond } w.bits = false →
    ∃ mem', L.foldlM (fun w o => applyInstruction u n o [t.val] le cj w) w = .ok { w with mem := mem' } ∧
      Stores le mem' (applyAll t (A.map (conjIf cj)) ψ) := by
  intro L A h
  induction h with
  | nil => intro _ w ψ hm _; exact ⟨w.mem, rfl, hm⟩
  | @cons o a L A ho hL ih =>
    intro hc w ψ hm hb
    obtain ⟨b, k1, k2, k3⟩ := ho
    have hb' : isBlocked o w.bits = false := by
      rw [← hb]; unfold isBlocked; rw [hc o (by simp)]
    obtain ⟨m1, e1, e2⟩ := apply_gate_ok hn u o (ts := [t]) (f := applyGate t (gateOf a)) (by rw [k1]; exact .single t k3)
      (by rw [k1]; exact usable_of_library k2) le cj w hm hb'
    rw [← applyGate_conj] at e2
    obtain ⟨m2, e3, e4⟩ := ih (fun o ho => hc o (by simp [ho])) { w with mem := m1 } e2 hb
    refine ⟨m2, ?_, e4⟩
    rw [List.foldlM_cons]
    have e1' : applyInstruction u n o [t.val] le cj w = .ok { w with mem := m1 } := e1
    rw [e1', ok_bind]
    exact e3

theorem fold_blocked (u : Nat → ℝ) (m : Nat) (ts : List Nat) (le cj : Bool) (cond : Option (List Nat)) : ∀ (L : List SOp),
    (∀ o ∈ L, o.cond = cond) → ∀ (w : World), isBlocked { oid := 0, kind := .opaque, qubits := [], cond := cond } w.bits = true →
    L.foldlM (fun w o => applyInstruction u m o ts le cj w) w = .ok w := by
  intro L
  induction L with
  | nil => intro _ w _; rfl
  | cons o L ih =>
    intro hc w hb
    have hb' : isBlocked o w.bits = true := by
      rw [← hb]; unfold isBlocked; rw [hc o (by simp)]
    rw [List.foldlM_cons, apply_blocked _ _ _ _ _ _ _ hb', ok_bind]
    exact ih (fun o ho => hc o (by simp [ho])) w hb

theorem gateN_of_acts {M : NMat} {G : Bool → Bool → ℂ} (h : ActsAs 1 M (applyGate 0 G)) : gateN M = G := by
  have hi : ∀ b : Bool, index false (fun _ : Fin 1 => b) = b.toNat := by decide
  funext i j
  have := h.2 (fun y => if y = fun _ => j then 1 else 0) (fun _ => i)
  simp only [mul_ite, mul_one, mul_zero, Finset.sum_ite_eq', Finset.mem_univ, if_true, hi] at this
  unfold gateN
  rw [← this]
  have hu : ∀ b b' : Bool, Function.update (fun _ : Fin 1 => b) 0 b' = fun _ => b' := by decide
  have hf : ∀ b b' : Bool, ((fun _ : Fin 1 => b) = fun _ => b') ↔ b = b' := by decide
  simp only [applyGate, hu, hf, mul_ite, mul_one, mul_zero, Finset.sum_ite_eq', Finset.mem_univ, if_true]

theorem flat_two {M : NMat} (h : M.dim = 2) : flat M = [M.e 0 0, M.e 0 1, M.e 1 0, M.e 1 1] := by
  unfold flat
  rw [h]
  rfl

/-- What a custom operation that stands for `L` does. -/
theorem standsFor_array {op : CustomOp} {L : List SOp} (h : StandsFor op L) : ∃ A G M, Gates L A ∧
    (∀ (n : Nat) (t : Fin n) (ψ : State n ℂ), applyAll t A ψ = applyGate t G ψ) ∧
    customMatrix op.circuit op.parametric op.params = .ok M ∧ M.dim = 2 ∧ gateN M = G ∧ op.circuit.ops ≠ [] := by
  obtain ⟨q, p, ops, h1, h2, h3, h4, h5, h6⟩ := h
  have hA : ∃ A, List.Forall₂ (fun (o : UOp) (a : Arr2) => ∃ b, o.kind = .single b ∧ Library b ∧ b.matrix = .ok a) ops A := by
    clear h4 h5
    induction ops with
    | nil => exact ⟨[], .nil⟩
    | cons o ops ih =>
      obtain ⟨A, hA⟩ := ih fun o ho => h6 o (by simp [ho])
      obtain ⟨-, -, b, hb, hl⟩ := h6 o (by simp)
      obtain ⟨a, ha, -⟩ := library_cols hl
      exact ⟨a :: A, .cons ⟨b, hb, hl, ha⟩ hA⟩
  obtain ⟨A, hA⟩ := hA
  obtain ⟨G, hG⟩ := applyAll_one A
  have hcomp : ∀ c : UCircuit, c.qubits = [p] → ∀ (t : Fin c.qubits.length) , Composed c ops (applyAll t A) := by
    rintro ⟨qs, os⟩ rfl t
    dsimp only at t ⊢
    have ht : t = (0 : Fin 1) := Subsingleton.elim (α := Fin 1) t 0
    subst ht
    clear h4 h5 hG
    induction hA with
    | nil => exact .nil
    | @cons o a ops A ho _ ih =>
      obtain ⟨b, k1, k2, k3⟩ := ho
      have := ih fun o ho => h6 o (by simp [ho])
      exact .cons (Means.single (c := ⟨[p], os⟩) (0 : Fin 1) k1 k3 (h6 o (by simp)).1) this
  have hfin : ∃ M, customMatrix op.circuit op.parametric op.params = .ok M ∧ M.dim = 2 ∧ gateN M = G := by
    obtain ⟨sop, cq, c, par, ps⟩ := op
    obtain ⟨qs, os⟩ := c
    dsimp only at h3 ⊢
    subst h3
    have key : ∀ (f : _), Composed ⟨[p], ops⟩ ops f → f = applyAll (0 : Fin 1) A → ∃ M, buildUnitary ⟨[p], ops⟩ = .ok M ∧ M.dim = 2 ∧ gateN M = G := by
      intro f hf e
      obtain ⟨M, e1, e2⟩ := buildUnitary_acts (c := ⟨[p], ops⟩) (by simp) hf
      refine ⟨M, e1, e2.1, gateN_of_acts ?_⟩
      rw [e] at e2
      have : applyAll (0 : Fin 1) A = applyGate 0 G := funext fun ψ => hG 1 0 ψ
      rw [← this]
      exact e2
    obtain ⟨M, e1, e2, e3⟩ := key _ (hcomp ⟨[p], ops⟩ rfl (0 : Fin 1)) rfl
    refine ⟨M, ?_, e2, e3⟩
    rw [← e1]
    cases h4 with
    | plain hp =>
      have hp' : par = false := hp
      subst hp'
      rfl
    | parametric σ hp hv =>
      have hp' : par = true := hp
      subst hp'
      have k := popOps_ok σ os []
      rw [show (os.flatMap opVars).map σ = ps from hv, List.append_nil] at k
      have e : customMatrix ⟨[p], os⟩ true ps = (popOps os ps >>= fun r => buildUnitary { (⟨[p], os⟩ : UCircuit) with ops := r.1 }) := rfl
      show customMatrix ⟨[p], os⟩ true ps = _
      rw [e, k, ok_bind]
  obtain ⟨M, e1, e2, e3⟩ := hfin
  refine ⟨A, G, M, ?_, hG, e1, e2, e3, ?_⟩
  · unfold Gates
    rw [List.forall₂_map_left_iff]
    exact hA
  · cases h4 with
    | plain _ => exact h5
    | parametric σ _ _ => intro e; rw [e] at h5; exact h5 rfl

/-- The array of the matrix with entries `G`. -/
def arrOf (G : Bool → Bool → ℂ) : Arr2 := ⟨G false false, G false true, G true false, G true true, true, true⟩

theorem gateOf_arrOf (G : Bool → Bool → ℂ) : gateOf (arrOf G) = G := by
  funext i j; cases i <;> cases j <;> rfl

/-- One call of the kernel is the sequence of calls. -/
theorem applyCustom_inline (hn : n ≤ 30) (u : Nat → ℝ) {op : CustomOp} {L : List SOp} (h : StandsFor op L) (t : Fin n) (le cj : Bool) (w : World)
    (hm : w.mem.length = 2 ^ n) :
    applyCustom n op [t.val] le cj w = L.foldlM (fun w o => applyInstruction u n o [t.val] le cj w) w := by
  obtain ⟨A, G, M, h1, h2, h3, h4, h5, h6⟩ := standsFor_array h
  have hcq : op.classQubits = 1 := by cases h; assumption
  have hcond : ∀ o ∈ L, o.cond = op.cond := by
    cases h
    intro o ho
    obtain ⟨x, -, rfl⟩ := List.mem_map.1 ho
    rfl
  have hbe : isBlocked op.toSOp w.bits = isBlocked { oid := 0, kind := .opaque, qubits := [], cond := op.cond } w.bits := rfl
  unfold applyCustom
  cases hb : isBlocked op.toSOp w.bits
  · rw [hbe] at hb
    obtain ⟨ψ, hψ⟩ := exists_stores le hm
    obtain ⟨m1, e1, e2⟩ := fold_gates hn u t le cj op.cond h1 hcond w hψ hb
    obtain ⟨m2, e3, e4⟩ := kernel2 (N := ℝ) Complex.normSq singleQubit rfl rfl rfl rfl rfl le hn t [] (by simp) rfl
      (conjIf cj (arrOf G)).e00 (conjIf cj (arrOf G)).e01 (conjIf cj (arrOf G)).e10 (conjIf cj (arrOf G)).e11 1 w.mem ψ hψ
    rw [applyControlled_nil, mat2_gateOf, applyGate_conj, gateOf_arrOf] at e4
    rw [applyAll_conj, show applyAll t A = applyGate t G from funext fun ψ => h2 n t ψ] at e2
    rw [e1, ← stores_unique e4 e2]
    have harr : customArray op cj = .ok [(conjIf cj (arrOf G)).e00, (conjIf cj (arrOf G)).e01, (conjIf cj (arrOf G)).e10, (conjIf cj (arrOf G)).e11] := by
      unfold customArray
      rw [h3, ok_bind, if_neg (by simpa using h6), flat_two h4, ← h5]
      cases cj <;> rfl
    have := callKernel_eq e3
    simp only [List.map_cons, List.map_nil] at this
    simp only [Bool.false_eq_true, if_false, hcq, ne_eq, not_true, harr, ok_bind, item0, this, pure_ok]
  · rw [hbe] at hb
    rw [fold_blocked u n [t.val] le cj op.cond L hcond w hb]
    rfl

/-- Gates on `t` and, conjugated, on `t'`: one gate after the other, or first all on `t`. -/
theorem fold_both (hn : n ≤ 30) (u : Nat → ℝ) {t t' : Fin n} (ht : t ≠ t') (cond : Option (List Nat)) : ∀ {L : List SOp} {A : List Arr2},
    Gates L A → (∀ o ∈ L, o.cond = cond) → ∀ (w : World) {ψ : State n ℂ}, Stores false w.mem ψ →
    isBlocked { oid := 0, kind := .opaque, qubits := [], cond := cond } w.bits = false →
    ∃ mem', L.foldlM (fun w o => applyInstruction u n o [t.val] false false w >>= fun w1 => applyInstruction u n o [t'.val] false true w1) w =
        .ok { w with mem := mem' } ∧ Stores false mem' (applyAll t' (A.map (conjIf true)) (applyAll t A ψ)) := by
  intro L A h
  induction h with
  | nil => intro _ w ψ hm _; exact ⟨w.mem, rfl, hm⟩
  | @cons o a L A ho hL ih =>
    intro hc w ψ hm hb
    obtain ⟨m1, e1, e2⟩ := fold_gates hn u t false false cond (.cons ho .nil : Gates [o] [a]) (by simpa using hc o (by simp)) w hm hb
    obtain ⟨m2, e3, e4⟩ := fold_gates hn u t' false true cond (.cons ho .nil : Gates [o] [a]) (by simpa using hc o (by simp)) { w with mem := m1 } e2 hb
    rw [foldlM_single] at e1 e3
    obtain ⟨m3, e5, e6⟩ := ih (fun o ho => hc o (by simp [ho])) { w with mem := m2 } e4 hb
    refine ⟨m3, ?_, ?_⟩
    · rw [List.foldlM_cons, e1, ok_bind, e3, ok_bind]
      exact e5
    · have e : applyAll t A (applyAll t' [conjIf true a] (applyAll t [a] ψ)) = applyGate t' (gateOf (conjIf true a)) (applyAll t (a :: A) ψ) :=
        (applyAll_comm ht _ A _).symm
      have e6' : Stores false m3 (applyAll t' (A.map (conjIf true)) (applyAll t A (applyAll t' [conjIf true a] (applyAll t [a] ψ)))) := e6
      rw [e] at e6'
      exact e6'

theorem single_instructions : (singleQubit : OpSpec ℂ).instructions = [(0, [(0, .var 0 0), (1, .var 0 1)]), (1, [(0, .var 1 0), (1, .var 1 1)])] := by
  simp [OpSpec.instructions, singleQubit, compileGate, OpSpec.size, List.range_succ, Entry.nonzero, Entry.isOne]

/-- The kernel reads four numbers. -/
theorem run_take (le : Bool) (nq : BitVec 64) (mem gate : List ℂ) (ts cs : List (BitVec 64)) (fa : ℂ) (h : 4 ≤ gate.length) :
    run singleQubit Complex.normSq le nq mem gate ts cs fa = run singleQubit Complex.normSq le nq mem (gate.take 4) ts cs fa := by
  obtain ⟨a, b, c, d, r, rfl⟩ : ∃ a b c d r, gate = a :: b :: c :: d :: r := by
    rcases gate with _ | ⟨a, _ | ⟨b, _ | ⟨c, _ | ⟨d, r⟩⟩⟩⟩ <;> simp at h
    exact ⟨a, b, c, d, r, rfl⟩
  have hr : readGate (singleQubit : OpSpec ℂ) (a :: b :: c :: d :: r) = readGate singleQubit [a, b, c, d] := by
    have e : ∀ g : List ℂ, 4 ≤ g.length → readGate (singleQubit : OpSpec ℂ) g = .ok () := by
      intro g hg
      unfold readGate
      have : (((List.range (singleQubit : OpSpec ℂ).size).all fun i => (List.range (singleQubit : OpSpec ℂ).size).all fun j =>
          !(singleQubit : OpSpec ℂ).mask i j || decide (i * (singleQubit : OpSpec ℂ).size + j < g.length))) = true := by
        simp [OpSpec.size, singleQubit, List.range_succ]
        omega
      simp only [this, if_true]
      rfl
    rw [e _ (by simp), e _ (by simp)]
  have ha : ∀ amps, (singleQubit : OpSpec ℂ).instructions.mapM (ampResult singleQubit (a :: b :: c :: d :: r) fa amps) =
      (singleQubit : OpSpec ℂ).instructions.mapM (ampResult singleQubit [a, b, c, d] fa amps) := by
    intro amps
    rw [single_instructions]
    simp only [List.mapM_cons, List.mapM_nil, ampResult, term, Entry.value, OpSpec.size, singleQubit, Entry.isOne]
    rfl
  unfold run runOrder
  have hs : setup (singleQubit : OpSpec ℂ) le nq (a :: b :: c :: d :: r) ts cs = setup singleQubit le nq [a, b, c, d] ts cs := by
    unfold setup
    rw [hr]
  have hb : ∀ masks cmask tmask, body singleQubit Complex.normSq (a :: b :: c :: d :: r) fa masks cmask tmask =
      body singleQubit Complex.normSq [a, b, c, d] fa masks cmask tmask := by
    intro masks cmask tmask
    funext s pb
    unfold body
    simp only [ha]
  simp only [List.take_succ_cons, List.take_zero]
  rw [hs]
  simp only [hb]
theorem foldlM_congr {α β : Type} {f g : β → α → Except Err β} : ∀ (l : List α), (∀ a ∈ l, ∀ b, f b a = g b a) → ∀ b, l.foldlM f b = l.foldlM g b := by
  intro l
  induction l with
  | nil => intro _ b; rfl
  | cons a l ih =>
    intro h b
    rw [List.foldlM_cons, List.foldlM_cons, h a (by simp)]
    cases g b a with
    | error e => rfl
    | ok b' => exact ih (fun a ha => h a (by simp [ha])) b'

/-- Replacing every element of a list by several. -/
theorem foldlM_inline {α β γ : Type} {P : γ → Prop} {R : α → List β → Prop} {f : γ → α → Except Err γ} {g : γ → β → Except Err γ}
    (hg : ∀ w b w', P w → g w b = .ok w' → P w') (hs : ∀ a L w, R a L → P w → f w a = L.foldlM g w) :
    ∀ {l : List α} {LL : List (List β)}, List.Forall₂ R l LL → ∀ w, P w → l.foldlM f w = LL.flatten.foldlM g w := by
  intro l LL h
  induction h with
  | nil => intro w _; rfl
  | @cons a L l LL h1 _ ih =>
    intro w hw
    rw [List.foldlM_cons, List.flatten_cons, List.foldlM_append, hs a L w h1 hw]
    rcases e : L.foldlM g w with _ | w'
    · rfl
    · exact ih w' (foldlM_inv hg L hw e)

/-- The body of the state-vector loop on library operations. -/
def libStep (u : Nat → ℝ) (qs : List Nat) (le : Bool) (w : World) (op : SOp) : Except Err World := do
  let ts ← targetsOf ⟨qs, []⟩ op
  applyInstruction u qs.length op ts le false w

theorem loop_eq (u : Nat → ℝ) (qs : List Nat) (ops : List SOp) (le : Bool) (w : World) : loop u ⟨qs, ops⟩ le w = ops.foldlM (libStep u qs le) w := rfl

/-- The body of the density-matrix loop on library operations. -/
def libDensity (u : Nat → ℝ) (qs : List Nat) (w : World) (op : SOp) : Except Err World := densityStep u qs w (.lib op)

theorem densityLoop_eq (u : Nat → ℝ) (qs : List Nat) (ops : List SOp) (w : World) :
    densityLoop u ⟨qs, ops⟩ w = ops.foldlM (libDensity u qs) w := by
  unfold densityLoop
  refine foldlM_congr ops (fun op _ w => ?_) w
  unfold libDensity densityStep Instr.isMeasurement
  obtain ⟨oid, k, qubits, cond, bits⟩ := op
  cases k <;> rfl

theorem standsFor_shape {op : CustomOp} {L : List SOp} (h : StandsFor op L) : ∃ q, op.qubits = [q] ∧ L ≠ [] ∧
    (∀ o ∈ L, o.qubits = [q] ∧ o.cond = op.cond ∧ ∃ b, o.kind = .single b) := by
  obtain ⟨q, p, ops, h1, h2, h3, h4, h5, h6⟩ := h
  refine ⟨q, h1, by simpa using h5, fun o ho => ?_⟩
  obtain ⟨x, hx, rfl⟩ := List.mem_map.1 ho
  obtain ⟨-, -, b, hb, -⟩ := h6 x hx
  exact ⟨rfl, rfl, b, hb⟩

theorem foldlM_fails {α β : Type} {f : β → α → Except Err β} {e : Err} {l : List α} (hl : l ≠ []) (h : ∀ a ∈ l, ∀ b, f b a = .error e) (b : β) :
    l.foldlM f b = .error e := by
  cases l with
  | nil => exact absurd rfl hl
  | cons a l => rw [List.foldlM_cons, h a (by simp)]; rfl

theorem vector_custom {qs : List Nat} (hn : qs.length ≤ 30) (u : Nat → ℝ) (le : Bool) {op : CustomOp} {L : List SOp} (h : StandsFor op L) (w : World)
    (hm : w.mem.length = 2 ^ qs.length) : vectorStep u qs le w (.custom op) = L.foldlM (libStep u qs le) w := by
  obtain ⟨q, hq, hne, hL⟩ := standsFor_shape h
  unfold vectorStep targets Instr.qubits
  dsimp only
  rw [hq]
  by_cases hmem : q ∈ qs
  · simp only [List.mapM_cons, List.mapM_nil, hmem, if_true, ok_bind, pure_ok]
    have e : ∀ o ∈ L, ∀ w, libStep u qs le w o = applyInstruction u qs.length o [qs.idxOf q] le false w := by
      intro o ho w
      unfold libStep targetsOf
      rw [(hL o ho).1]
      simp only [List.mapM_cons, List.mapM_nil, hmem, if_true, ok_bind, pure_ok]
    rw [foldlM_congr L e]
    exact applyCustom_inline hn u h ⟨qs.idxOf q, List.idxOf_lt_length_of_mem hmem⟩ le false w hm
  · rw [foldlM_fails (e := .valueError) hne]
    · simp [hmem, bind, Except.bind]
    · intro o ho w
      unfold libStep targetsOf
      rw [(hL o ho).1]
      simp [hmem, bind, Except.bind]

theorem density_custom {qs : List Nat} (hn : 2 * qs.length ≤ 30) (u : Nat → ℝ) {op : CustomOp} {L : List SOp} (h : StandsFor op L) (w : World)
    (hm : w.mem.length = 2 ^ (2 * qs.length)) : densityStep u qs w (.custom op) = L.foldlM (libDensity u qs) w := by
  obtain ⟨q, hq, hne, hL⟩ := standsFor_shape h
  have hnm : ∀ o ∈ L, Instr.isMeasurement (.lib o) = false := by
    intro o ho
    obtain ⟨-, -, b, hb⟩ := hL o ho
    simp [Instr.isMeasurement, hb]
  unfold densityStep targets
  rw [show (Instr.custom op).qubits = [q] from hq, show (Instr.custom op).isMeasurement = false from rfl]
  by_cases hmem : q ∈ qs
  · simp only [List.mapM_cons, List.mapM_nil, hmem, if_true, ok_bind, pure_ok, Bool.false_eq_true, if_false, List.map_cons, List.map_nil]
    have e : ∀ o ∈ L, ∀ w, libDensity u qs w o = (applyInstruction u (2 * qs.length) o [qs.idxOf q] false false w >>= fun w1 =>
        applyInstruction u (2 * qs.length) o [qs.idxOf q + qs.length] false true w1) := by
      intro o ho w
      unfold libDensity densityStep targets
      rw [hnm o ho, show (Instr.lib o).qubits = [q] from (hL o ho).1]
      simp only [List.mapM_cons, List.mapM_nil, hmem, if_true, ok_bind, pure_ok, Bool.false_eq_true, if_false, List.map_cons, List.map_nil]
      rfl
    rw [foldlM_congr L e]
    have hlt := List.idxOf_lt_length_of_mem hmem
    let t : Fin (2 * qs.length) := ⟨qs.idxOf q, by omega⟩
    let t' : Fin (2 * qs.length) := ⟨qs.idxOf q + qs.length, by omega⟩
    have htt : t ≠ t' := by
      intro e
      have := congrArg Fin.val e
      simp only [t, t'] at this
      omega
    show (applyCustom (2 * qs.length) op [t.val] false false w >>= fun w1 => applyCustom (2 * qs.length) op [t'.val] false true w1) =
      L.foldlM (fun w o => applyInstruction u (2 * qs.length) o [t.val] false false w >>= fun w1 =>
        applyInstruction u (2 * qs.length) o [t'.val] false true w1) w
    rw [applyCustom_inline hn u h t false false w hm]
    obtain ⟨A, -, -, hA, -⟩ := standsFor_array h
    have hc : ∀ o ∈ L, o.cond = op.cond := fun o ho => (hL o ho).2.1
    cases hb : isBlocked { oid := 0, kind := .opaque, qubits := [], cond := op.cond } w.bits
    · obtain ⟨ψ, hψ⟩ := exists_stores false hm
      obtain ⟨m1, e1, e2⟩ := fold_gates hn u t false false op.cond hA hc w hψ hb
      have e2' : Stores false m1 (applyAll t A ψ) := by
        have : A.map (conjIf false) = A := by
          conv_rhs => rw [← List.map_id A]
          rfl
        rw [this] at e2
        exact e2
      obtain ⟨m2, e3, e4⟩ := fold_gates hn u t' false true op.cond hA hc { w with mem := m1 } e2' hb
      obtain ⟨m3, e5, e6⟩ := fold_both hn u htt op.cond hA hc w hψ hb
      rw [e1, ok_bind, applyCustom_inline hn u h t' false true _ e2'.1, e3, e5, stores_unique e4 e6]
    · rw [fold_blocked u _ [t.val] false false op.cond L hc w hb, ok_bind, applyCustom_inline hn u h t' false true _ hm,
        fold_blocked u _ [t'.val] false true op.cond L hc w hb]
      symm
      have hall : ∀ o ∈ L, isBlocked o w.bits = true := by
        intro o ho
        rw [← hb]; unfold isBlocked; rw [hc o ho]
      clear e hnm hL hne h hA hc
      induction L with
      | nil => rfl
      | cons o L ih =>
        rw [List.foldlM_cons, apply_blocked _ _ _ _ _ _ _ (hall o (by simp)), ok_bind, apply_blocked _ _ _ _ _ _ _ (hall o (by simp)), ok_bind]
        exact ih fun o ho => hall o (by simp [ho])
  · rw [foldlM_fails (e := .valueError) hne]
    · simp [hmem, bind, Except.bind]
    · intro o ho w
      unfold libDensity densityStep targets
      rw [hnm o ho, show (Instr.lib o).qubits = [q] from (hL o ho).1]
      simp [hmem, bind, Except.bind]

theorem libStep_length {u : Nat → ℝ} {qs : List Nat} {le : Bool} (w : World) (o : SOp) (w' : World) (h : w.mem.length = 2 ^ qs.length)
    (e : libStep u qs le w o = .ok w') : w'.mem.length = 2 ^ qs.length := by
  unfold libStep at e
  obtain ⟨ts, -, e⟩ := bind_ok e
  exact (applyInstruction_length e).trans h

theorem libDensity_length {u : Nat → ℝ} {qs : List Nat} (w : World) (o : SOp) (w' : World) (h : w.mem.length = 2 ^ (2 * qs.length))
    (e : libDensity u qs w o = .ok w') : w'.mem.length = 2 ^ (2 * qs.length) := by
  unfold libDensity densityStep at e
  split at e
  · cases e
  · obtain ⟨ts, -, e⟩ := bind_ok e
    obtain ⟨w1, e1, e⟩ := bind_ok e
    exact (applyInstruction_length e).trans ((applyInstruction_length e1).trans h)

theorem initialState_length (m : Nat) : (initialState m).length = 2 ^ m := by
  simp [initialState, Nat.shiftLeft_eq]

end DG
