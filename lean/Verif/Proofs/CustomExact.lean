import Verif.Proofs.UnitaryExact

/-!
# The parameters of custom operations
-/

namespace DG.Unitary
open Complex Spec Kernel DG.Sim

theorem popParams_rename (ρ : Nat → Nat) : ∀ (ps : List Param) (xs : List ℝ), popParams (ps.map (renameParam ρ)) xs = popParams ps xs
  | [], _ => rfl
  | .num x :: ps, xs => by
    show (do let (ps', vals') ← popParams (ps.map (renameParam ρ)) xs; pure (Param.num x :: ps', vals')) = _
    rw [popParams_rename ρ ps xs]; rfl
  | .var v :: ps, [] => rfl
  | .var v :: ps, x :: xs => by
    show (do let (ps', vals') ← popParams (ps.map (renameParam ρ)) xs; pure (Param.num x :: ps', vals')) = _
    rw [popParams_rename ρ ps xs]; rfl

theorem popParams_length : ∀ (ps : List Param) (xs : List ℝ) (r : _), popParams ps xs = .ok r → r.1.length = ps.length
  | [], _, _, h => by cases h; rfl
  | .num x :: ps, xs, r, h => by
    cases h1 : popParams ps xs with
    | error e => rw [popParams, h1] at h; cases h
    | ok r' =>
      rw [popParams, h1] at h
      cases h
      simp [popParams_length ps xs r' h1]
  | .var v :: ps, [], r, h => by cases h
  | .var v :: ps, x :: xs, r, h => by
    cases h1 : popParams ps xs with
    | error e => rw [popParams, h1] at h; cases h
    | ok r' =>
      rw [popParams, h1] at h
      cases h
      simp [popParams_length ps xs r' h1]

theorem params_rename (ρ : Nat → Nat) (b : Base) : params (renameBase ρ b) = (params b).map (renameParam ρ) := by
  cases b <;> rfl

theorem setParams_rename (ρ : Nat → Nat) (b : Base) (ps : List Param) (h : ps.length = (params b).length) :
    setParams (renameBase ρ b) ps = setParams b ps := by
  cases b with
  | rx p => match ps, h with | [a], _ => rfl
  | ry p => match ps, h with | [a], _ => rfl
  | rz p => match ps, h with | [a], _ => rfl
  | rotation p q r => match ps, h with | [a, b, c], _ => rfl
  | _ => rfl

theorem popOps_rename (ρ : Nat → Nat) : ∀ (ops : List UOp) (xs : List ℝ), popOps (ops.map (renameOp ρ)) xs = popOps ops xs := by
  intro ops
  induction ops with
  | nil => intro xs; rfl
  | cons op ops ih =>
    intro xs
    rw [List.map_cons]
    unfold popOps
    cases hk : op.kind with
    | single b =>
      have : renameOp ρ op = { op with kind := .single (renameBase ρ b) } := by unfold renameOp; rw [hk]
      rw [this]
      dsimp only
      rw [params_rename, popParams_rename]
      cases hp : popParams (params b) xs with
      | error e => rfl
      | ok r =>
        rw [ok_bind, ok_bind]
        rw [setParams_rename ρ b r.1 (popParams_length _ _ _ hp), pure_ok, ok_bind, ok_bind]
        dsimp only
        rw [ih]
    | controlled nc b =>
      have : renameOp ρ op = { op with kind := .controlled nc (renameBase ρ b) } := by unfold renameOp; rw [hk]
      rw [this]
      dsimp only
      rw [params_rename, popParams_rename]
      cases hp : popParams (params b) xs with
      | error e => rfl
      | ok r =>
        rw [ok_bind, ok_bind]
        rw [setParams_rename ρ b r.1 (popParams_length _ _ _ hp), pure_ok, ok_bind, ok_bind]
        dsimp only
        rw [ih]
    | _ =>
      have : renameOp ρ op = op := by obtain ⟨⟨_, _, _, _, _⟩, _, _⟩ := op; cases hk; rfl
      rw [this, hk]
      dsimp only
      rw [pure_ok, ok_bind, ok_bind]
      dsimp only
      rw [ih]

/-! ## Numbering -/

/-- Number the variables of parameters from `i` on. -/
def numberParams : Nat → List Param → List Param
  | _, [] => []
  | i, .num x :: ps => .num x :: numberParams i ps
  | i, .var _ :: ps => .var i :: numberParams (i + 1) ps

theorem numberParams_vars : ∀ (i : Nat) (ps : List Param), paramVars (numberParams i ps) = List.range' i (paramVars ps).length
  | _, [] => rfl
  | i, .num x :: ps => by
    show paramVars (numberParams i ps) = _
    rw [numberParams_vars i ps]; rfl
  | i, .var v :: ps => by
    show i :: paramVars (numberParams (i + 1) ps) = _
    rw [numberParams_vars (i + 1) ps]
    show _ = List.range' i ((paramVars ps).length + 1)
    rw [List.range'_succ]

theorem numberParams_length : ∀ (i : Nat) (ps : List Param), (numberParams i ps).length = ps.length
  | _, [] => rfl
  | i, .num x :: ps => by simp [numberParams, numberParams_length i ps]
  | i, .var v :: ps => by simp [numberParams, numberParams_length (i + 1) ps]

theorem numberParams_rename (g : Nat → Nat) : ∀ (i : Nat) (ps : List Param), (∀ k v, (paramVars ps)[k]? = some v → g (i + k) = v) →
    (numberParams i ps).map (renameParam g) = ps
  | _, [], _ => rfl
  | i, .num x :: ps, h => by
    show renameParam g (.num x) :: (numberParams i ps).map (renameParam g) = _
    rw [numberParams_rename g i ps h]; rfl
  | i, .var v :: ps, h => by
    show renameParam g (.var i) :: (numberParams (i + 1) ps).map (renameParam g) = _
    rw [numberParams_rename g (i + 1) ps (fun k u hu => by
      have := h (k + 1) u hu
      rwa [show i + (k + 1) = i + 1 + k by omega] at this)]
    have := h 0 v rfl
    rw [Nat.add_zero] at this
    show Param.var (g i) :: ps = _
    rw [this]

theorem base_eta (b : Base) : setParams b (params b) = b := by cases b <;> rfl

theorem params_set (b : Base) (ps : List Param) (h : ps.length = (params b).length) : params (setParams b ps) = ps := by
  cases b with
  | rx p => match ps, h with | [a], _ => rfl
  | ry p => match ps, h with | [a], _ => rfl
  | rz p => match ps, h with | [a], _ => rfl
  | rotation p q r => match ps, h with | [a, b, c], _ => rfl
  | _ => match ps, h with | [], _ => rfl

theorem rename_set (g : Nat → Nat) (b : Base) (ps : List Param) (h : ps.length = (params b).length) :
    renameBase g (setParams b ps) = setParams b (ps.map (renameParam g)) := by
  cases b with
  | rx p => match ps, h with | [a], _ => rfl
  | ry p => match ps, h with | [a], _ => rfl
  | rz p => match ps, h with | [a], _ => rfl
  | rotation p q r => match ps, h with | [a, b, c], _ => rfl
  | _ => match ps, h with | [], _ => rfl

/-- Number the variables of a single-qubit operation. -/
def numberBase (i : Nat) (b : Base) : Base := setParams b (numberParams i (params b))

theorem numberBase_vars (i : Nat) (b : Base) : baseVars (numberBase i b) = List.range' i (baseVars b).length := by
  rw [baseVars_eq, baseVars_eq, numberBase, params_set _ _ (numberParams_length ..), numberParams_vars]

theorem numberBase_rename (g : Nat → Nat) (i : Nat) (b : Base) (h : ∀ k v, (baseVars b)[k]? = some v → g (i + k) = v) :
    renameBase g (numberBase i b) = b := by
  rw [numberBase, rename_set _ _ _ (numberParams_length ..), numberParams_rename g i _ (by rw [← baseVars_eq]; exact h), base_eta]

/-- Number the variables of an operation. -/
def numberOp (i : Nat) (op : UOp) : UOp :=
  { op with kind := match op.kind with
      | .single b => .single (numberBase i b)
      | .controlled nc b => .controlled nc (numberBase i b)
      | k => k }

theorem numberOp_vars (i : Nat) (op : UOp) : opVars (numberOp i op) = List.range' i (opVars op).length := by
  unfold opVars numberOp
  cases op.kind with
  | single b => exact numberBase_vars i b
  | controlled nc b => exact numberBase_vars i b
  | _ => rfl

theorem numberOp_rename (g : Nat → Nat) (i : Nat) (op : UOp) (h : ∀ k v, (opVars op)[k]? = some v → g (i + k) = v) :
    renameOp g (numberOp i op) = op := by
  obtain ⟨⟨oid, kind, qs, bits, cond⟩, ctl, tgt⟩ := op
  unfold opVars at h
  unfold renameOp numberOp
  cases kind with
  | single b => dsimp only at h ⊢; rw [numberBase_rename g i b h]
  | controlled nc b => dsimp only at h ⊢; rw [numberBase_rename g i b h]
  | _ => rfl

/-- Number the variables of operations. -/
def numberOps : Nat → List UOp → List UOp
  | _, [] => []
  | i, op :: ops => numberOp i op :: numberOps (i + (opVars op).length) ops

theorem numberOps_vars : ∀ (i : Nat) (ops : List UOp), (numberOps i ops).flatMap opVars = List.range' i (ops.flatMap opVars).length
  | _, [] => rfl
  | i, op :: ops => by
    rw [numberOps, List.flatMap_cons, List.flatMap_cons, numberOp_vars, numberOps_vars, List.length_append, List.range'_append_1]

theorem numberOps_rename (g : Nat → Nat) : ∀ (i : Nat) (ops : List UOp), (∀ k v, (ops.flatMap opVars)[k]? = some v → g (i + k) = v) →
    (numberOps i ops).map (renameOp g) = ops
  | _, [], _ => rfl
  | i, op :: ops, h => by
    rw [List.flatMap_cons] at h
    rw [numberOps, List.map_cons, numberOp_rename g i op (fun k v hk => h k v (by
      rw [List.getElem?_append_left (List.getElem?_eq_some_iff.1 hk).1]; exact hk)),
      numberOps_rename g _ ops (fun k v hk => by
        have := h ((opVars op).length + k) v (by rw [List.getElem?_append_right (by omega), Nat.add_sub_cancel_left]; exact hk)
        rwa [← Nat.add_assoc] at this)]

theorem numbered_exists (ops : List UOp) : ∃ ops', Numbered ops ops' :=
  ⟨numberOps 0 ops, by rw [numberOps_vars, List.range_eq_range'], numberOps_rename _ 0 ops (fun k v hk => by rw [Nat.zero_add, hk]; rfl)⟩

/-! ## Too few values -/

theorem popParams_rest : ∀ (ps : List Param) (xs : List ℝ), (paramVars ps).length ≤ xs.length →
    ∃ ps', popParams ps xs = .ok (ps', xs.drop (paramVars ps).length)
  | [], xs, _ => ⟨[], rfl⟩
  | .num x :: ps, xs, h => by
    obtain ⟨ps', h1⟩ := popParams_rest ps xs h
    exact ⟨.num x :: ps', by rw [popParams, h1]; rfl⟩
  | .var v :: ps, [], h => by simp [paramVars] at h
  | .var v :: ps, x :: xs, h => by
    have h' : (paramVars ps).length ≤ xs.length := Nat.le_of_succ_le_succ h
    obtain ⟨ps', h1⟩ := popParams_rest ps xs h'
    exact ⟨.num x :: ps', by rw [popParams, h1]; rfl⟩

theorem popParams_few : ∀ (ps : List Param) (xs : List ℝ), xs.length < (paramVars ps).length → popParams ps xs = .error .indexError
  | [], xs, h => absurd h (Nat.not_lt_zero _)
  | .num x :: ps, xs, h => by rw [popParams, popParams_few ps xs h]; rfl
  | .var v :: ps, [], _ => rfl
  | .var v :: ps, x :: xs, h => by rw [popParams, popParams_few ps xs (Nat.lt_of_succ_lt_succ h)]; rfl

theorem popOps_few : ∀ (ops : List UOp) (xs : List ℝ), xs.length < (ops.flatMap opVars).length → popOps ops xs = .error .indexError := by
  intro ops
  induction ops with
  | nil => intro xs h; exact absurd h (Nat.not_lt_zero _)
  | cons op ops ih =>
    intro xs h
    rw [List.flatMap_cons, List.length_append] at h
    unfold popOps
    have step : ∀ b, baseVars b = opVars op → (∃ ps, popParams (params b) xs = .ok (ps, xs.drop (opVars op).length) ∧
        popOps ops (xs.drop (opVars op).length) = .error .indexError) ∨ popParams (params b) xs = .error .indexError := by
      intro b hb
      rw [baseVars_eq] at hb
      by_cases hl : (opVars op).length ≤ xs.length
      · obtain ⟨ps', h1⟩ := popParams_rest (params b) xs (by rw [hb]; exact hl)
        rw [hb] at h1
        exact .inl ⟨ps', h1, ih _ (by rw [List.length_drop]; omega)⟩
      · exact .inr (popParams_few _ _ (by rw [hb]; omega))
    cases hk : op.kind with
    | single b =>
      dsimp only
      rcases step b (by unfold opVars; rw [hk]) with ⟨ps, h1, h2⟩ | h1
      · rw [h1, ok_bind]; dsimp only; rw [pure_ok, ok_bind]; dsimp only; rw [h2]; rfl
      · rw [h1]; rfl
    | controlled nc b =>
      dsimp only
      rcases step b (by unfold opVars; rw [hk]) with ⟨ps, h1, h2⟩ | h1
      · rw [h1, ok_bind]; dsimp only; rw [pure_ok, ok_bind]; dsimp only; rw [h2]; rfl
      · rw [h1]; rfl
    | _ =>
      have hv : opVars op = [] := by unfold opVars; rw [hk]
      rw [hv, List.length_nil, Nat.zero_add] at h
      dsimp only
      rw [pure_ok, ok_bind]
      dsimp only
      rw [ih xs h]; rfl

end DG.Unitary
