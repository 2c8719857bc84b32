import Verif.Spec.QirMeaning
import Verif.Proofs.GateAct
import Verif.Spec.Run

/-! What QIR programs mean. -/

noncomputable section

namespace DG
open Spec Sim Complex
variable {n : Nat}

theorem gateOf_mat2 (a : Arr2) : gateOf a = mat2 a.e00 a.e01 a.e10 a.e11 := by
  funext i j; cases i <;> cases j <;> rfl

theorem sqrt_half : ((Real.sqrt 2 / 2 : ℝ)) = 1 / Real.sqrt 2 := by
  rw [eq_div_iff (by positivity), div_mul_eq_mul_div, Real.mul_self_sqrt (by norm_num)]; norm_num

/-- The gates of the base profile mean the same as gates of the library. -/
theorem qisGate_act {name callee : String} {np nq : Nat} (hb : (name, callee, np, nq) ∈ baseGates) {kk : OpKind} {xs : List ℝ} {sk : Kind}
    (hn : GateNamed name kk xs sk) {ts : List (Fin n)} {f : State n ℂ → State n ℂ} (hf : GateAct sk ts f) : QisGate callee xs ts f := by
  cases hn <;> simp [baseGates] at hb <;> obtain ⟨rfl, -⟩ := hb
  case x => cases hf with | single t ha => cases ha; rw [gateOf_mat2]; exact .x t
  case y => cases hf with | single t ha => cases ha; rw [gateOf_mat2]; simpa using QisGate.y t
  case z => cases hf with | single t ha => cases ha; rw [gateOf_mat2]; exact .z t
  case hadamard =>
    cases hf with
    | single t ha =>
      cases ha; rw [gateOf_mat2]
      have := QisGate.h t
      rw [← sqrt_half] at this
      simpa using this
  case s => cases hf with | single t ha => cases ha; rw [gateOf_mat2]; exact .s t
  case t =>
    cases hf with
    | single t ha =>
      cases ha; rw [gateOf_mat2]
      have := QisGate.t t
      rwa [← mul_div_assoc] at this
  case rx a =>
    cases hf with
    | single t ha => cases ha; rw [gateOf_mat2]; simpa using QisGate.rx a t
  case ry a =>
    cases hf with
    | single t ha => cases ha; rw [gateOf_mat2]; simpa using QisGate.ry a t
  case rz a =>
    cases hf with
    | single t ha =>
      cases ha; rw [gateOf_mat2]
      have := QisGate.rz a t
      rw [← mul_div_assoc, ← neg_div] at this
      simpa using this
  case cx =>
    cases hf with
    | controlled1 c t ha hc => cases ha; rw [gateOf_mat2]; exact .cnot hc
  case cz =>
    cases hf with
    | controlled1 c t ha hc => cases ha; rw [gateOf_mat2]; exact .cz hc

/-- Every gate of the base profile is a gate of the library, on the last qubit, controlled by the others. -/
theorem qisGate_form {f : String} {xs : List ℝ} {ts : List (Fin n)} {g : State n ℂ → State n ℂ} (h : QisGate f xs ts g) :
    ∃ (b : Base) (a : Arr2) (cs : List (Fin n)) (t : Fin n), Library b ∧ b.matrix = .ok a ∧ t ∉ cs ∧ ts = cs ++ [t] ∧ g = applyControlled cs t (gateOf a) := by
  have one : ∀ (t : Fin n) (G : Bool → Bool → ℂ), applyGate t G = applyControlled [] t G := by
    intro t G; funext ψ x; simp [applyControlled]
  have key : ∀ {b : Base} {a : Arr2} (t : Fin n) {G : Bool → Bool → ℂ}, Library b → b.matrix = .ok a → G = mat2 a.e00 a.e01 a.e10 a.e11 →
      ∃ (b : Base) (a : Arr2) (cs : List (Fin n)) (t' : Fin n), Library b ∧ b.matrix = .ok a ∧ t' ∉ cs ∧ [t] = cs ++ [t'] ∧
        applyGate t G = applyControlled cs t' (gateOf a) := by
    intro b a t G h1 h2 h3
    exact ⟨b, a, [], t, h1, h2, by simp, rfl, by rw [one, h3, gateOf_mat2]⟩
  cases h with
  | x t => exact key (b := .x) t trivial rfl rfl
  | y t => exact key (b := .y) t trivial rfl (by simp)
  | z t => exact key (b := .z) t trivial rfl rfl
  | h t => exact key (b := .hadamard) t trivial rfl (by rw [← sqrt_half]; simp)
  | s t => exact key (b := .s) t trivial rfl rfl
  | t t => exact key (b := .t) t trivial rfl (by rw [mul_div_assoc])
  | rx θ t => exact key (b := .rx (.num θ)) t trivial rfl (by simp)
  | ry θ t => exact key (b := .ry (.num θ)) t trivial rfl (by simp)
  | rz θ t => exact key (b := .rz (.num θ)) t trivial rfl (by rw [← mul_div_assoc, ← neg_div]; simp)
  | @cnot c t hc => exact ⟨.x, _, [c], t, trivial, rfl, by simpa using hc.symm, rfl, by rw [gateOf_mat2]⟩
  | @cz c t hc => exact ⟨.z, _, [c], t, trivial, rfl, by simpa using hc.symm, rfl, by rw [gateOf_mat2]⟩

theorem applyControlled_mask (cs : List (Fin n)) {t q : Fin n} (hq : q ≠ t) (G : Bool → Bool → ℂ) (m : Bool) (k : ℂ) (ψ : State n ℂ) :
    applyControlled cs t G (fun x => if x q = m then k * ψ x else 0) = fun x => if x q = m then k * applyControlled cs t G ψ x else 0 := by
  funext x
  simp only [applyControlled, applyGate, Function.update_of_ne hq, Fintype.sum_bool]
  by_cases h1 : x q = m
  · simp only [h1, if_true]
    split <;> ring
  · simp [h1]

theorem born_mask (q : Fin n) (m : Bool) (ψ : State n ℂ) : born q m ψ = Spec.normSq (fun x => if x q = m then 1 * ψ x else 0) := by
  unfold born Spec.normSq
  apply Finset.sum_congr rfl
  intro x _
  by_cases h : x q = m <;> simp [h]

/-- A gate does not change the probabilities of the other qubits. -/
theorem qisGate_born {f : String} {xs : List ℝ} {ts : List (Fin n)} {g : State n ℂ → State n ℂ} (h : QisGate f xs ts g) {q : Fin n} (hq : q ∉ ts) (m : Bool)
    (ψ : State n ℂ) : born q m (g ψ) = born q m ψ := by
  obtain ⟨b, a, cs, t, h1, h2, h3, rfl, rfl⟩ := qisGate_form h
  obtain ⟨a', e, -, -, hc⟩ := library_cols h1
  rw [h2] at e
  cases e
  have hqt : q ≠ t := by rintro rfl; simp at hq
  rw [born_mask, born_mask, ← applyControlled_mask cs hqt, applyControlled_norm hc cs t h3]

/-- A gate commutes with measurements of other qubits. -/
theorem qisGate_project {f : String} {xs : List ℝ} {ts : List (Fin n)} {g : State n ℂ → State n ℂ} (h : QisGate f xs ts g) {q : Fin n} (hq : q ∉ ts) (m : Bool)
    (ψ : State n ℂ) : project q m (g ψ) = g (project q m ψ) := by
  have hb := qisGate_born h hq m ψ
  obtain ⟨b, a, cs, t, h1, h2, h3, rfl, rfl⟩ := qisGate_form h
  have hqt : q ≠ t := by rintro rfl; simp at hq
  unfold project
  rw [hb, applyControlled_mask cs hqt]

theorem qisGate_outcome {f : String} {xs : List ℝ} {ts : List (Fin n)} {g : State n ℂ → State n ℂ} (h : QisGate f xs ts g) {q : Fin n} (hq : q ∉ ts) (v : ℝ)
    (ψ : State n ℂ) : outcome q (g ψ) v = outcome q ψ v := by
  unfold outcome
  rw [qisGate_born h hq]

theorem qubitArgs_gate (xs : List ℝ) (ts : List (Fin n)) : qubitArgs (xs.map QirArg.dbl ++ ts.map fun t => QirArg.qubit t.val) = ts.map Fin.val := by
  induction xs with
  | nil =>
    induction ts with
    | nil => rfl
    | cons t ts ih =>
      have : qubitArgs ([].map QirArg.dbl ++ (t :: ts).map fun t => QirArg.qubit (K := ℝ) t.val) =
        t.val :: qubitArgs ([].map QirArg.dbl ++ ts.map fun t => QirArg.qubit (K := ℝ) t.val) := rfl
      rw [this, ih]
      rfl
  | cons x xs ih => exact ih

theorem doubleArgs_gate (xs : List ℝ) (ts : List (Fin n)) : doubleArgs (xs.map QirArg.dbl ++ ts.map fun t => QirArg.qubit t.val) = xs := by
  induction xs with
  | nil =>
    induction ts with
    | nil => rfl
    | cons t ts ih => exact ih
  | cons x xs ih =>
    have : doubleArgs ((x :: xs).map QirArg.dbl ++ ts.map fun t => QirArg.qubit (K := ℝ) t.val) =
      x :: doubleArgs (xs.map QirArg.dbl ++ ts.map fun t => QirArg.qubit (K := ℝ) t.val) := rfl
    rw [this, ih]

theorem qisGate_notMz {f : String} {xs : List ℝ} {ts : List (Fin n)} {g : State n ℂ → State n ℂ} (h : QisGate f xs ts g) (args : List (QirArg ℝ)) :
    isMz (f, args) = false := by
  cases h <;> simp [isMz]

theorem _root_.DG.Spec.QirExec.append {u : Nat → ℝ} {l1 l2 : List (String × List (QirArg ℝ))} {s s' s'' : QirState n} (h1 : QirExec u l1 s s') (h2 : QirExec u l2 s' s'') :
    QirExec u (l1 ++ l2) s s'' := by
  induction h1 with
  | nil => exact h2
  | cons a _ ih => exact .cons a (ih h2)

theorem _root_.DG.Spec.QirExec.split {u : Nat → ℝ} {l1 l2 : List (String × List (QirArg ℝ))} {s s'' : QirState n} (h : QirExec u (l1 ++ l2) s s'') :
    ∃ s', QirExec u l1 s s' ∧ QirExec u l2 s' s'' := by
  induction l1 generalizing s with
  | nil => exact ⟨s, .nil, h⟩
  | cons c l1 ih =>
    cases h with
    | cons a b =>
      obtain ⟨s', h1, h2⟩ := ih b
      exact ⟨s', .cons a h1, h2⟩

/-- A measurement may come after gates on other qubits. -/
theorem _root_.DG.Spec.QirExec.later {u : Nat → ℝ} {gates : List (String × List (QirArg ℝ))} (hg : ∀ c ∈ gates, isMz c = false) {mz : String × List (QirArg ℝ)} (hm : isMz mz = true)
    (hd : ∀ c ∈ gates, ∀ i ∈ qubitArgs mz.2, i ∉ qubitArgs c.2) {s s' s'' : QirState n} (h1 : QirStep u mz s s') (h2 : QirExec u gates s' s'') :
    ∃ t, QirExec u gates s t ∧ QirStep u mz t s'' := by
  induction gates generalizing s s' with
  | nil => cases h2; exact ⟨s, .nil, h1⟩
  | cons c gates ih =>
    cases h2 with
    | cons a b =>
      cases a with
      | gate hq =>
        cases h1 with
        | gate hq' => rw [qisGate_notMz hq'] at hm; cases hm
        | @measure q r =>
          next ts g =>
          have hn : q ∉ ts := by
            have := hd _ (List.mem_cons_self ..) q.val (by simp [qubitArgs])
            rw [qubitArgs_gate] at this
            intro hq
            exact this (List.mem_map_of_mem hq)
          have st : QirStep u ("__quantum__qis__mz__body", [.qubit q.val, .result r]) (⟨g s.ψ, s.results, s.drawn⟩ : QirState n) _ := .measure
          dsimp only at st b
          rw [qisGate_outcome hq hn, qisGate_project hq hn] at st
          obtain ⟨t, k1, k2⟩ := ih (fun c hc => hg c (List.mem_cons_of_mem _ hc)) (fun c hc => hd c (List.mem_cons_of_mem _ hc)) st b
          exact ⟨t, .cons (.gate hq) k1, k2⟩
      | measure => have := hg _ (List.mem_cons_self ..); simp [isMz] at this

/-- If no gate acts on a measured qubit, then all measurements may come last. -/
theorem _root_.DG.Spec.QirExec.sorted {u : Nat → ℝ} {calls : List (String × List (QirArg ℝ))} (hp : MeasuredLast calls) {s s' : QirState n} (h : QirExec u calls s s') :
    QirExec u (gateCalls calls ++ calls.filter isMz) s s' := by
  induction calls generalizing s with
  | nil => exact h
  | cons c calls ih =>
    cases h with
    | @cons _ _ _ s1 _ a b =>
      obtain ⟨p1, p2⟩ := List.pairwise_cons.1 hp
      have := ih p2 b
      cases hm : isMz c with
      | false =>
        rw [gateCalls, List.filter_cons_of_pos (by simp [hm]), List.filter_cons_of_neg (by simp [hm])]
        exact .cons a this
      | true =>
        rw [gateCalls, List.filter_cons_of_neg (by simp [hm]), List.filter_cons_of_pos hm]
        obtain ⟨s2, h1, h2⟩ := this.split
        have hf : ∀ c' ∈ gateCalls calls, c' ∈ calls ∧ isMz c' = false := by
          intro c' hc'
          simpa [gateCalls] using hc'
        obtain ⟨t, k1, k2⟩ := QirExec.later (fun c' hc' => (hf c' hc').2) hm (fun c' hc' => p1 c' (hf c' hc').1 hm (hf c' hc').2) a h1
        exact k1.append (.cons k2 h2)

theorem _root_.DG.Spec.QisGate.unique {f : String} {xs : List ℝ} {ts : List (Fin n)} {g g' : State n ℂ → State n ℂ} (h : QisGate f xs ts g) (h' : QisGate f xs ts g') : g = g' := by
  generalize hf : f = f' at h'
  generalize hx : xs = xs' at h'
  generalize ht : ts = ts' at h'
  cases h <;> cases h' <;> simp_all

theorem _root_.DG.Spec.QirStep.unique {u : Nat → ℝ} {c : String × List (QirArg ℝ)} {s t t' : QirState n} (h : QirStep u c s t) (h' : QirStep u c s t') : t = t' := by
  generalize hc : c = c' at h'
  cases h with
  | @gate f xs ts g _ hq =>
    cases h' with
    | @gate f' xs' ts' g' _ hq' =>
      have e1 : f = f' := congrArg Prod.fst hc
      have e2 := congrArg (fun c => doubleArgs c.2) hc
      have e3 := congrArg (fun c => qubitArgs c.2) hc
      simp only [doubleArgs_gate, qubitArgs_gate] at e2 e3
      subst e1 e2
      have e3 := List.map_injective_iff.2 Fin.val_injective e3
      subst e3
      rw [hq.unique hq']
    | measure =>
      have := qisGate_notMz hq []
      have e1 : f = _ := congrArg Prod.fst hc
      simp [isMz, e1] at this
  | measure =>
    cases h' with
    | @gate f' xs' ts' g' _ hq' =>
      have := qisGate_notMz hq' []
      have e1 : _ = f' := congrArg Prod.fst hc
      simp [isMz, ← e1] at this
    | measure =>
      simp at hc
      obtain ⟨e1, rfl⟩ := hc
      obtain rfl := Fin.ext e1
      rfl

theorem _root_.DG.Spec.QirExec.unique {u : Nat → ℝ} {calls : List (String × List (QirArg ℝ))} {s t t' : QirState n} (h : QirExec u calls s t) (h' : QirExec u calls s t') : t = t' := by
  induction h with
  | nil => cases h'; rfl
  | cons a _ ih =>
    cases h' with
    | cons a' b' =>
      obtain rfl := a.unique a'
      exact ih b'

end DG
