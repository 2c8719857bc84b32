import Verif.Proofs.Remove
import Verif.Props.TemplateMap

/-!
# Property C95: equality of operations

`a == b` should be an equivalence relation, and equal operations should be interchangeable. `SameOp` and `SameParam` (`Spec/Program.lean`) say when
operations and parameters are equal; `Reads` (`Spec/Run.lean`) which gate of the library an operation is; `MeansMap` (`Spec/Template.lean`) what a
sequence of gates means.
-/

namespace DG.Props
open Spec
variable {K : Type} [DecidableEq K] [Zero K]

/-- C95, what `a == b` does for all operations: it raises `AttributeError` exactly if `a` has parameters and `b` does not, and otherwise is true exactly
if the operations are equal. -/
theorem C95_exact {w : World K} {x y : OpObj K} {k k' : OpCls} (hx : w.classes[x.cls]? = some k) (hy : w.classes[y.cls]? = some k') :
    (opEq w x y = .error .attributeError ↔ k.kind.isParametric = true ∧ k'.kind.isParametric = false) ∧
    (opEq w x y = .ok true ↔ ¬ (k.kind.isParametric = true ∧ k'.kind.isParametric = false) ∧ SameOp w x y) ∧
    (opEq w x y = .ok false ↔ ¬ (k.kind.isParametric = true ∧ k'.kind.isParametric = false) ∧ ¬ SameOp w x y) := by
  by_cases h : k.kind.isParametric = true ∧ k'.kind.isParametric = false
  · have : opEq w x y = .error .attributeError := by
      unfold opEq
      simp [hx, hy, h.1, h.2]
    rw [this]
    simp [h]
  · obtain ⟨b, h1, h2⟩ := opEq_iff hx hy (by
      intro e
      by_contra e'
      exact h ⟨e, by simpa using e'⟩)
    rw [h1]
    refine ⟨by simp [h], ?_, ?_⟩
    · rw [← h2]
      simp [h]
    · rw [← h2]
      simp [h]

omit [DecidableEq K] in
theorem SameParam.symm {w : World K} {a b : OpParam K} (h : SameParam w a b) : SameParam w b a := by
  cases a <;> cases b
  · exact Eq.symm h
  · exact h
  · exact h
  · obtain ⟨x, y, h1, h2, h3⟩ := h
    exact ⟨y, x, h2, h1, h3.symm⟩

/-- C95: every operation equals itself. -/
theorem C95_refl {w : World K} {x : OpObj K} {k : OpCls} (hx : w.classes[x.cls]? = some k) (hv : ∀ v, OpParam.var v ∈ x.params → v < w.vars.length) :
    opEq w x x = .ok true := by
  refine (C95_exact hx hx).2.1.2 ⟨(by rintro ⟨h1, h2⟩; rw [h1] at h2; cases h2), k, k, hx, hx, rfl, rfl, fun _ => ?_⟩
  rw [List.forall₂_same]
  intro p hp
  cases p with
  | num a => rfl
  | var v =>
    obtain ⟨a, ha⟩ : ∃ a, w.vars[v]? = some a := ⟨_, List.getElem?_eq_getElem (hv v hp)⟩
    exact ⟨a, a, ha, ha, rfl⟩

/-- C95: `a == b` and `b == a` agree for operations that both have parameters or both have none. -/
theorem C95_symm {w : World K} {x y : OpObj K} {k k' : OpCls} (hx : w.classes[x.cls]? = some k) (hy : w.classes[y.cls]? = some k')
    (hp : k.kind.isParametric = k'.kind.isParametric) : opEq w x y = opEq w y x := by
  have key : SameOp w x y ↔ SameOp w y x := by
    constructor
    · rintro ⟨a, a', h1, h2, h3, h4, h5⟩
      rw [hx] at h1; cases h1
      rw [hy] at h2; cases h2
      exact ⟨k', k, hy, hx, h3.symm, h4.symm, fun e => (h5 (hp.trans e)).flip.imp fun _ _ g => SameParam.symm g⟩
    · rintro ⟨a, a', h1, h2, h3, h4, h5⟩
      rw [hy] at h1; cases h1
      rw [hx] at h2; cases h2
      exact ⟨k, k', hx, hy, h3.symm, h4.symm, fun e => (h5 (hp.symm.trans e)).flip.imp fun _ _ g => SameParam.symm g⟩
  obtain ⟨b, h1, h2⟩ := opEq_iff hx hy fun e => hp.symm.trans e
  obtain ⟨b', h3, h4⟩ := opEq_iff hy hx fun e => hp.trans e
  rw [h1, h3]
  have : b = b' := by rw [Bool.eq_iff_iff, h2, h4, key]
  rw [this]

/-- C95 for operations whose parameters are numbers: equality is transitive. -/
theorem C95_trans_partial {w : World K} {x y z : OpObj K} (hn : ∀ v, OpParam.var v ∉ y.params) (h1 : opEq w x y = .ok true) (h2 : opEq w y z = .ok true)
    (hn' : ∀ v, OpParam.var v ∉ x.params) : opEq w x z = .ok true := by
  have get : ∀ a b : OpObj K, opEq w a b = .ok true → ∃ k k', w.classes[a.cls]? = some k ∧ w.classes[b.cls]? = some k' := by
    intro a b h
    unfold opEq at h
    split at h
    · next k k' e1 e2 => exact ⟨k, k', e1, e2⟩
    · cases h
  obtain ⟨k, k', hx, hy⟩ := get x y h1
  obtain ⟨-, k'', -, hz⟩ := get y z h2
  obtain ⟨c1, a, a', e1, e2, e3, e4, e5⟩ := (C95_exact hx hy).2.1.1 h1
  rw [hx] at e1; cases e1
  rw [hy] at e2; cases e2
  obtain ⟨c2, a, a', e1, e2, f3, f4, f5⟩ := (C95_exact hy hz).2.1.1 h2
  rw [hy] at e1; cases e1
  rw [hz] at e2; cases e2
  refine (C95_exact hx hz).2.1.2 ⟨?_, k, k'', hx, hz, e3.trans f3, e4.trans f4, fun e => ?_⟩
  · rintro ⟨g1, g2⟩
    cases hk : k'.kind.isParametric
    · exact c1 ⟨g1, hk⟩
    · exact c2 ⟨hk, g2⟩
  · have hk : k'.kind.isParametric = true := by
      by_contra hk
      exact c1 ⟨e, by simpa using hk⟩
    have g1 := e5 e
    have g2 := f5 hk
    -- the parameters of `x` and `y` are the same numbers
    have hxy : y.params = x.params := by
      clear g2
      generalize x.params = l at g1 hn'
      generalize y.params = m at g1 hn
      induction g1 with
      | nil => rfl
      | @cons a b l m h _ ih =>
        cases a with
        | var v => exact absurd List.mem_cons_self (hn v)
        | num p => cases b with
          | var v => exact absurd List.mem_cons_self (hn' v)
          | num q =>
            rw [show p = q from h, ih (fun v hv => hn' v (List.mem_cons_of_mem _ hv)) (fun v hv => hn v (List.mem_cons_of_mem _ hv))]
    rw [← hxy]
    exact g2

/-! ## Equal operations are interchangeable -/

open Sim

theorem named_eq' {name name' : String} (e : name = name') {k k' : OpKind} {xs ys : List ℝ} {g g' : Kind} (h : GateNamed name k xs g)
    (h' : GateNamed name' k' ys g') : k = k' ∧ (k.isParametric = false → xs = [] ∧ ys = []) ∧ (xs = ys → g = g') := by
  cases h <;> cases h' <;> first | (exfalso; revert e; decide) | simp [OpKind.isParametric]

theorem named_eq {name : String} {k k' : OpKind} {xs : List ℝ} {g g' : Kind} (h : GateNamed name k xs g) (h' : GateNamed name k' xs g') : g = g' :=
  (named_eq' rfl h h').2.2 rfl

theorem named_length {name : String} {k k' : OpKind} {xs ys : List ℝ} {g g' : Kind} (h : GateNamed name k xs g) (h' : GateNamed name k' ys g') :
    k = k' ∧ (k.isParametric = false → xs = [] ∧ ys = []) :=
  ⟨(named_eq' rfl h h').1, (named_eq' rfl h h').2.1⟩

theorem nums_of_same {w : World ℝ} : ∀ {xs ys : List ℝ}, List.Forall₂ (SameParam w) (ys.map OpParam.num) (xs.map OpParam.num) → ys = xs
  | [], [], _ => rfl
  | [], _ :: _, h => by cases h
  | _ :: _, [], h => by cases h
  | x :: xs, y :: ys, h => by
    cases h with
    | cons h1 h2 => rw [show y = x from h1, nums_of_same h2]

/-- C95 for gates of the library with numbers as parameters: equal operations are the same gate on the same qubits. Missing: conditions, bits of
measurements, variables, see below. -/
theorem C95_meaning_partial {w : World ℝ} {o o' : Nat} {x y : OpObj ℝ} (hx : w.ops[o]? = some x) (hy : w.ops[o']? = some y) (h : SameOp w x y)
    {s s' : SOp} (hs : Reads w o s) (hs' : Reads w o' s') (hg : s.kind ≠ .measurement) (hg' : s'.kind ≠ .measurement) : s'.kind = s.kind ∧ s'.qubits = s.qubits := by
  obtain ⟨k, k', e1, e2, e3, e4, e5⟩ := h
  obtain ⟨op, a, r1, r2, r3, r4, -, -, r7⟩ := hs
  rw [hx] at r1; cases r1
  rw [e1] at r2; cases r2
  obtain ⟨op, a, t1, t2, t3, t4, -, -, t7⟩ := hs'
  rw [hy] at t1; cases t1
  rw [e2] at t2; cases t2
  constructor
  · rcases r7 with ⟨-, r7⟩ | ⟨xs, r7, r8, -⟩
    · exact absurd r7 hg
    rcases t7 with ⟨-, t7⟩ | ⟨ys, t7, t8, -⟩
    · exact absurd t7 hg'
    rw [e3] at r8
    obtain ⟨n1, n2⟩ := named_length r8 t8
    cases hp : k.kind.isParametric
    · obtain ⟨rfl, rfl⟩ := n2 hp
      exact (named_eq r8 t8).symm
    · have := e5 hp
      rw [r7, t7] at this
      rw [nums_of_same this] at t8
      exact (named_eq r8 t8).symm
  · rw [e4, t4] at r4
    exact Option.some.inj r4

theorem exec_congr {qs : List Nat} {ops ops' : List SOp} {u : Nat → ℝ} {S S' : List SOp}
    (hS : List.Forall₂ (fun s s' => s'.kind = s.kind ∧ s'.qubits = s.qubits ∧ s.cond = none ∧ s'.cond = none ∧ s.kind ≠ .measurement) S S')
    {s0 t0 : SimState (SCircuit.mk qs ops).qubits.length} (h : Exec ⟨qs, ops⟩ u S s0 t0) : Exec ⟨qs, ops'⟩ u S' s0 t0 := by
  induction hS generalizing s0 with
  | nil => cases h; exact .nil
  | cons e _ ih =>
    obtain ⟨e1, e2, e3, e4, e5⟩ := e
    cases h with
    | cons g1 g2 =>
      refine .cons ?_ (ih g2)
      cases g1 with
      | blocked hb => obtain ⟨bs, b, k1, -⟩ := hb; rw [e3] at k1; cases k1
      | @gate ts f k1 k2 k3 =>
        exact Step.gate (c := ⟨qs, ops'⟩) (ts := ts) (by rintro ⟨bs, b, k1, -⟩; rw [e4] at k1; cases k1) (e2.trans k2) (by rw [e1]; exact k3)
      | measure k1 k2 => exact absurd k2 e5

/-- C95 for circuits of gates of the library with numbers as parameters and without conditions: replacing operations by equal ones does not change what
the circuit means. -/
theorem C95_interchange_partial {w : World ℝ} {os os' : List Nat} {S S' : List SOp} (hS : List.Forall₂ (Reads w) os S) (hS' : List.Forall₂ (Reads w) os' S')
    (he : List.Forall₂ (fun o o' => ∃ x y, w.ops[o]? = some x ∧ w.ops[o']? = some y ∧ opEq w x y = .ok true) os os')
    (hg : ∀ s ∈ S, s.kind ≠ .measurement ∧ s.cond = none) (hg' : ∀ s ∈ S', s.kind ≠ .measurement ∧ s.cond = none) {qs : List Nat}
    {U : State qs.length ℂ → State qs.length ℂ} (h : MeansMap qs S U) : MeansMap qs S' U := by
  have hr : List.Forall₂ (fun s s' => s'.kind = s.kind ∧ s'.qubits = s.qubits ∧ s.cond = none ∧ s'.cond = none ∧ s.kind ≠ .measurement) S S' := by
    clear h
    induction he generalizing S S' with
    | nil => cases hS; cases hS'; exact .nil
    | cons e _ ih =>
      cases hS with
      | cons a1 a2 => cases hS' with
        | cons b1 b2 =>
          refine .cons ?_ (ih a2 b2 (fun s hs => hg s (List.mem_cons_of_mem _ hs)) (fun s hs => hg' s (List.mem_cons_of_mem _ hs)))
          obtain ⟨x, y, e1, e2, e3⟩ := e
          obtain ⟨k, hk⟩ : ∃ k, w.classes[x.cls]? = some k := by
            obtain ⟨op, k, r1, r2, -⟩ := a1
            rw [e1] at r1; cases r1
            exact ⟨k, r2⟩
          obtain ⟨k', hk'⟩ : ∃ k, w.classes[y.cls]? = some k := by
            obtain ⟨op, k, r1, r2, -⟩ := b1
            rw [e2] at r1; cases r1
            exact ⟨k, r2⟩
          have hm := hg _ List.mem_cons_self
          have hm' := hg' _ List.mem_cons_self
          obtain ⟨c1, c2⟩ := C95_meaning_partial e1 e2 ((C95_exact hk hk').2.1.1 e3).2 a1 b1 hm.1 hm'.1
          exact ⟨c1, c2, hm.2, hm'.2, hm.1⟩
  intro u ψ bits d
  exact exec_congr (ops := S) (ops' := S') hr (h u ψ bits d)

/-! ## Examples and violations -/

/-- Two parametric circuits with the variables 0, 1 (named `0`, `1`) and 2 (named `0`); the values are 5, 5, 3. Operations, all on qubit 0: `RX(v0)`, `RX(5)`, `RX(v1)`,
`RX(v2)`, `X`, `X` with a condition, two measurements, with different bits. -/
def equalDemo : Prog Int :=
  .seq (.call (.newClass ⟨"RX", .parametric, ⟨false, some 1, none, none⟩, some 1⟩)) <|
  .seq (.call (.newClass ⟨"X", .plain, ⟨false, some 1, none, none⟩, none⟩)) <|
  .seq (.call (.newClass ⟨"Measurement", .measurement, ⟨false, none, none, none⟩, none⟩)) <|
  .seq (.call (.newCirc true (some 2) (some 2))) <|
  .seq (.call (.newCirc true (some 2) none)) <|
  .seq (.call (.getParam 0 1)) <|
  .seq (.call (.getParam 1 0)) <|
  .seq (.call (.setVar 0 5)) <|
  .seq (.call (.setVar 1 5)) <|
  .seq (.call (.setVar 2 3)) <|
  .seq (.call (.construct 0 (some [.var 0]) (.qubits (some [0])))) <|
  .seq (.call (.construct 0 (some [.num 5]) (.qubits (some [0])))) <|
  .seq (.call (.construct 0 (some [.var 1]) (.qubits (some [0])))) <|
  .seq (.call (.construct 0 (some [.var 2]) (.qubits (some [0])))) <|
  .seq (.call (.construct 1 none (.qubits (some [0])))) <|
  .seq (.call (.construct 1 none (.qubits (some [0])))) <|
  .seq (.call (.conditional 5 [0])) <|
  .seq (.call (.construct 2 none (.qubits (some [0])))) <|
  .seq (.call (.construct 2 none (.qubits (some [0])))) <|
  .seq (.call (.measureInto 6 [0])) <|
  .seq (.call (.measureInto 7 [1])) <|
  .call (.extend 0 [4, 5])

/-- `a == b` for two of the operations. -/
def equalDemoEq (a b : Nat) : Option (Except Err Bool) :=
  match equalDemo.final.ops[a]?, equalDemo.final.ops[b]? with
  | some x, some y => some (opEq equalDemo.final x y)
  | _, _ => none

example : (equalDemo.run {}).1 = .ok () ∧ equalDemoEq 0 0 = some (.ok true) ∧ equalDemoEq 0 1 = some (.ok true) ∧ equalDemoEq 1 0 = some (.ok true) ∧
    equalDemoEq 1 3 = some (.ok false) := by decide +kernel

/-- C95 is violated: `X == RX(5)` is false, but `RX(5) == X` raises `AttributeError`. -/
theorem C95_symm_violated : equalDemoEq 4 1 = some (.ok false) ∧ equalDemoEq 1 4 = some (.error .attributeError) := by decide +kernel

/-- C95 is violated: `RX(v0) == RX(5)` and `RX(5) == RX(v1)`, but not `RX(v0) == RX(v1)`. -/
theorem C95_trans_violated : equalDemoEq 0 1 = some (.ok true) ∧ equalDemoEq 1 2 = some (.ok true) ∧ equalDemoEq 0 2 = some (.ok false) := by decide +kernel

/-- C95 is violated for variables: `RX(v0) == RX(v2)`, but the values are different, and evaluated the operations differ. -/
theorem C95_variables_violated : equalDemoEq 0 3 = some (.ok true) ∧
    (equalDemo.final.ops[0]?).map (fun op => (evalCopy equalDemo.final op none).map (·.params)) = some (.ok [.num 5]) ∧
    (equalDemo.final.ops[3]?).map (fun op => (evalCopy equalDemo.final op none).map (·.params)) = some (.ok [.num 3]) := by decide +kernel

/-- C95 is violated for conditions and for the bits of measurements, which are ignored. So `circuit.remove(op)`, where `op` has a condition, removes the operation
without a condition. -/
theorem C95_condition_violated : equalDemoEq 4 5 = some (.ok true) ∧ equalDemoEq 6 7 = some (.ok true) ∧
    equalDemo.final.ops.map (fun x => (x.cond, x.bits)) = [(none, none), (none, none), (none, none), (none, none), (none, none), (some [0], none),
      (none, some [0]), (none, some [1])] ∧
    opsOf equalDemo.final 0 = [4, 5] ∧ (removeOp 0 5 equalDemo.final).1 = .ok () ∧ opsOf (removeOp 0 5 equalDemo.final).2 0 = [5] := by decide +kernel

/-- `C95_interchange_partial`: two objects `CX` on the same qubits. -/
example (qs : List Nat) (U : State qs.length ℂ → State qs.length ℂ) : let w : World ℝ :=
      { classes := [⟨"CX", .controlled, ⟨true, none, some 1, some 1⟩, none⟩], ops := [{ cls := 0, qubits := some [0, 1] }, { cls := 0, qubits := some [0, 1] }] }
    MeansMap qs [⟨0, .controlled 1 .x, [0, 1], none, none⟩] U → MeansMap qs [⟨1, .controlled 1 .x, [0, 1], none, none⟩] U := by
  intro w
  have r : ∀ i < 2, Reads w i ⟨i, .controlled 1 .x, [0, 1], none, none⟩ := by
    intro i hi
    refine ⟨{ cls := 0, qubits := some [0, 1] }, ⟨"CX", .controlled, ⟨true, none, some 1, some 1⟩, none⟩, ?_, rfl, rfl, rfl, rfl, rfl, .inr ⟨[], rfl, .cx, fun _ => rfl⟩⟩
    rcases (by omega : i = 0 ∨ i = 1) with rfl | rfl <;> rfl
  refine C95_interchange_partial (os := [0]) (os' := [1]) (.cons (r 0 (by decide)) .nil) (.cons (r 1 (by decide)) .nil)
    (.cons ⟨_, _, rfl, rfl, C95_refl (x := { cls := 0, qubits := some [0, 1] }) (k := ⟨"CX", .controlled, ⟨true, none, some 1, some 1⟩, none⟩) rfl (by simp)⟩ .nil) (by simp) (by simp)

end DG.Props
