import Verif.Spec.QasmMeaning
import Verif.Proofs.GateAct

/-! # The meaning of the gates of `qelib1.inc` -/

noncomputable section

namespace DG.Proofs
open Complex Spec

variable {n : Nat}

/-! ## Equality up to a global phase -/

/-- The maps are equal up to a global phase. -/
def Upto (f g : State n ℂ → State n ℂ) : Prop := ∃ c : ℂ, ‖c‖ = 1 ∧ ∀ ψ, f ψ = c • g ψ

theorem Upto.refl (f : State n ℂ → State n ℂ) : Upto f f := ⟨1, by simp, by simp⟩

theorem Upto.trans {f g h : State n ℂ → State n ℂ} (h1 : Upto f g) (h2 : Upto g h) : Upto f h := by
  obtain ⟨c, a1, a2⟩ := h1
  obtain ⟨d, b1, b2⟩ := h2
  exact ⟨c * d, by rw [norm_mul, a1, b1, one_mul], fun ψ => by rw [a2, b2, smul_smul]⟩

theorem applyGate_smul (t : Fin n) (G : Bool → Bool → ℂ) (c : ℂ) (ψ : State n ℂ) : applyGate t G (c • ψ) = c • applyGate t G ψ := by
  funext x
  simp only [applyGate, Pi.smul_apply, smul_eq_mul, Fintype.sum_bool]
  ring

theorem applyControlled_smul (cs : List (Fin n)) (t : Fin n) (G : Bool → Bool → ℂ) (c : ℂ) (ψ : State n ℂ) :
    applyControlled cs t G (c • ψ) = c • applyControlled cs t G ψ := by
  funext x
  simp only [applyControlled, applyGate_smul, Pi.smul_apply]
  split <;> rfl

theorem QMeans.smul {lib : GateLib} {as : List (Appl (Fin n))} {f : State n ℂ → State n ℂ} (h : QMeans lib as f) (c : ℂ) :
    ∀ ψ, f (c • ψ) = c • f ψ := by
  induction h with
  | nil => intro ψ; rfl
  | u _ ih => intro ψ; simp only [Function.comp, applyGate_smul, ih]
  | cx _ _ ih => intro ψ; simp only [Function.comp, applyControlled_smul, ih]
  | gate _ _ _ _ _ _ _ ih1 ih2 => intro ψ; simp only [Function.comp, ih1, ih2]

theorem QMeans.append {lib : GateLib} {as bs : List (Appl (Fin n))} {f g : State n ℂ → State n ℂ} (h : QMeans lib as f) (h' : QMeans lib bs g) :
    QMeans lib (as ++ bs) (g ∘ f) := by
  induction h with
  | nil => exact h'
  | u _ ih => exact .u ih
  | cx hne _ ih => exact .cx hne ih
  | @gate _ _ _ _ _ _ f' g' a b c d e h1 _ _ ih =>
    rw [← Function.comp_assoc]
    exact .gate a b c d e h1 ih

theorem filled_unique {ts : List (Fin n)} {b : List (Appl Nat)} {as as' : List (Appl (Fin n))} (h : List.Forall₂ (Filled ts) b as)
    (h' : List.Forall₂ (Filled ts) b as') : as = as' := by
  induction h generalizing as' with
  | nil => cases h'; rfl
  | cons h1 h2 ih =>
    cases h' with
    | cons h3 h4 =>
      have harg : ∀ {is : List Nat} {xs ys : List (Fin n)}, List.Forall₂ (fun i t => ts[i]? = some t) is xs →
          List.Forall₂ (fun i t => ts[i]? = some t) is ys → xs = ys := by
        intro is xs ys hx hy
        induction hx generalizing ys with
        | nil => cases hy; rfl
        | cons a b ih' =>
          cases hy with
          | cons c d =>
            rw [a] at c
            cases c
            rw [ih' d]
      have e : _ = _ := harg h1.2.2 h3.2.2
      rw [ih h4, Prod.ext (h1.1.trans h3.1.symm) (Prod.ext (h1.2.1.trans h3.2.1.symm) e)]

theorem QMeans.inv {lib : GateLib} {a : Appl (Fin n)} {rest : List (Appl (Fin n))} {f : State n ℂ → State n ℂ} (h : QMeans lib (a :: rest) f) :
    ∃ g, QMeans lib rest g ∧
      ((∃ θ φ l t, a = ("U", [θ, φ, l], [t]) ∧ f = g ∘ applyGate t (uGate θ φ l)) ∨
        (∃ c t, a = ("CX", [], [c, t]) ∧ f = g ∘ applyControlled [c] t notGate) ∨
        (a.1 ≠ "U" ∧ a.1 ≠ "CX" ∧ a.2.2.Nodup ∧ ∃ body as f', lib a.1 a.2.1 = some (a.2.2.length, body) ∧ List.Forall₂ (Filled a.2.2) body as ∧
          QMeans lib as f' ∧ f = g ∘ f')) := by
  cases h with
  | u h => exact ⟨_, h, .inl ⟨_, _, _, _, rfl, rfl⟩⟩
  | cx _ h => exact ⟨_, h, .inr (.inl ⟨_, _, rfl, rfl⟩)⟩
  | gate h1 h2 h3 h4 h5 h6 h => exact ⟨_, h, .inr (.inr ⟨h1, h2, h4, _, _, _, h3, h5, h6, rfl⟩)⟩

/-- A list of gates means at most one map. -/
theorem QMeans.unique {lib : GateLib} {as : List (Appl (Fin n))} {f g : State n ℂ → State n ℂ} (h : QMeans lib as f) (h' : QMeans lib as g) :
    f = g := by
  induction h generalizing g with
  | nil => cases h'; rfl
  | u _ ih =>
    obtain ⟨g', h1, h2 | h2 | h2⟩ := QMeans.inv h'
    · obtain ⟨_, _, _, _, h2, rfl⟩ := h2
      cases h2
      rw [ih h1]
    · obtain ⟨_, _, h2, -⟩ := h2
      exact absurd (congrArg Prod.fst h2) (by simp)
    · exact absurd rfl h2.1
  | cx _ _ ih =>
    obtain ⟨g', h1, h2 | h2 | h2⟩ := QMeans.inv h'
    · obtain ⟨_, _, _, _, h2, -⟩ := h2
      exact absurd (congrArg Prod.fst h2) (by simp)
    · obtain ⟨_, _, h2, rfl⟩ := h2
      cases h2
      rw [ih h1]
    · exact absurd rfl h2.2.1
  | gate a b c d e _ _ ih1 ih2 =>
    obtain ⟨g', h1, h2 | h2 | h2⟩ := QMeans.inv h'
    · obtain ⟨_, _, _, _, h2, -⟩ := h2
      exact absurd (congrArg Prod.fst h2) a
    · obtain ⟨_, _, h2, -⟩ := h2
      exact absurd (congrArg Prod.fst h2) b
    · obtain ⟨-, -, -, body, as, f', c', e', h3, rfl⟩ := h2
      dsimp only at c' e'
      rw [c] at c'
      cases c'
      cases filled_unique e e'
      rw [ih1 h3, ih2 h1]

/-- The gates mean a map that is equal to `g` up to a global phase. -/
def Gives (lib : GateLib) (as : List (Appl (Fin n))) (g : State n ℂ → State n ℂ) : Prop := ∃ f, QMeans lib as f ∧ Upto f g

theorem Gives.congr {lib : GateLib} {as : List (Appl (Fin n))} {g g' : State n ℂ → State n ℂ} (h : Gives lib as g) (h' : Upto g g') : Gives lib as g' := by
  obtain ⟨f, h1, h2⟩ := h
  exact ⟨f, h1, h2.trans h'⟩

theorem Gives.nil {lib : GateLib} : Gives lib ([] : List (Appl (Fin n))) id := ⟨id, .nil, .refl _⟩

theorem Gives.cons {lib : GateLib} {a : Appl (Fin n)} {rest : List (Appl (Fin n))} {f g : State n ℂ → State n ℂ} (h : Gives lib [a] f)
    (h' : Gives lib rest g) : Gives lib (a :: rest) (g ∘ f) := by
  obtain ⟨f', h1, c, h2, h3⟩ := h
  obtain ⟨g', h4, d, h5, h6⟩ := h'
  refine ⟨_, QMeans.append h1 h4, c * d, by rw [norm_mul, h2, h5, one_mul], fun ψ => ?_⟩
  simp only [Function.comp]
  rw [h3, QMeans.smul h4, h6, smul_smul]

theorem Gives.gate {lib : GateLib} {name : String} {ps : List ℝ} {ts : List (Fin n)} {body : List (Appl Nat)} {as : List (Appl (Fin n))}
    {g : State n ℂ → State n ℂ} (h0 : name ≠ "U") (h1 : name ≠ "CX") (h : lib name ps = some (ts.length, body)) (hn : ts.Nodup)
    (hb : List.Forall₂ (Filled ts) body as) (hg : Gives lib as g) : Gives lib [(name, ps, ts)] g := by
  obtain ⟨f, h2, h3⟩ := hg
  exact ⟨_, .gate h0 h1 h hn hb h2 .nil, h3⟩

/-! ## Gates on one qubit -/

/-- The matrix with these entries. -/
def g4 (a b c d : ℂ) : Bool → Bool → ℂ
  | false, false => a
  | false, true => b
  | true, false => c
  | true, true => d

theorem gateOf_g4 (a : Arr2) : gateOf a = g4 a.e00 a.e01 a.e10 a.e11 := by
  funext i j; cases i <;> cases j <;> rfl

theorem applyGate_upto (t : Fin n) {G H : Bool → Bool → ℂ} {c : ℂ} (hc : ‖c‖ = 1) (h : ∀ i j, G i j = c * H i j) : Upto (applyGate t G) (applyGate t H) := by
  refine ⟨c, hc, fun ψ => ?_⟩
  funext x
  simp only [applyGate, Pi.smul_apply, smul_eq_mul, Fintype.sum_bool, h]
  ring

theorem filled_one {t : Fin n} {name : String} {ps : List ℝ} : List.Forall₂ (Filled [t]) [(name, ps, [0])] [(name, ps, [t])] :=
  .cons ⟨rfl, rfl, .cons rfl .nil⟩ .nil

theorem gives_U {lib : GateLib} (θ φ l : ℝ) (t : Fin n) : Gives lib [("U", [θ, φ, l], [t])] (applyGate t (uGate θ φ l)) :=
  ⟨_, .u .nil, .refl _⟩

theorem gives_CX {lib : GateLib} {c t : Fin n} (h : c ≠ t) : Gives lib [("CX", [], [c, t])] (applyControlled [c] t notGate) :=
  ⟨_, .cx h .nil, .refl _⟩

/-- The library has the gates of `qelib1.inc`, except perhaps `swap` and `cswap`. -/
def Standard (lib : GateLib) : Prop := ∀ name, name ≠ "swap" → name ≠ "cswap" → lib name = qelib1 name

section
variable {lib : GateLib} (hl : Standard lib)
include hl

theorem gives_single {name : String} {ps : List ℝ} {b : String} {bs : List ℝ} {t : Fin n} {g : State n ℂ → State n ℂ} (h0 : name ≠ "U") (h1 : name ≠ "CX")
    (h2 : name ≠ "swap") (h3 : name ≠ "cswap") (h : qelib1 name ps = some (1, [(b, bs, [0])])) (hg : Gives lib [(b, bs, [t])] g) :
    Gives lib [(name, ps, [t])] g :=
  Gives.gate h0 h1 (by rw [hl _ h2 h3]; exact h) (List.nodup_singleton _) filled_one hg

theorem gives_u3 (θ φ l : ℝ) (t : Fin n) : Gives lib [("u3", [θ, φ, l], [t])] (applyGate t (uGate θ φ l)) :=
  gives_single hl (by decide) (by decide) (by decide) (by decide) rfl (gives_U ..)

theorem gives_u2 (φ l : ℝ) (t : Fin n) : Gives lib [("u2", [φ, l], [t])] (applyGate t (uGate (Real.pi / 2) φ l)) :=
  gives_single hl (by decide) (by decide) (by decide) (by decide) rfl (gives_U ..)

theorem gives_u1 (l : ℝ) (t : Fin n) : Gives lib [("u1", [l], [t])] (applyGate t (uGate 0 0 l)) :=
  gives_single hl (by decide) (by decide) (by decide) (by decide) rfl (gives_U ..)

end

theorem norm_exp_I (x : ℝ) : ‖exp (-(I * x))‖ = 1 := by
  rw [show -(I * (x : ℂ)) = ((-x : ℝ) : ℂ) * I by push_cast; ring]
  exact Complex.norm_exp_ofReal_mul_I _

/-- `u1(λ)` up to a global phase. -/
theorem upto_u1 (l : ℝ) (t : Fin n) : Upto (applyGate t (uGate 0 0 l)) (applyGate t (g4 1 0 0 (exp (I * l)))) := by
  refine applyGate_upto t (c := exp (-(I * (l / 2 : ℝ)))) (norm_exp_I _) ?_
  intro i j
  cases i <;> cases j <;> simp [uGate, g4]
  rw [← exp_add]
  congr 1
  ring

theorem exp_half : exp (I * (Real.pi / 2)) = I := by
  rw [mul_comm]; exact exp_pi_div_two_mul_I

theorem exp_neg_half : exp (-(I * (Real.pi / 2))) = -I := by
  rw [exp_neg, exp_half, inv_I]

theorem cos_quarter : Real.cos (Real.pi / 2 / 2) = Real.sqrt 2 / 2 := by
  rw [show Real.pi / 2 / 2 = Real.pi / 4 by ring, Real.cos_pi_div_four]

theorem sin_quarter : Real.sin (Real.pi / 2 / 2) = Real.sqrt 2 / 2 := by
  rw [show Real.pi / 2 / 2 = Real.pi / 4 by ring, Real.sin_pi_div_four]

/-- `r = √2 / 2`. -/
def r2 : ℂ := ((Real.sqrt 2 / 2 : ℝ) : ℂ)

theorem r2_sq : r2 * r2 = 1 / 2 := by
  rw [r2, ← ofReal_mul]
  have : Real.sqrt 2 / 2 * (Real.sqrt 2 / 2) = 1 / 2 := by
    rw [div_mul_div_comm, Real.mul_self_sqrt (by norm_num)]; norm_num
  rw [this]; norm_num

theorem exp_quarter : exp (I * (Real.pi / 4)) = r2 * (1 + I) := by
  rw [mul_comm, show ((Real.pi : ℂ) / 4) = ((Real.pi / 4 : ℝ) : ℂ) by push_cast; rfl, exp_mul_I, ← ofReal_cos, ← ofReal_sin, Real.cos_pi_div_four, Real.sin_pi_div_four, r2]
  ring

theorem norm_negI : ‖(-I : ℂ)‖ = 1 := by simp

section
variable {lib : GateLib} (hl : Standard lib) (t : Fin n)
include hl

theorem gives_id : Gives lib [("id", [], [t])] (applyGate t (g4 1 0 0 1)) := by
  refine (gives_single hl (by decide) (by decide) (by decide) (by decide) rfl (gives_U 0 0 0 t)).congr (applyGate_upto t (c := 1) (by simp) ?_)
  intro i j; cases i <;> cases j <;> simp [uGate, g4]

theorem gives_x : Gives lib [("x", [], [t])] (applyGate t (g4 0 1 1 0)) := by
  refine (gives_single hl (by decide) (by decide) (by decide) (by decide) rfl (gives_u3 hl Real.pi 0 Real.pi t)).congr
    (applyGate_upto t (c := -I) norm_negI ?_)
  intro i j; cases i <;> cases j <;> simp [uGate, g4, neg_div, exp_half, exp_neg_half]

theorem gives_y : Gives lib [("y", [], [t])] (applyGate t (g4 0 (-I) I 0)) := by
  refine (gives_single hl (by decide) (by decide) (by decide) (by decide) rfl (gives_u3 hl Real.pi (Real.pi / 2) (Real.pi / 2) t)).congr
    (applyGate_upto t (c := -I) norm_negI ?_)
  intro i j; cases i <;> cases j <;> simp [uGate, g4]

theorem gives_z : Gives lib [("z", [], [t])] (applyGate t (g4 1 0 0 (-1))) := by
  refine ((gives_single hl (by decide) (by decide) (by decide) (by decide) rfl (gives_u1 hl Real.pi t)).congr (upto_u1 _ t)).congr
    (applyGate_upto t (c := 1) (by simp) ?_)
  intro i j; cases i <;> cases j <;> simp [g4]
  rw [mul_comm, exp_pi_mul_I]

theorem gives_h : Gives lib [("h", [], [t])] (applyGate t (g4 r2 r2 r2 (-r2))) := by
  refine (gives_single hl (by decide) (by decide) (by decide) (by decide) rfl (gives_u2 hl 0 Real.pi t)).congr
    (applyGate_upto t (c := -I) norm_negI ?_)
  intro i j; cases i <;> cases j <;> simp only [uGate, g4, cos_quarter, sin_quarter, r2] <;> simp [neg_div, exp_half, exp_neg_half]

theorem gives_s : Gives lib [("s", [], [t])] (applyGate t (g4 1 0 0 I)) := by
  refine ((gives_single hl (by decide) (by decide) (by decide) (by decide) rfl (gives_u1 hl (Real.pi / 2) t)).congr (upto_u1 _ t)).congr
    (applyGate_upto t (c := 1) (by simp) ?_)
  intro i j; cases i <;> cases j <;> simp [g4, exp_half]

theorem gives_sdg : Gives lib [("sdg", [], [t])] (applyGate t (g4 1 0 0 (-I))) := by
  refine ((gives_single hl (by decide) (by decide) (by decide) (by decide) rfl (gives_u1 hl (-Real.pi / 2) t)).congr (upto_u1 _ t)).congr
    (applyGate_upto t (c := 1) (by simp) ?_)
  intro i j; cases i <;> cases j <;> simp [g4, neg_div, exp_neg_half]

theorem gives_t : Gives lib [("t", [], [t])] (applyGate t (g4 1 0 0 (r2 * (1 + I)))) := by
  refine ((gives_single hl (by decide) (by decide) (by decide) (by decide) rfl (gives_u1 hl (Real.pi / 4) t)).congr (upto_u1 _ t)).congr
    (applyGate_upto t (c := 1) (by simp) ?_)
  intro i j; cases i <;> cases j <;> simp [g4, exp_quarter]

theorem gives_tdg : Gives lib [("tdg", [], [t])] (applyGate t (g4 1 0 0 (r2 * (1 - I)))) := by
  refine ((gives_single hl (by decide) (by decide) (by decide) (by decide) rfl (gives_u1 hl (-Real.pi / 4) t)).congr (upto_u1 _ t)).congr
    (applyGate_upto t (c := 1) (by simp) ?_)
  intro i j; cases i <;> cases j <;> simp [g4, neg_div]
  rw [exp_neg, exp_quarter]
  apply inv_eq_of_mul_eq_one_right
  linear_combination 2 * r2_sq - r2 * r2 * I_sq

theorem gives_rx (θ : ℝ) : Gives lib [("rx", [θ], [t])] (applyGate t (g4 (Real.cos (θ / 2)) (-1 * I * Real.sin (θ / 2)) (-1 * I * Real.sin (θ / 2)) (Real.cos (θ / 2)))) := by
  refine (gives_single hl (by decide) (by decide) (by decide) (by decide) rfl (gives_u3 hl θ (-Real.pi / 2) (Real.pi / 2) t)).congr
    (applyGate_upto t (c := 1) (by simp) ?_)
  have e1 : (((-Real.pi / 2 : ℝ) : ℂ) + ((Real.pi / 2 : ℝ) : ℂ)) / 2 = 0 := by push_cast; ring
  have e2 : I * ((((-Real.pi / 2 : ℝ) : ℂ) - ((Real.pi / 2 : ℝ) : ℂ)) / 2) = -(I * (Real.pi / 2)) := by push_cast; ring
  intro i j; cases i <;> cases j <;> simp only [uGate, g4, e1, e2, neg_neg, exp_half, exp_neg_half] <;> simp

theorem gives_ry (θ : ℝ) : Gives lib [("ry", [θ], [t])] (applyGate t (g4 (Real.cos (θ / 2)) (-Real.sin (θ / 2)) (Real.sin (θ / 2)) (Real.cos (θ / 2)))) := by
  refine (gives_single hl (by decide) (by decide) (by decide) (by decide) rfl (gives_u3 hl θ 0 0 t)).congr (applyGate_upto t (c := 1) (by simp) ?_)
  intro i j; cases i <;> cases j <;> simp [uGate, g4]

theorem gives_rz (φ : ℝ) : Gives lib [("rz", [φ], [t])] (applyGate t (g4 (exp (-1 * I * φ / 2)) 0 0 (exp (I * φ / 2)))) := by
  refine (gives_single hl (by decide) (by decide) (by decide) (by decide) rfl (gives_u1 hl φ t)).congr (applyGate_upto t (c := 1) (by simp) ?_)
  intro i j; cases i <;> cases j <;> simp [uGate, g4] <;> congr 1 <;> ring

end

/-! ## Gates on several qubits -/

/-- The product of matrices. -/
def mulB (A B : Bool → Bool → ℂ) : Bool → Bool → ℂ := fun i j => ∑ k, A i k * B k j

theorem mulB_g4 (a b c d a' b' c' d' : ℂ) :
    mulB (g4 a b c d) (g4 a' b' c' d') = g4 (a * a' + b * c') (a * b' + b * d') (c * a' + d * c') (c * b' + d * d') := by
  funext i j; cases i <;> cases j <;> simp [mulB, g4, add_comm]

/-- The matrix `F x` on qubit `t`, where `x` are the values of the qubits. -/
def blk (t : Fin n) (F : Basis n → Bool → Bool → ℂ) (ψ : State n ℂ) : State n ℂ := fun x => applyGate t (F x) ψ x

/-- The matrix does not depend on qubit `t`. -/
def Indep (t : Fin n) (F : Basis n → Bool → Bool → ℂ) : Prop := ∀ x b, F (Function.update x t b) = F x

theorem blk_comp {t : Fin n} {F G : Basis n → Bool → Bool → ℂ} (h : Indep t G) : blk t F ∘ blk t G = blk t fun x => mulB (F x) (G x) := by
  funext ψ x
  simp only [Function.comp, blk, applyGate, Function.update_self, Function.update_idem, Fintype.sum_bool, mulB]
  rw [h x true, h x false]
  ring

theorem blk_gate (t : Fin n) (G : Bool → Bool → ℂ) : applyGate t G = blk t fun _ => G := rfl

theorem notGate_g4 : notGate = g4 0 1 1 0 := by
  funext i j; cases i <;> cases j <;> rfl

theorem applyGate_one (t : Fin n) (ψ : State n ℂ) : applyGate t (g4 1 0 0 1) ψ = ψ := by
  funext x
  simp only [applyGate, Fintype.sum_bool]
  cases h : x t <;> simp [g4, ← h]

theorem blk_controlled (c t : Fin n) (G : Bool → Bool → ℂ) :
    applyControlled [c] t G = blk t fun x => if x c = true then G else g4 1 0 0 1 := by
  funext ψ x
  simp only [applyControlled, blk, List.mem_singleton, forall_eq]
  split
  · rfl
  · rw [applyGate_one]

theorem applyGate_scalar (t : Fin n) (a : ℂ) (ψ : State n ℂ) (x : Basis n) : applyGate t (g4 a 0 0 a) ψ x = a * ψ x := by
  simp only [applyGate, Fintype.sum_bool]
  cases h : x t <;> simp [g4, ← h]

theorem applyGate_diag (t : Fin n) (a d : ℂ) (ψ : State n ℂ) (x : Basis n) : applyGate t (g4 a 0 0 d) ψ x = (if x t = true then d else a) * ψ x := by
  simp only [applyGate, Fintype.sum_bool]
  cases h : x t <;> simp [g4, ← h]

theorem blk_diag (c t : Fin n) (a d : ℂ) : applyGate c (g4 a 0 0 d) = blk t fun x => if x c = true then g4 d 0 0 d else g4 a 0 0 a := by
  funext ψ x
  rw [applyGate_diag, blk]
  split <;> rw [applyGate_scalar]

theorem blk_upto {t : Fin n} {F G : Basis n → Bool → Bool → ℂ} {c : ℂ} (hc : ‖c‖ = 1) (h : ∀ x i j, F x i j = c * G x i j) : Upto (blk t F) (blk t G) := by
  refine ⟨c, hc, fun ψ => ?_⟩
  funext x
  simp only [blk, applyGate, Pi.smul_apply, smul_eq_mul, Fintype.sum_bool, h]
  ring

theorem Indep.const (t : Fin n) (G : Bool → Bool → ℂ) : Indep t fun _ => G := fun _ _ => rfl

theorem Indep.ite {c t : Fin n} (h : c ≠ t) (G H : Bool → Bool → ℂ) : Indep t fun x => if x c = true then G else H := by
  intro x b
  dsimp only
  rw [Function.update_of_ne h]

theorem Indep.mul {t : Fin n} {F G : Basis n → Bool → Bool → ℂ} (h : Indep t F) (h' : Indep t G) : Indep t fun x => mulB (F x) (G x) := by
  intro x b
  dsimp only
  rw [h, h']

/-- A list of gates gives the family of matrices `F` on qubit `t`. -/
def GivesB (lib : GateLib) (as : List (Appl (Fin n))) (t : Fin n) (F : Basis n → Bool → Bool → ℂ) : Prop := Gives lib as (blk t F) ∧ Indep t F

theorem GivesB.last {lib : GateLib} {a : Appl (Fin n)} {t : Fin n} {F : Basis n → Bool → Bool → ℂ} (h : GivesB lib [a] t F) : GivesB lib [a] t F := h

theorem GivesB.cons {lib : GateLib} {a : Appl (Fin n)} {rest : List (Appl (Fin n))} {t : Fin n} {F G : Basis n → Bool → Bool → ℂ}
    (h : GivesB lib [a] t F) (h' : GivesB lib rest t G) : GivesB lib (a :: rest) t fun x => mulB (G x) (F x) :=
  ⟨by rw [← blk_comp h.2]; exact Gives.cons h.1 h'.1, h'.2.mul h.2⟩

theorem GivesB.target {lib : GateLib} {as : List (Appl (Fin n))} {t : Fin n} {G : Bool → Bool → ℂ} (h : Gives lib as (applyGate t G)) :
    GivesB lib as t fun _ => G := ⟨h, .const _ _⟩

theorem GivesB.control {lib : GateLib} {as : List (Appl (Fin n))} {c t : Fin n} (hne : c ≠ t) {a d : ℂ} (h : Gives lib as (applyGate c (g4 a 0 0 d))) :
    GivesB lib as t fun x => if x c = true then g4 d 0 0 d else g4 a 0 0 a := ⟨by rw [← blk_diag]; exact h, .ite hne _ _⟩

theorem GivesB.gives {lib : GateLib} {as : List (Appl (Fin n))} {c t : Fin n} {F : Basis n → Bool → Bool → ℂ} (h : GivesB lib as t F) {G : Bool → Bool → ℂ}
    {p : ℂ} (hp : ‖p‖ = 1) (hF : ∀ x i j, F x i j = p * (if x c = true then G else g4 1 0 0 1) i j) : Gives lib as (applyControlled [c] t G) := by
  rw [blk_controlled]
  exact h.1.congr (blk_upto hp hF)

section
variable {lib : GateLib} (hl : Standard lib) {c t : Fin n} (h : c ≠ t)
include hl h

theorem gives_cx : Gives lib [("cx", [], [c, t])] (applyControlled [c] t (g4 0 1 1 0)) := by
  rw [← notGate_g4]
  exact Gives.gate (as := [("CX", [], [c, t])]) (by decide) (by decide) (by rw [hl _ (by decide) (by decide)]; rfl) (by simp [h]) (by simp [Filled])
    (gives_CX h)

theorem givesB_cx : GivesB lib [("cx", [], [c, t])] t fun x => if x c = true then g4 0 1 1 0 else g4 1 0 0 1 :=
  ⟨by rw [← blk_controlled]; exact gives_cx hl h, .ite h _ _⟩

theorem gives_cz : Gives lib [("cz", [], [c, t])] (applyControlled [c] t (g4 1 0 0 (-1))) := by
  refine Gives.gate (as := [("h", [], [t]), ("cx", [], [c, t]), ("h", [], [t])]) (by decide) (by decide) (by rw [hl _ (by decide) (by decide)]; rfl)
    (by simp [h]) (by simp [Filled]) ?_
  refine ((GivesB.target (gives_h hl t)).cons ((givesB_cx hl h).cons (.target (gives_h hl t)))).gives (p := 1) (by simp) ?_
  have := r2_sq
  intro x i j
  split <;> simp only [mulB_g4, one_mul] <;> cases i <;> cases j <;> simp only [g4] <;> grind

theorem gives_cy : Gives lib [("cy", [], [c, t])] (applyControlled [c] t (g4 0 (-I) I 0)) := by
  refine Gives.gate (as := [("sdg", [], [t]), ("cx", [], [c, t]), ("s", [], [t])]) (by decide) (by decide) (by rw [hl _ (by decide) (by decide)]; rfl)
    (by simp [h]) (by simp [Filled]) ?_
  refine ((GivesB.target (gives_sdg hl t)).cons ((givesB_cx hl h).cons (.target (gives_s hl t)))).gives (p := 1) (by simp) ?_
  have := I_mul_I
  intro x i j
  split <;> simp only [mulB_g4, one_mul] <;> cases i <;> cases j <;> simp only [g4] <;> grind

theorem gives_ch : Gives lib [("ch", [], [c, t])] (applyControlled [c] t (g4 r2 r2 r2 (-r2))) := by
  refine Gives.gate (as := [("h", [], [t]), ("sdg", [], [t]), ("cx", [], [c, t]), ("h", [], [t]), ("t", [], [t]), ("cx", [], [c, t]), ("t", [], [t]),
    ("h", [], [t]), ("s", [], [t]), ("x", [], [t]), ("s", [], [c])]) (by decide) (by decide) (by rw [hl _ (by decide) (by decide)]; rfl)
    (by simp [h]) (by simp [Filled]) ?_
  refine ((GivesB.target (gives_h hl t)).cons <| (GivesB.target (gives_sdg hl t)).cons <| (givesB_cx hl h).cons <| (GivesB.target (gives_h hl t)).cons <|
    (GivesB.target (gives_t hl t)).cons <| (givesB_cx hl h).cons <| (GivesB.target (gives_t hl t)).cons <| (GivesB.target (gives_h hl t)).cons <|
    (GivesB.target (gives_s hl t)).cons <| (GivesB.target (gives_x hl t)).cons (GivesB.control h (gives_s hl c))).gives (p := r2 * (1 + I)) ?_ ?_
  · rw [← exp_quarter, mul_comm, show ((Real.pi : ℂ) / 4) = ((Real.pi / 4 : ℝ) : ℂ) by push_cast; rfl]
    exact Complex.norm_exp_ofReal_mul_I _
  have := r2_sq
  have := I_mul_I
  intro x i j
  split <;> simp only [mulB_g4] <;> cases i <;> cases j <;> simp only [g4] <;> grind

theorem gives_cry (l : ℝ) : Gives lib [("cry", [l], [c, t])]
    (applyControlled [c] t (g4 (Real.cos (l / 2)) (-Real.sin (l / 2)) (Real.sin (l / 2)) (Real.cos (l / 2)))) := by
  refine Gives.gate (as := [("ry", [l / 2], [t]), ("cx", [], [c, t]), ("ry", [-l / 2], [t]), ("cx", [], [c, t])]) (by decide) (by decide)
    (by rw [hl _ (by decide) (by decide)]; rfl) (by simp [h]) (by simp [Filled]) ?_
  refine ((GivesB.target (gives_ry hl t _)).cons <| (givesB_cx hl h).cons <| (GivesB.target (gives_ry hl t _)).cons (givesB_cx hl h)).gives (p := 1) (by simp) ?_
  have e1 : Real.cos (-l / 2 / 2) = Real.cos (l / 2 / 2) := by rw [← Real.cos_neg]; congr 1; ring
  have e2 : Real.sin (-l / 2 / 2) = -Real.sin (l / 2 / 2) := by rw [← Real.sin_neg]; congr 1; ring
  have e3 : Real.cos (l / 2) = Real.cos (l / 2 / 2) ^ 2 - Real.sin (l / 2 / 2) ^ 2 := by rw [← Real.cos_two_mul']; congr 1; ring
  have e4 : Real.sin (l / 2) = 2 * Real.sin (l / 2 / 2) * Real.cos (l / 2 / 2) := by rw [← Real.sin_two_mul]; congr 1; ring
  have e5 := Real.sin_sq_add_cos_sq (l / 2 / 2)
  rw [e1, e2, e3, e4]
  generalize Real.cos (l / 2 / 2) = C at *
  generalize Real.sin (l / 2 / 2) = S at *
  have e6 : (S : ℂ) ^ 2 + (C : ℂ) ^ 2 = 1 := by exact_mod_cast e5
  push_cast
  intro x i j
  split <;> simp only [mulB_g4] <;> cases i <;> cases j <;> simp only [g4] <;> grind

theorem gives_crz (l : ℝ) : Gives lib [("crz", [l], [c, t])]
    (applyControlled [c] t (g4 (exp (-1 * I * l / 2)) 0 0 (exp (I * l / 2)))) := by
  refine Gives.gate (as := [("rz", [l / 2], [t]), ("cx", [], [c, t]), ("rz", [-l / 2], [t]), ("cx", [], [c, t])]) (by decide) (by decide)
    (by rw [hl _ (by decide) (by decide)]; rfl) (by simp [h]) (by simp [Filled]) ?_
  refine ((GivesB.target (gives_rz hl t _)).cons <| (givesB_cx hl h).cons <| (GivesB.target (gives_rz hl t _)).cons (givesB_cx hl h)).gives (p := 1) (by simp) ?_
  have e1 : exp (-1 * I * ((l / 2 : ℝ) : ℂ) / 2) = exp (I * ((-l / 2 : ℝ) : ℂ) / 2) := by congr 1; push_cast; ring
  have e2 : exp (-1 * I * ((-l / 2 : ℝ) : ℂ) / 2) = exp (I * ((l / 2 : ℝ) : ℂ) / 2) := by congr 1; push_cast; ring
  have e3 : exp (I * (l : ℂ) / 2) = exp (I * ((l / 2 : ℝ) : ℂ) / 2) * exp (I * ((l / 2 : ℝ) : ℂ) / 2) := by
    rw [← exp_add]; congr 1; push_cast; ring
  have e4 : exp (-1 * I * (l : ℂ) / 2) = exp (I * ((-l / 2 : ℝ) : ℂ) / 2) * exp (I * ((-l / 2 : ℝ) : ℂ) / 2) := by
    rw [← exp_add]; congr 1; push_cast; ring
  have e5 : exp (I * ((l / 2 : ℝ) : ℂ) / 2) * exp (I * ((-l / 2 : ℝ) : ℂ) / 2) = 1 := by
    rw [← exp_add, ← exp_zero]; congr 1; push_cast; ring
  rw [e1, e2, e3, e4]
  generalize exp (I * ((l / 2 : ℝ) : ℂ) / 2) = C at *
  generalize exp (I * ((-l / 2 : ℝ) : ℂ) / 2) = S at *
  intro x i j
  split <;> simp only [mulB_g4] <;> cases i <;> cases j <;> simp only [g4] <;> grind

theorem gives_crx (l : ℝ) : Gives lib [("crx", [l], [c, t])] (applyControlled [c] t
    (g4 (Real.cos (l / 2)) (-1 * I * Real.sin (l / 2)) (-1 * I * Real.sin (l / 2)) (Real.cos (l / 2)))) := by
  refine Gives.gate (as := [("u1", [Real.pi / 2], [t]), ("cx", [], [c, t]), ("u3", [-l / 2, 0, 0], [t]), ("cx", [], [c, t]),
    ("u3", [l / 2, -Real.pi / 2, 0], [t])]) (by decide) (by decide) (by rw [hl _ (by decide) (by decide)]; rfl) (by simp [h]) (by simp [Filled]) ?_
  have g1 : uGate 0 0 (Real.pi / 2) = g4 (r2 * (1 - I)) 0 0 (r2 * (1 + I)) := by
    have : exp (-(I * (Real.pi / 4))) = r2 * (1 - I) := by
      rw [exp_neg, exp_quarter]
      apply inv_eq_of_mul_eq_one_right
      linear_combination 2 * r2_sq - r2 * r2 * I_sq
    funext i j
    cases i <;> cases j <;> simp [uGate, g4]
    · rw [← this]; congr 1; ring
    · rw [← exp_quarter]; congr 1; ring
  have g2 : uGate (-l / 2) 0 0 = g4 (Real.cos (l / 2 / 2)) (Real.sin (l / 2 / 2)) (-Real.sin (l / 2 / 2)) (Real.cos (l / 2 / 2)) := by
    have e1 : Real.cos (-l / 2 / 2) = Real.cos (l / 2 / 2) := by rw [← Real.cos_neg]; congr 1; ring
    have e2 : Real.sin (-l / 2 / 2) = -Real.sin (l / 2 / 2) := by rw [← Real.sin_neg]; congr 1; ring
    funext i j
    cases i <;> cases j <;> simp only [uGate, g4, e1, e2] <;> simp
  have g3 : uGate (l / 2) (-Real.pi / 2) 0 = g4 (r2 * (1 + I) * Real.cos (l / 2 / 2)) (-(r2 * (1 + I) * Real.sin (l / 2 / 2)))
      (r2 * (1 - I) * Real.sin (l / 2 / 2)) (r2 * (1 - I) * Real.cos (l / 2 / 2)) := by
    have this : exp (-(I * (Real.pi / 4))) = r2 * (1 - I) := by
      rw [exp_neg, exp_quarter]
      apply inv_eq_of_mul_eq_one_right
      linear_combination 2 * r2_sq - r2 * r2 * I_sq
    have e1 : -(I * ((((-Real.pi / 2 : ℝ) : ℂ) + ((0 : ℝ) : ℂ)) / 2)) = I * (Real.pi / 4) := by push_cast; ring
    have e2 : -(I * ((((-Real.pi / 2 : ℝ) : ℂ) - ((0 : ℝ) : ℂ)) / 2)) = I * (Real.pi / 4) := by push_cast; ring
    have e3 : I * ((((-Real.pi / 2 : ℝ) : ℂ) + ((0 : ℝ) : ℂ)) / 2) = -(I * (Real.pi / 4)) := by push_cast; ring
    have e4 : I * ((((-Real.pi / 2 : ℝ) : ℂ) - ((0 : ℝ) : ℂ)) / 2) = -(I * (Real.pi / 4)) := by push_cast; ring
    funext i j
    cases i <;> cases j <;> simp only [uGate, g4]
    · rw [e1, exp_quarter]
    · rw [e2, exp_quarter]
    · rw [e4, this]
    · rw [e3, this]
  have k1 := gives_u1 hl (Real.pi / 2) t
  have k2 := gives_u3 hl (-l / 2) 0 0 t
  have k3 := gives_u3 hl (l / 2) (-Real.pi / 2) 0 t
  rw [g1] at k1
  rw [g2] at k2
  rw [g3] at k3
  refine ((GivesB.target k1).cons <| (givesB_cx hl h).cons <| (GivesB.target k2).cons <| (givesB_cx hl h).cons (GivesB.target k3)).gives (p := 1) (by simp) ?_
  have e3 : Real.cos (l / 2) = Real.cos (l / 2 / 2) ^ 2 - Real.sin (l / 2 / 2) ^ 2 := by rw [← Real.cos_two_mul']; congr 1; ring
  have e4 : Real.sin (l / 2) = 2 * Real.sin (l / 2 / 2) * Real.cos (l / 2 / 2) := by rw [← Real.sin_two_mul]; congr 1; ring
  have e5 := Real.sin_sq_add_cos_sq (l / 2 / 2)
  rw [e3, e4]
  clear g1 g2 g3 k1 k2 k3 e3 e4
  generalize Real.cos (l / 2 / 2) = C at *
  generalize Real.sin (l / 2 / 2) = S at *
  have e6 : (S : ℂ) ^ 2 + (C : ℂ) ^ 2 = 1 := by exact_mod_cast e5
  have := r2_sq
  have := I_mul_I
  push_cast
  intro x i j
  split <;> simp only [mulB_g4] <;> cases i <;> cases j <;> simp only [g4] <;> grind

end

/-! ## Exchange of qubits and the Toffoli gate -/

/-- The basis state after `cx`. -/
def cxAt (c t : Fin n) (x : Basis n) : Basis n := if x c = true then Function.update x t (!x t) else x

theorem applyCX (c t : Fin n) (ψ : State n ℂ) (x : Basis n) : applyControlled [c] t (g4 0 1 1 0) ψ x = ψ (cxAt c t x) := by
  simp only [applyControlled, List.mem_singleton, forall_eq, cxAt]
  split
  · simp only [applyGate, Fintype.sum_bool]
    cases x t <;> simp [g4]
  · rfl

theorem cxAt_self {c t : Fin n} (x : Basis n) : cxAt c t x t = xor (x c) (x t) := by
  simp only [cxAt]
  cases h : x c <;> simp

theorem cxAt_other {c t q : Fin n} (h : q ≠ t) (x : Basis n) : cxAt c t x q = x q := by
  simp only [cxAt]
  split
  · exact Function.update_of_ne h _ _
  · rfl

theorem cxAt_invol {c t : Fin n} (h : c ≠ t) (x : Basis n) : cxAt c t (cxAt c t x) = x := by
  funext q
  by_cases hq : q = t
  · subst hq
    rw [cxAt_self, cxAt_self, cxAt_other h]
    cases x c <;> cases x q <;> rfl
  · rw [cxAt_other hq, cxAt_other hq]

theorem gives_perm {lib : GateLib} (hl : Standard lib) {c t : Fin n} (h : c ≠ t) :
    Gives lib [("cx", [], [c, t])] (fun ψ x => ψ (cxAt c t x)) := by
  have := gives_cx hl h
  rwa [show applyControlled [c] t (g4 0 1 1 0) = fun ψ x => ψ (cxAt c t x) from funext fun ψ => funext fun x => applyCX c t ψ x] at this

theorem three_cx {a b : Fin n} (h : a ≠ b) (x : Basis n) : cxAt a b (cxAt b a (cxAt a b x)) = x ∘ Equiv.swap a b := by
  funext q
  simp only [Function.comp]
  by_cases hb : q = b
  · subst hb
    rw [cxAt_self, cxAt_self, cxAt_other h.symm, cxAt_self, cxAt_other h, Equiv.swap_apply_right]
    cases x a <;> cases x q <;> rfl
  · by_cases ha : q = a
    · subst ha
      rw [cxAt_other h, cxAt_self, cxAt_self, cxAt_other h, Equiv.swap_apply_left]
      cases x b <;> cases x q <;> rfl
    · rw [cxAt_other hb, cxAt_other ha, cxAt_other hb, Equiv.swap_apply_of_ne_of_ne ha hb]

theorem gives_three {lib : GateLib} (hl : Standard lib) {a b : Fin n} (h : a ≠ b) :
    Gives lib [("cx", [], [a, b]), ("cx", [], [b, a]), ("cx", [], [a, b])] (applySwap a b) := by
  have := (gives_perm hl h).cons ((gives_perm hl h.symm).cons ((gives_perm hl h).cons Gives.nil))
  refine this.congr ?_
  refine ⟨1, by simp, fun ψ => ?_⟩
  funext x
  simp only [Function.comp, id, one_smul, applySwap, three_cx h]

/-- The phases that come from the last gates of `ccx`. -/
theorem gives_tail {lib : GateLib} (hl : Standard lib) {a b : Fin n} (t : Fin n) (h : a ≠ b) :
    Gives lib [("cx", [], [a, b]), ("t", [], [a]), ("tdg", [], [b]), ("cx", [], [a, b])] (blk t fun x =>
      if x a = true then (if x b = true then g4 (r2 * (1 + I)) 0 0 (r2 * (1 + I)) else g4 1 0 0 1)
      else if x b = true then g4 (r2 * (1 - I)) 0 0 (r2 * (1 - I)) else g4 1 0 0 1) := by
  have := (gives_perm hl h).cons ((gives_t hl a).cons ((gives_tdg hl b).cons ((gives_perm hl h).cons Gives.nil)))
  refine this.congr ⟨1, by simp, fun ψ => ?_⟩
  funext x
  simp only [Function.comp, id, one_smul, applyGate_diag, cxAt_invol h, cxAt_self, cxAt_other h, blk]
  have h1 := r2_sq
  have h2 := I_mul_I
  cases x a <;> cases x b <;> simp only [Bool.xor_true, Bool.xor_false, Bool.not_true, Bool.not_false, if_true, Bool.false_eq_true, if_false,
    applyGate_scalar] <;> grind

theorem gives_ccx {lib : GateLib} (hl : Standard lib) {a b t : Fin n} (hab : a ≠ b) (ha : a ≠ t) (hb : b ≠ t) :
    Gives lib [("ccx", [], [a, b, t])] (fun ψ x => if x a = true ∧ x b = true then ψ (Function.update x t (!x t)) else ψ x) := by
  refine Gives.gate (as := [("h", [], [t]), ("cx", [], [b, t]), ("tdg", [], [t]), ("cx", [], [a, t]), ("t", [], [t]), ("cx", [], [b, t]),
    ("tdg", [], [t]), ("cx", [], [a, t]), ("t", [], [b]), ("t", [], [t]), ("h", [], [t]), ("cx", [], [a, b]), ("t", [], [a]), ("tdg", [], [b]),
    ("cx", [], [a, b])]) (by decide) (by decide) (by rw [hl _ (by decide) (by decide)]; rfl) (by simp [hab, ha, hb]) (by simp [Filled]) ?_
  have ht := gives_tail hl t hab
  have key := (GivesB.target (gives_h hl t)).cons <| (givesB_cx hl hb).cons <| (GivesB.target (gives_tdg hl t)).cons <| (givesB_cx hl ha).cons <|
    (GivesB.target (gives_t hl t)).cons <| (givesB_cx hl hb).cons <| (GivesB.target (gives_tdg hl t)).cons <| (givesB_cx hl ha).cons <|
    (GivesB.control hb (gives_t hl b)).cons <| (GivesB.target (gives_t hl t)).cons <| (GivesB.target (gives_h hl t)).cons
    (⟨ht, by intro x v; dsimp only; rw [Function.update_of_ne ha, Function.update_of_ne hb]⟩ : GivesB lib _ t _)
  have e : (fun (ψ : State n ℂ) (x : Basis n) => if x a = true ∧ x b = true then ψ (Function.update x t (!x t)) else ψ x) =
      blk t fun x => if x a = true ∧ x b = true then g4 0 1 1 0 else g4 1 0 0 1 := by
    funext ψ x
    simp only [blk]
    split
    · simp only [applyGate, Fintype.sum_bool]
      cases x t <;> simp [g4]
    · rw [applyGate_one]
  rw [e]
  refine key.1.congr (blk_upto (c := 1) (by simp) ?_)
  have h1 := r2_sq
  have h2 := I_mul_I
  intro x i j
  cases x a <;> cases x b <;> simp only [if_true, Bool.false_eq_true, if_false, and_true, and_true, and_false, mulB_g4] <;>
    cases i <;> cases j <;> simp only [g4] <;> grind

theorem gives_cswap_body {lib : GateLib} (hl : Standard lib) {c a b : Fin n} (hca : c ≠ a) (hcb : c ≠ b) (hab : a ≠ b) :
    Gives lib [("cx", [], [b, a]), ("ccx", [], [c, a, b]), ("cx", [], [b, a])] (applyCSwap c a b) := by
  refine ((gives_perm hl hab.symm).cons ((gives_ccx hl hca hcb hab).cons ((gives_perm hl hab.symm).cons Gives.nil))).congr ⟨1, by simp, fun ψ => ?_⟩
  funext x
  have e : Function.update (cxAt b a x) b (!cxAt b a x b) = fun q => if q = b then !x b else cxAt b a x q := by
    funext q
    by_cases hq : q = b
    · subst hq; rw [Function.update_self, cxAt_other hab.symm]; simp
    · rw [Function.update_of_ne hq]; simp [hq]
  simp only [Function.comp, id, one_smul, applyCSwap, cxAt_other hca, cxAt_self]
  by_cases hc : x c = true
  · simp only [hc, true_and, if_true, applySwap]
    rw [cxAt_invol hab.symm]
    by_cases h' : xor (x b) (x a) = true
    · rw [if_pos h', e]
      congr 1
      funext q
      by_cases hqa : q = a
      · subst hqa
        rw [cxAt_self]
        simp only [Function.comp, Equiv.swap_apply_left, if_neg hab, if_true, cxAt_self]
        revert h'
        cases x b <;> cases x q <;> simp
      · rw [cxAt_other hqa]
        by_cases hqb : q = b
        · subst hqb
          simp only [Function.comp, Equiv.swap_apply_right, if_true]
          revert h'
          cases x a <;> cases x q <;> simp
        · simp [hqb, cxAt_other hqa, Equiv.swap_apply_of_ne_of_ne hqa hqb]
    · rw [if_neg h']
      congr 1
      funext q
      by_cases hqa : q = a
      · subst hqa
        simp only [Function.comp, Equiv.swap_apply_left]
        revert h'
        cases x b <;> cases x q <;> simp
      · by_cases hqb : q = b
        · subst hqb
          simp only [Function.comp, Equiv.swap_apply_right]
          revert h'
          cases x a <;> cases x q <;> simp
        · simp [Equiv.swap_apply_of_ne_of_ne hqa hqb]
  · simp only [hc, false_and, Bool.false_eq_true, if_false]
    rw [cxAt_invol hab.symm]

theorem gives_rot_body {lib : GateLib} (hl : Standard lib) (β γ δ : ℝ) (t : Fin n) {a : Arr2} (ha : (Base.rotation (.num β) (.num γ) (.num δ)).matrix = .ok a) :
    Gives lib [("rz", [β], [t]), ("ry", [γ], [t]), ("rz", [δ], [t])] (applyGate t (gateOf a)) := by
  refine ((GivesB.target (gives_rz hl t β)).cons <| (GivesB.target (gives_ry hl t γ)).cons (GivesB.target (gives_rz hl t δ))).1.congr ?_
  rw [blk_gate]
  cases ha
  refine blk_upto (c := 1) (by simp) ?_
  have e1 : exp (-(I / 2) * ((β : ℂ) + (δ : ℂ))) = exp (-1 * I * δ / 2) * exp (-1 * I * β / 2) := by rw [← exp_add]; congr 1; ring
  have e2 : exp (I / 2 * ((β : ℂ) - (δ : ℂ))) = exp (-1 * I * δ / 2) * exp (I * β / 2) := by rw [← exp_add]; congr 1; ring
  have e3 : exp (-(I / 2) * ((β : ℂ) - (δ : ℂ))) = exp (I * δ / 2) * exp (-1 * I * β / 2) := by rw [← exp_add]; congr 1; ring
  have e4 : exp (I / 2 * ((β : ℂ) + (δ : ℂ))) = exp (I * δ / 2) * exp (I * β / 2) := by rw [← exp_add]; congr 1; ring
  intro x i j
  simp only [mulB_g4, gateOf_g4, e1, e2, e3, e4]
  cases i <;> cases j <;> simp only [g4] <;> ring

end DG.Proofs
