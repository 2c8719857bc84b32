import Verif.Proofs.QasmMeaning
import Verif.Proofs.Run
import Verif.Proofs.QasmInj

/-! # Exported programs mean what the circuits mean -/

noncomputable section

namespace DG.Proofs
open Complex Spec Sim

variable {n : Nat}

/-- The library has the gates of `qelib1.inc`, where `swap` may also be defined with its arguments exchanged. -/
structure SwapLib (lib : GateLib) : Prop where
  std : Standard lib
  swap : lib "swap" [] = qelib1 "swap" [] ∨ lib "swap" [] = some (2, [("cx", [], [1, 0]), ("cx", [], [0, 1]), ("cx", [], [1, 0])])
  cswap : lib "cswap" [] = qelib1 "cswap" []

theorem gives_swap {lib : GateLib} (hl : SwapLib lib) {a b : Fin n} (h : a ≠ b) : Gives lib [("swap", [], [a, b])] (applySwap a b) := by
  rcases hl.swap with hs | hs
  · exact Gives.gate (as := [("cx", [], [a, b]), ("cx", [], [b, a]), ("cx", [], [a, b])]) (by decide) (by decide) hs (by simp [h]) (by simp [Filled])
      (gives_three hl.std h)
  · refine Gives.gate (as := [("cx", [], [b, a]), ("cx", [], [a, b]), ("cx", [], [b, a])]) (by decide) (by decide) hs (by simp [h]) (by simp [Filled]) ?_
    have := gives_three hl.std h.symm
    rwa [show (applySwap b a : State n ℂ → State n ℂ) = applySwap a b by unfold applySwap; rw [Equiv.swap_comm]] at this

theorem gives_cswap {lib : GateLib} (hl : SwapLib lib) {c a b : Fin n} (hca : c ≠ a) (hcb : c ≠ b) (hab : a ≠ b) :
    Gives lib [("cswap", [], [c, a, b])] (applyCSwap c a b) :=
  Gives.gate (as := [("cx", [], [b, a]), ("ccx", [], [c, a, b]), ("cx", [], [b, a])]) (by decide) (by decide) hl.cswap (by simp [hca, hcb, hab])
    (by simp [Filled]) (gives_cswap_body hl.std hca hcb hab)

/-- The OpenQASM gate with the name in the table means the gate of the library. -/
theorem gives_library {lib : GateLib} (hl : SwapLib lib) {name q : String} {np nq : Nat} {kd : OpKind} {xs : List ℝ} {K : Kind} (hn : GateNamed name kd xs K)
    (hm : (name, q, np, nq) ∈ library) (h1 : name ≠ "Rotation") (h2 : name ≠ "CRotation") :
    np = xs.length ∧ nq = arity K ∧ ∀ (ts : List (Fin n)) f, GateAct K ts f → Gives lib [(q, xs, ts)] f := by
  have hz : ∀ a b c d : ℂ, gateOf ⟨a, b, c, d, true, true⟩ = g4 a b c d := fun a b c d => gateOf_g4 _
  cases hn <;> simp [library] at hm h1 h2 <;> obtain ⟨rfl, rfl, rfl⟩ := hm <;> refine ⟨rfl, rfl, fun ts f hf => ?_⟩ <;> cases hf
  case identity.single t h => cases h; rw [hz]; exact gives_id hl.std t
  case x.single t h => cases h; rw [hz]; exact gives_x hl.std t
  case y.single t h => cases h; rw [hz, neg_one_mul]; exact gives_y hl.std t
  case z.single t h => cases h; rw [hz]; exact gives_z hl.std t
  case hadamard.single t h => cases h; rw [hz]; simpa [r2] using gives_h hl.std t
  case s.single t h => cases h; rw [hz]; exact gives_s hl.std t
  case t.single t h => cases h; rw [hz, mul_div_assoc, exp_quarter]; exact gives_t hl.std t
  case rx.single t h => cases h; rw [hz]; exact gives_rx hl.std t _
  case ry.single t h => cases h; rw [hz]; exact gives_ry hl.std t _
  case rz.single t h => cases h; rw [hz]; exact gives_rz hl.std t _
  case cx.controlled1 c t hc h => cases h; rw [hz]; exact gives_cx hl.std hc
  case cy.controlled1 c t hc h => cases h; rw [hz, neg_one_mul]; exact gives_cy hl.std hc
  case cz.controlled1 c t hc h => cases h; rw [hz]; exact gives_cz hl.std hc
  case chadamard.controlled1 c t hc h => cases h; rw [hz]; simpa [r2] using gives_ch hl.std hc
  case crx.controlled1 c t hc h => cases h; rw [hz]; exact gives_crx hl.std hc _
  case cry.controlled1 c t hc h => cases h; rw [hz]; exact gives_cry hl.std hc _
  case crz.controlled1 c t hc h => cases h; rw [hz]; exact gives_crz hl.std hc _
  case swap.swap a b h => exact gives_swap hl h
  case cswap.cswap c a b h1 h2 h3 => exact gives_cswap hl h1 h2 h3
  case ccx.ccx c c' t h1 h2 h3 => exact gives_ccx hl.std h1 h2 h3

/-! ## Positions -/

theorem position_of_at : ∀ (L : Layout) (names : List String) (q j i : Nat) (s : String), names.length = L.length → names.Nodup → At L q j i →
    names[j]? = some s → ∃ p, position (List.zipWith (fun s p => (s, p.2.length)) names L) (s, i) = some p ∧ L.items[p]? = some q := by
  intro L
  induction L with
  | nil => rintro names q j i s - - ⟨l, ks, h, -⟩; cases h
  | cons x L ih =>
    intro names q j i s hlen hnd hat hj
    cases names with
    | nil => cases hlen
    | cons s0 names =>
      simp only [List.length_cons, Nat.add_right_cancel_iff] at hlen
      rw [List.nodup_cons] at hnd
      obtain ⟨l, ks, h1, h2⟩ := hat
      cases j with
      | zero =>
        cases h1
        cases hj
        have hi := (List.getElem?_eq_some_iff.1 h2).1
        refine ⟨i, by simp [position, hi], ?_⟩
        simp only [Layout.items, List.flatMap_cons]
        rw [List.getElem?_append_left hi]
        exact h2
      | succ j =>
        simp only [List.getElem?_cons_succ] at h1 hj
        obtain ⟨p, g1, g2⟩ := ih names q j i s hlen hnd.2 ⟨l, ks, h1, h2⟩ hj
        have hne : s0 ≠ s := fun e => hnd.1 (e ▸ List.mem_of_getElem? hj)
        refine ⟨x.2.length + p, by simp [position, hne, g1], ?_⟩
        simp only [Layout.items, List.flatMap_cons]
        rw [List.getElem?_append_right (by omega)]
        simpa [Layout.items] using g2

theorem position_of_denotes {L : Layout} {names : List String} (hlen : names.length = L.length) (hnd : names.Nodup) (hL : L.items.Nodup) {r : String × Nat}
    {t : Fin L.items.length} (h : Denotes names L L.items[t] r) : position (List.zipWith (fun s p => (s, p.2.length)) names L) r = some t.val := by
  obtain ⟨j, h1, h2⟩ := h
  obtain ⟨p, g1, g2⟩ := position_of_at L names _ j r.2 r.1 hlen hnd h1 h2
  obtain ⟨hp, g2⟩ := List.getElem?_eq_some_iff.1 g2
  rw [show r = (r.1, r.2) from rfl, g1]
  congr 1
  exact (List.Nodup.getElem_inj_iff hL).1 g2

/-! ## Statements -/

/-- The statement means what the operation means. -/
def Matches (lib : GateLib) (read : String → Option ℝ) (regs : List (String × Nat)) (c : SCircuit) (s : SOp) (st : QStmt) : Prop :=
  s.cond = none ∧ s.kind ≠ .measurement ∧ ∃ xs : List ℝ, st.params.map read = xs.map some ∧
    ∀ (ts : List (Fin c.qubits.length)) f, s.qubits = ts.map (qubitAt c) → GateAct s.kind ts f →
      Gives lib [(st.name, xs, ts)] f ∧ List.Forall₂ (fun r t => position regs r = some t.val) st.refs ts

theorem exec_gives {lib : GateLib} {read : String → Option ℝ} {regs : List (String × Nat)} {c : SCircuit} {u : Nat → ℝ} {S : List SOp}
    {s s' : SimState c.qubits.length} (h : Exec c u S s s') : ∀ {Q : List QStmt}, List.Forall₂ (Matches lib read regs c) S Q →
    ∃ (as : List (Appl (Fin c.qubits.length))) (f : State c.qubits.length ℂ → State c.qubits.length ℂ) (p : ℂ), QMeans lib as f ∧ ‖p‖ = 1 ∧ s'.ψ = p • f s.ψ ∧
      List.Forall₂ (fun (st : QStmt) a => st.name = a.1 ∧ st.params.map read = a.2.1.map some ∧
        List.Forall₂ (fun r t => position regs r = some t.val) st.refs a.2.2) Q as := by
  induction h with
  | nil =>
    intro Q hQ
    cases hQ
    exact ⟨[], id, 1, .nil, by simp, by simp, .nil⟩
  | @cons op ops s s1 s2 hstep _ ih =>
    intro Q hQ
    cases hQ with
    | @cons _ st _ Q h1 h2 =>
      obtain ⟨as, f, p, i1, i2, i3, i4⟩ := ih h2
      obtain ⟨g1, g2, xs, g3, g4⟩ := h1
      cases hstep with
      | blocked hb => obtain ⟨_, _, hb, -⟩ := hb; rw [g1] at hb; cases hb
      | @gate ts f1 _ hq hf =>
        obtain ⟨⟨f2, k1, q, k2, k3⟩, k4⟩ := g4 ts f1 hq hf
        refine ⟨(st.name, xs, ts) :: as, f ∘ f2, p * q⁻¹, QMeans.append k1 i1, ?_, ?_, .cons ⟨rfl, g3, k4⟩ i4⟩
        · rw [norm_mul, norm_inv, i2, k2]; simp
        · have hq0 : q ≠ 0 := by rintro rfl; simp at k2
          rw [i3]
          simp only [Function.comp]
          rw [k3, QMeans.smul i1, smul_smul, mul_assoc, inv_mul_cancel₀ hq0, mul_one]
      | measure _ hm _ => exact absurd hm g2

/-! ## Definitions -/

/-- `gate swap a, b { cx b, a; cx a, b; cx b, a; }`. -/
def swapDef : GateDef := ⟨"swap", [], ["a", "b"], [("cx", [], ["b", "a"]), ("cx", [], ["a", "b"]), ("cx", [], ["b", "a"])]⟩

/-- `gate cswap c, a, b { cx b, a; ccx c, a, b; cx b, a; }`. -/
def cswapDef : GateDef := ⟨"cswap", [], ["c", "a", "b"], [("cx", [], ["b", "a"]), ("ccx", [], ["c", "a", "b"]), ("cx", [], ["b", "a"])]⟩

theorem swapDef_text : swapDef.text = "gate swap a, b { cx b, a; cx a, b; cx b, a; }" := by decide +kernel
theorem cswapDef_text : cswapDef.text = "gate cswap c, a, b { cx b, a; ccx c, a, b; cx b, a; }" := by decide +kernel

theorem swapDef_at : swapDef.at [] = some (2, [("cx", [], [1, 0]), ("cx", [], [0, 1]), ("cx", [], [1, 0])]) := rfl
theorem cswapDef_at : cswapDef.at [] = some (3, [("cx", [], [2, 1]), ("ccx", [], [0, 1, 2]), ("cx", [], [2, 1])]) := rfl

theorem libOf_swapLib {defs : List GateDef} (h : ∀ d ∈ defs, d = swapDef ∨ d = cswapDef) : SwapLib (libOf defs) := by
  have key : ∀ name d, defs.find? (fun d => d.name == name) = some d → (d = swapDef ∧ name = "swap") ∨ (d = cswapDef ∧ name = "cswap") := by
    intro name d hd
    have h1 := List.find?_some hd
    have h2 := List.mem_of_find?_eq_some hd
    rcases h d h2 with rfl | rfl
    · exact .inl ⟨rfl, by simpa [swapDef] using (beq_iff_eq.1 h1).symm⟩
    · exact .inr ⟨rfl, by simpa [cswapDef] using (beq_iff_eq.1 h1).symm⟩
  refine ⟨?_, ?_, ?_⟩
  · intro name h1 h2
    funext ps
    simp only [libOf]
    cases hf : defs.find? (fun d => d.name == name) with
    | none => rfl
    | some d => rcases key _ _ hf with ⟨-, e⟩ | ⟨-, e⟩ <;> contradiction
  · simp only [libOf]
    cases hf : defs.find? (fun d => d.name == "swap") with
    | none => exact .inl rfl
    | some d =>
      rcases key _ _ hf with ⟨rfl, e⟩ | ⟨-, e⟩
      · exact .inr swapDef_at
      · exact absurd e (by decide)
  · simp only [libOf]
    cases hf : defs.find? (fun d => d.name == "cswap") with
    | none => rfl
    | some d =>
      rcases key _ _ hf with ⟨-, e⟩ | ⟨rfl, e⟩
      · exact absurd e (by decide)
      · exact cswapDef_at

end DG.Proofs
