import Verif.Spec.Template
import Verif.Proofs.SimFinal

/-! # Circuits as templates -/

noncomputable section

namespace DG
open Spec Sim

variable {k n : Nat} {ι : Fin k → Fin n}

theorem extend_self (hι : Function.Injective ι) (x : Fin n → Bool) : Function.extend ι (x ∘ ι) x = x := by
  funext j
  by_cases h : ∃ i, ι i = j
  · obtain ⟨i, rfl⟩ := h
    rw [hι.extend_apply]
    rfl
  · rw [Function.extend_apply' _ _ _ h]

theorem extend_extend (y y' : Fin k → Bool) (x : Fin n → Bool) : Function.extend ι y' (Function.extend ι y x) = Function.extend ι y' x := by
  funext j
  by_cases h : ∃ i, ι i = j
  · simp [Function.extend, h]
  · rw [Function.extend_apply' _ _ _ h, Function.extend_apply' _ _ _ h, Function.extend_apply' _ _ _ h]

theorem extend_update (hι : Function.Injective ι) (y : Fin k → Bool) (x : Fin n → Bool) (t : Fin k) (b : Bool) :
    Function.extend ι (Function.update y t b) x = Function.update (Function.extend ι y x) (ι t) b := by
  funext j
  by_cases h : ∃ i, ι i = j
  · obtain ⟨i, rfl⟩ := h
    rw [hι.extend_apply]
    by_cases e : i = t
    · subst e; simp
    · rw [Function.update_of_ne e, Function.update_of_ne (hι.ne e), hι.extend_apply]
  · rw [Function.extend_apply' _ _ _ h, Function.update_of_ne (fun e => h ⟨t, e.symm⟩), Function.extend_apply' _ _ _ h]

theorem extend_swap (hι : Function.Injective ι) (y : Fin k → Bool) (x : Fin n → Bool) (a b : Fin k) :
    Function.extend ι (y ∘ Equiv.swap a b) x = Function.extend ι y x ∘ Equiv.swap (ι a) (ι b) := by
  funext j
  by_cases h : ∃ i, ι i = j
  · obtain ⟨i, rfl⟩ := h
    rw [hι.extend_apply]
    simp only [Function.comp]
    rw [← hι.map_swap, hι.extend_apply]
  · rw [Function.extend_apply' _ _ _ h]
    simp only [Function.comp]
    rw [Equiv.swap_apply_of_ne_of_ne (fun e => h ⟨a, e.symm⟩) (fun e => h ⟨b, e.symm⟩), Function.extend_apply' _ _ _ h]

theorem onQubits_gate (hι : Function.Injective ι) (t : Fin k) (G : Bool → Bool → ℂ) : onQubits ι (applyGate t G) = applyGate (ι t) G := by
  funext ψ x
  simp only [onQubits, applyGate, Function.comp, extend_update hι]
  rw [extend_self hι x]

theorem onQubits_id (hι : Function.Injective ι) : onQubits ι id = id := by
  funext ψ x
  simp only [onQubits, id, extend_self hι]

theorem onQubits_comp (hι : Function.Injective ι) (f g : State k ℂ → State k ℂ) : onQubits ι (g ∘ f) = onQubits ι g ∘ onQubits ι f := by
  funext ψ x
  simp only [onQubits, Function.comp_apply]
  congr 1
  funext y
  rw [show Function.extend ι y x ∘ ι = y from Function.extend_comp hι y x]
  simp only [extend_extend]

theorem gateAct_lift (hι : Function.Injective ι) {K : Kind} {ts : List (Fin k)} {f : State k ℂ → State k ℂ} (h : GateAct K ts f) :
    GateAct K (ts.map ι) (onQubits ι f) := by
  cases h with
  | single t ha => rw [onQubits_gate hι]; exact .single _ ha
  | @controlled1 b a c t ha hne =>
    have e : onQubits ι (applyControlled [c] t (gateOf a)) = applyControlled [ι c] (ι t) (gateOf a) := by
      funext ψ x
      rw [applyControlled, ← onQubits_gate hι]
      simp only [onQubits, applyControlled, List.mem_singleton, forall_eq, Function.comp_apply, extend_self hι]
    rw [e]
    exact .controlled1 _ _ ha (hι.ne hne)
  | @controlled2 b a c c' t ha h1 h2 h3 =>
    have e : onQubits ι (applyControlled [c, c'] t (gateOf a)) = applyControlled [ι c, ι c'] (ι t) (gateOf a) := by
      funext ψ x
      rw [applyControlled, ← onQubits_gate hι]
      simp only [onQubits, applyControlled, List.mem_cons, List.not_mem_nil, or_false, forall_eq_or_imp, forall_eq, Function.comp_apply, extend_self hι]
    rw [e]
    exact .controlled2 _ _ _ ha (hι.ne h1) (hι.ne h2) (hι.ne h3)
  | swap a b hne =>
    have e : onQubits ι (applySwap a b) = applySwap (ι a) (ι b) := by
      funext ψ x
      simp only [onQubits, applySwap, extend_swap hι, extend_self hι]
    rw [e]
    exact .swap _ _ (hι.ne hne)
  | cswap c a b h1 h2 h3 =>
    have e : onQubits ι (applyCSwap c a b) = applyCSwap (ι c) (ι a) (ι b) := by
      funext ψ x
      simp only [onQubits, applyCSwap, applySwap, extend_swap hι, extend_self hι, Function.comp_apply]
    rw [e]
    exact .cswap _ _ _ (hι.ne h1) (hι.ne h2) (hι.ne h3)
  | ccx c c' t h1 h2 h3 =>
    have e : onQubits ι (fun ψ x => if x c = true ∧ x c' = true then ψ (Function.update x t (!x t)) else ψ x) =
        fun ψ x => if x (ι c) = true ∧ x (ι c') = true then ψ (Function.update x (ι t) (!x (ι t))) else ψ x := by
      funext ψ x
      simp only [onQubits, extend_update hι, extend_self hι, Function.comp_apply]
    rw [e]
    exact .ccx _ _ _ (hι.ne h1) (hι.ne h2) (hι.ne h3)

/-- Gates without conditions. -/
theorem exec_gate {c : SCircuit} {s : SOp} (hc : s.cond = none) {ts : List (Fin c.qubits.length)} (hts : s.qubits = ts.map (qubitAt c))
    {f : State c.qubits.length ℂ → State c.qubits.length ℂ} (hf : GateAct s.kind ts f) (u : Nat → ℝ) (ψ : State c.qubits.length ℂ)
    (bits : Nat → Option Bool) (d : Nat) : Step c u s ⟨ψ, bits, d⟩ ⟨f ψ, bits, d⟩ :=
  .gate (by rintro ⟨_, _, h, _⟩; rw [hc] at h; cases h) hts hf

/-- The gates of a template, and the same gates on qubits of another circuit. -/
theorem template_exec {c c' : SCircuit} {ι : Fin c.qubits.length → Fin c'.qubits.length} (hι : Function.Injective ι) :
    ∀ (S S' : List SOp), (∀ s ∈ S, GateOp c s ∧ s.cond = none) →
    List.Forall₂ (fun s s' => s'.kind = s.kind ∧ s'.cond = none ∧ ∀ ts : List (Fin c.qubits.length), s.qubits = ts.map (qubitAt c) →
      s'.qubits = (ts.map ι).map (qubitAt c')) S S' →
    ∃ U : State c.qubits.length ℂ → State c.qubits.length ℂ, (∀ u ψ bits d, Exec c u S ⟨ψ, bits, d⟩ ⟨U ψ, bits, d⟩) ∧
      ∀ u ψ bits d, Exec c' u S' ⟨ψ, bits, d⟩ ⟨onQubits ι U ψ, bits, d⟩ := by
  intro S
  induction S with
  | nil =>
    intro S' _ h
    cases h
    refine ⟨id, fun _ _ _ _ => .nil, ?_⟩
    rw [onQubits_id hι]
    exact fun _ _ _ _ => .nil
  | cons s S ih =>
    intro S' hg h
    cases h with
    | cons h1 h2 =>
      obtain ⟨U, i1, i2⟩ := ih _ (fun s hs => hg s (by simp [hs])) h2
      obtain ⟨g1, g2⟩ := hg s (by simp)
      obtain ⟨ts, f, hts, hf⟩ := gateAct_exists g1
      refine ⟨U ∘ f, fun u ψ bits d => .cons (exec_gate g2 hts hf u ψ bits d) (i1 u _ bits d), fun u ψ bits d => ?_⟩
      rw [onQubits_comp hι]
      refine .cons (exec_gate h1.2.1 (h1.2.2 ts hts) ?_ u ψ bits d) (i2 u _ bits d)
      rw [h1.1]
      exact gateAct_lift hι hf

end DG
