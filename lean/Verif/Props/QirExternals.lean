import Verif.Props.QirModule

/-!
# C89 — external functions after `reset(rm_instructions=False)`

`uniq fs f` is the name that LLVM gives to a function that is declared as `f` in a module that has the functions `fs` already; it is not in `fs`.
-/

namespace DG.Props
open DG.Spec
variable {K : Type} {uniq : List String → String → String}

theorem redeclare_spec (l : PyDict String (String × List QirTy)) (fs : List String) :
    (BaseModule.redeclare uniq l fs).1 = fs ++ (BaseModule.redeclare uniq l fs).2.map (fun p => p.2.1) ∧
    (BaseModule.redeclare uniq l fs).2.map (fun p => (p.1, p.2.2)) = l.map (fun p => (p.1, p.2.2)) ∧
    ((∀ gs g, uniq gs g ∉ gs) → fs.Nodup → (BaseModule.redeclare uniq l fs).1.Nodup) := by
  induction l generalizing fs with
  | nil => exact ⟨by simp [BaseModule.redeclare], rfl, fun _ h => h⟩
  | cons p l ih =>
    obtain ⟨name, f, tys⟩ := p
    obtain ⟨h1, h2, h3⟩ := ih (fs ++ [uniq fs f])
    simp only [BaseModule.redeclare]
    refine ⟨?_, ?_, fun hu hn => h3 hu ?_⟩
    · rw [h1]
      simp
    · simp [h2]
    · rw [List.nodup_append]
      refine ⟨hn, by simp, ?_⟩
      intro a ha b hb hab
      simp only [List.mem_singleton] at hb
      subst hab hb
      exact hu fs f ha

/-- C89: after `reset(rm_instructions=False)`, the same external functions with the same types are known, in the same order; the functions of the new module are exactly these; and no two of
them have the same name in the module. -/
theorem C89_externals {M M' : BaseModule K} (hr : (ModCall.reset false).run uniq M = (.ok none, M')) :
    M'.externals.map (fun p => (p.1, p.2.2)) = M.externals.map (fun p => (p.1, p.2.2)) ∧ M'.functions = M'.externals.map (fun p => p.2.1) ∧
    ((∀ gs g, uniq gs g ∉ gs) → M'.functions.Nodup) := by
  have h1 : ((M.reset uniq false).1.map fun _ => (none : Option (List (QirDef K)))) = .ok none := congrArg Prod.fst hr
  have h2 : (M.reset uniq false).2 = M' := congrArg Prod.snd hr
  unfold BaseModule.reset at h1 h2
  dsimp only at h1 h2
  cases hM : M.ret <;> rw [hM] at h1 h2 <;> dsimp only at h1 h2
  · cases h1
  · subst h2
    obtain ⟨g1, g2, g3⟩ := redeclare_spec (uniq := uniq) M.externals []
    refine ⟨g2, ?_, fun hu => g3 hu List.nodup_nil⟩
    exact g1.trans (List.nil_append _)
  · cases h1

/-- Not vacuous: the demo module, compiled and then reset, has one external function. -/
example : ((ModCall.reset false).run uniqDemo compiledModuleDemo).1 = .ok none ∧
    ((ModCall.reset false).run uniqDemo compiledModuleDemo).2.externals = [("swap", "__quantum__qis__swap__body", [.qubit, .qubit])] ∧
    ((ModCall.reset false).run uniqDemo compiledModuleDemo).2.functions = ["__quantum__qis__swap__body"] := by decide +kernel

/-- Not vacuous: there are such functions `uniq`. -/
example : ∃ u : List String → String → String, ∀ gs g, u gs g ∉ gs := by
  have : ∀ gs : List String, ∃ s : String, s ∉ gs := by
    intro gs
    have hb : ∃ n : Nat, ∀ s ∈ gs, s.length ≤ n := by
      induction gs with
      | nil => exact ⟨0, by simp⟩
      | cons s gs ih =>
        obtain ⟨n, hn⟩ := ih
        refine ⟨max s.length n, fun t ht => ?_⟩
        rcases List.mem_cons.1 ht with rfl | ht
        · exact le_max_left _ _
        · exact (hn t ht).trans (le_max_right _ _)
    obtain ⟨n, hn⟩ := hb
    refine ⟨String.ofList (List.replicate (n + 1) 'a'), fun h => ?_⟩
    have := hn _ h
    simp at this
    omega
  exact ⟨fun gs _ => Classical.choose (this gs), fun gs _ => Classical.choose_spec (this gs)⟩

end DG.Props
