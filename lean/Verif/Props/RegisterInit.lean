import Verif.Props.Registers

/-!
# C01 — registers that are made from registers and ranges

`Register(x)` takes a register, a range or any other iterable (cyregister.pyx 30-49), with a case of its own for each.
-/

namespace DG.Props
open DG.CyReg

/-- The items that are passed to the constructor: nothing, those of a register, those of `range(stop)`, or those of an iterable, where repeated items count once. -/
def Given (ev : EqEnv) : Init → List Lbl → Prop
  | .none, L => L = []
  | .reg r, L => Reachable ev r ∧ r.iter = .ok L
  | .range0 stop, L => L = (List.range stop.toNat).map fun (i : Nat) => Lbl.int i
  | .iter data, L => L = (Spec.extend [] data true).2

theorem rep_given {ev : EqEnv} (hev : Inert ev) {src : Init} {L : List Lbl} (h : Given ev src L) : Rep (init ev src) L := by
  cases src with
  | none => obtain rfl := h; exact rep_empty
  | reg r => exact h.1.rep_iter hev h.2
  | iter data => obtain rfl := h; exact rep_init hev data
  | range0 stop =>
    obtain rfl := h
    have hi : Function.Injective fun (i : Nat) => Lbl.int (i : Int) := fun a b hab => by
      have := Lbl.int.inj hab
      omega
    have hget : ∀ (i : Nat) (w : Lbl), ((List.range stop.toNat).map fun (i : Nat) => Lbl.int (i : Int))[i]? = some w → w = .int i := by
      intro i w hw
      rw [List.getElem?_map] at hw
      obtain ⟨a, ha, rfl⟩ := Option.map_eq_some_iff.1 hw
      obtain ⟨hlt, he⟩ := List.getElem?_eq_some_iff.1 ha
      simp only [List.getElem_range] at he
      rw [he]
    refine ⟨?_, List.nodup_range.map hi, List.nodup_nil, ?_, ?_⟩
    · simp [init]
      omega
    · intro k w
      simp only [init, PyDict.get?]
      constructor
      · intro h; cases h
      · rintro ⟨i, -, h1, h2⟩
        exact absurd (hget i w h1) h2
    · intro v w
      simp only [init, PyDict.get?]
      constructor
      · intro h; cases h
      · rintro ⟨i, -, h1, h2⟩
        exact absurd (hget i v h1) h2

/-- **C01, all ways to make a register.**  After any history of operations on `Register(x)`, every result and every observation is the one of a duplicate-free list that started
with the items of `x` and went through the same history. -/
theorem C01_constructors (ev : EqEnv) (hev : Inert ev) (src : Init) (L : List Lbl) (hs : Given ev src L) (ops : List Spec.RegOp) (hpre : Spec.PreAll ops L) :
    let impl := run ev ops (init ev src)
    let spec := Spec.run ops L
    impl.1 = spec.1 ∧
    spec.2.Nodup ∧
    impl.2.stop = spec.2.length ∧
    impl.2.iter = .ok spec.2 ∧
    (∀ i, impl.2.at i = Spec.getItem spec.2 i) ∧
    (∀ v, impl.2.index v = if v ∈ spec.2 then .ok (spec.2.idxOf v : Int) else .error .valueError) ∧
    (∀ v, impl.2.count v = decide (v ∈ spec.2)) := by
  obtain ⟨h1, h2⟩ := run_eq hev ops (rep_given hev hs) hpre
  exact ⟨h1, h2.nodup, h2.stop, h2.iter_eq, h2.at_eq, h2.index_eq, h2.count_eq⟩

/-- Not vacuous: a range of three integers, a negative range, and a register made from a register with objects. -/
example : Given ev0 (.range0 3) [.int 0, .int 1, .int 2] ∧ Given ev0 (.range0 (-2)) [] ∧
    Given ev0 (.reg (init ev0 (.iter [.obj 4, .int 0]))) [.obj 4, .int 0] :=
  ⟨rfl, rfl, reachable_new _ _, by decide⟩

end DG.Props
