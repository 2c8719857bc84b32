import Verif.Props.Circuit

/-! # C20 — `get_bit` with the label of a register -/

namespace DG.Props
open DG.Spec
variable {K : Type} [DecidableEq K] [Zero K]

/-- C20 for bits, as long as no bit is set: `get_bit(label, creg_label)` with a (truthy) label of a register searches this register only; an unknown label is a `KeyError`. -/
theorem C20_get_bit_in {A : Call K → Prop} (hA : ∀ e, A e → SetsNoBit e) {w : World K} (h : Reach A w) {c : Nat} {C : Circ} (hC : w.circs[c]? = some C) {L : Layout}
    (hL : Shows C.c L) (label : RLabel) {l : RLabel} (hl : l.truthy = true) :
    (∀ ks, (l, ks) ∈ L → (getBit c label (some l) false w).1 = (match ks.find? (fun k => (w.bits[k]?).map BitObj.label = some label) with
      | some k => .ok (.one k)
      | none => .error .valueError) ∧
      (getBit c label (some l) true w).1 = (if ks.filter (fun k => (w.bits[k]?).map BitObj.label = some label) = [] then .error .valueError
        else .ok (.many (ks.filter fun k => (w.bits[k]?).map BitObj.label = some label)))) ∧
    (l ∉ L.labels → ∀ all, (getBit c label (some l) all w).1 = .error .keyError) := by
  obtain ⟨-, -, L', h1, -⟩ := reach_c hA h hC
  cases Bank.shows_unique h1.shows hL
  unfold getBit
  simp only [hC]
  exact get_in_ok h1 _ label hl

/-- Two classical registers. -/
def getBitDemo : Prog Int := .seq (.call (.newCirc false none (some 1))) (.call (.addCReg 0 2 (some (.str "c"))))

/-- Not vacuous: the bit with label 0 is not in the second register, that with label 2 is. -/
example : (∃ C, getBitDemo.final.circs[0]? = some C ∧ Shows C.c [(.str "creg0", [0]), (.str "c", [1, 2])]) ∧
    (getBit 0 (.str "0") (some (.str "c")) false getBitDemo.final).1 = .error .valueError ∧
    (getBit 0 (.str "2") (some (.str "c")) false getBitDemo.final).1 = .ok (.one 2) ∧ (RLabel.str "c").truthy = true :=
  ⟨shows_circ Circ.c (by decide +kernel), by decide +kernel, by decide +kernel, by decide⟩

end DG.Props
