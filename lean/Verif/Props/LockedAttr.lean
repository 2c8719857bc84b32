import Verif.Spec.LockedAttr
import Verif.Props.MixedProperty

/-!
# Property C96: the matrices of classes of operations cannot be replaced

`setLocked code contains h k name v` is `K.name = v` for a class `K` of operations; `HasMixed h k name sr n` says that the class has, or inherits, the mixed property of the
function number `n`.
-/

namespace DG.Mixed
open Spec
variable {V : Type}

theorem find_none {h : Heap V} {name : String} (hn : NoClassHas h name) : ∀ ks : List Nat, find h name ks = none
  | [] => rfl
  | k :: ks => by
    unfold find
    cases hk : h.classes[k]? with
    | none => exact find_none hn ks
    | some K =>
      dsimp only
      rw [hn K (List.mem_of_getElem? hk)]
      exact find_none hn ks

theorem lookup_none {h : Heap V} {name : String} (hn : NoClassHas h name) (k : Nat) : lookup h k name = none := by
  unfold lookup
  split
  · rfl
  · exact find_none hn _

theorem get?_erase_none {d : PyDict String (Attr V)} {name m : String} (h : d.get? name = none) : (d.erase m).get? name = none := by
  rw [PyDict.get?_erase]
  split
  · rfl
  · exact h

theorem decent_step {code : Nat → Fn V} {contains : V → String → Except Err Bool} {h : Heap V} {k : Nat} {sr : Bool} {n : Nat}
    (hl : NoClassHas h "locked_attributes") (hm : HasMixed h k "matrix" sr n) (s : LStmt V) (hs : Decent s) :
    NoClassHas (s.exec code contains h).2 "locked_attributes" ∧ HasMixed (s.exec code contains h).2 k "matrix" sr n := by
  have old : ∀ t : Stmt V, (t.exec h).2.classes = h.classes → NotToClass "matrix" t →
      NoClassHas (t.exec h).2 "locked_attributes" ∧ HasMixed (t.exec h).2 k "matrix" sr n := by
    intro t e ht
    exact ⟨by unfold NoClassHas; rw [e]; exact hl, exec_mixed hm t ht⟩
  cases s with
  | newInst j =>
    refine old (.newInst j) ?_ trivial
    simp only [Stmt.exec]
    split <;> rfl
  | setInst i m v =>
    refine old (.setInst i m v) ?_ trivial
    simp only [Stmt.exec, setInst]
    split
    · rfl
    · split <;> rfl
  | delInst i m =>
    refine old (.delInst i m) ?_ trivial
    simp only [Stmt.exec, delInst]
    split
    · rfl
    · split
      · rfl
      · split <;> rfl
  | setClass j m v =>
    simp only [LStmt.exec, setLocked, isLocked, lookup_none hl]
    by_cases e : m = "matrix"
    · simp [e, lockedAttributes, hl, hm]
    · have : decide (m ∈ lockedAttributes) = false := by simp [lockedAttributes, e]
      rw [this]
      dsimp only
      refine ⟨?_, exec_mixed hm (.setClass j m v) e⟩
      unfold setClass
      cases hj : h.classes[j]? with
      | none => exact hl
      | some J =>
        intro K hK
        rcases List.mem_or_eq_of_mem_set hK with hK | rfl
        · exact hl K hK
        · dsimp only
          rw [PyDict.get?_set, if_neg (fun e => hs e)]
          exact hl J (List.mem_of_getElem? hj)
  | delClass j m =>
    simp only [LStmt.exec, delClass]
    cases hj : h.classes[j]? with
    | none => exact ⟨hl, hm⟩
    | some J =>
      dsimp only
      cases hg : J.dict.get? m with
      | none => exact ⟨hl, hm⟩
      | some a =>
        dsimp only
        constructor
        · intro K hK
          rcases List.mem_or_eq_of_mem_set hK with hK | rfl
          · exact hl K hK
          · exact get?_erase_none (hl J (List.mem_of_getElem? hj))
        · have hlt := (List.getElem?_eq_some_iff.1 hj).1
          obtain ⟨K, h1, h2⟩ := hm
          have key : ∀ (k : Nat) (K : Cls V), h.classes[k]? = some K → ∃ K' : Cls V, (h.classes.set j { J with dict := J.dict.erase m })[k]? = some K' ∧
              K'.mro = K.mro ∧ K'.dict.get? "matrix" = K.dict.get? "matrix" := by
            intro k K hk
            by_cases e : j = k
            · subst e
              rw [hj] at hk; cases hk
              refine ⟨_, List.getElem?_set_self hlt, rfl, ?_⟩
              dsimp only
              rw [PyDict.get?_erase, if_neg]
              exact fun e => hs e
            · exact ⟨K, by rw [List.getElem?_set_ne e]; exact hk, rfl, rfl⟩
          obtain ⟨K', e1, e2, -⟩ := key k K h1
          refine ⟨K', e1, ?_⟩
          rw [e2]
          refine first_same (fun k K hk => ?_) h2
          obtain ⟨K', e1, -, e3⟩ := key k K hk
          exact ⟨K', e1, e3⟩
  | newClass mro dict =>
    simp only [LStmt.exec, newClass]
    constructor
    · intro K hK
      rcases List.mem_append.1 hK with hK | hK
      · exact hl K hK
      · rw [List.mem_singleton.1 hK]
        exact hs
    · obtain ⟨K, h1, h2⟩ := hm
      have key : ∀ (k : Nat) (K : Cls V), h.classes[k]? = some K → (h.classes ++ [⟨h.classes.length :: mro, dict⟩])[k]? = some K := by
        intro k K hk
        rw [List.getElem?_append_left (List.getElem?_eq_some_iff.1 hk).1]
        exact hk
      exact ⟨K, key k K h1, first_same (fun k K hk => ⟨K, key k K hk, rfl⟩) h2⟩

theorem decent_steps {code : Nat → Fn V} {contains : V → String → Except Err Bool} {k : Nat} {sr : Bool} {n : Nat} : ∀ (ss : List (LStmt V)) {h : Heap V},
    NoClassHas h "locked_attributes" → HasMixed h k "matrix" sr n → (∀ s ∈ ss, Decent s) →
    NoClassHas (execLocked code contains ss h) "locked_attributes" ∧ HasMixed (execLocked code contains ss h) k "matrix" sr n
  | [], _, hl, hm, _ => ⟨hl, hm⟩
  | s :: ss, _, hl, hm, hs => by
    obtain ⟨h1, h2⟩ := decent_step (code := code) (contains := contains) hl hm s (hs s (by simp))
    exact decent_steps ss h1 h2 fun t ht => hs t (by simp [ht])

end DG.Mixed

namespace DG.Props
open Spec Mixed
variable {V : Type}

/-- C96: assigning to `matrix` on a class of operations raises `ValueError` and changes nothing; assigning to another attribute of an existing class works, and the
attribute then has this value. -/
theorem C96_assign (code : Nat → Fn V) (contains : V → String → Except Err Bool) {h : Heap V} (hl : NoClassHas h "locked_attributes") {k : Nat} {K : Cls V}
    (hK : h.classes[k]? = some K) {ks : List Nat} (hk : K.mro = k :: ks) (v : V) :
    setLocked code contains h k "matrix" v = (.error .valueError, h) ∧
    ∀ name, name ≠ "matrix" → ∃ h', setLocked code contains h k name v = (.ok (), h') ∧ getClass code h' k name = .ok (some v) := by
  constructor
  · simp [setLocked, isLocked, lookup_none hl, lockedAttributes]
  · intro name e
    obtain ⟨h1, h2, -⟩ := C69_violated code hK hk name v
    refine ⟨(setClass h k name v).2, ?_, h2⟩
    have : decide (name ∈ lockedAttributes) = false := by simp [lockedAttributes, e]
    simp only [setLocked, isLocked, lookup_none hl, this]
    exact Prod.ext h1 rfl

/-- C96, except for deletions and for classes with an own attribute `locked_attributes`: whatever is done, with exceptions caught, every class of operations keeps the `matrix` that
was declared for it: reading it calls the same function as before. -/
theorem C96_partial (code : Nat → Fn V) (contains : V → String → Except Err Bool) {h : Heap V} (hl : NoClassHas h "locked_attributes") {k : Nat} {sr : Bool} {n : Nat}
    (hm : HasMixed h k "matrix" sr n) (ss : List (LStmt V)) (hs : ∀ s ∈ ss, Decent s) :
    HasMixed (execLocked code contains ss h) k "matrix" sr n ∧
    ((code n).numParams = 1 → getClass code (execLocked code contains ss h) k "matrix" = (code n).run (execLocked code contains ss h) [.cls k]) ∧
    ((code n).numParams = 2 → getClass code (execLocked code contains ss h) k "matrix" =
      if sr then .ok none else (code n).run (execLocked code contains ss h) [.cls k, .self none]) ∧
    ∀ (i : Nat) (x : Inst V), (execLocked code contains ss h).insts[i]? = some x → x.cls = k →
      ((code n).numParams = 1 → getInst code (execLocked code contains ss h) i "matrix" = (code n).run (execLocked code contains ss h) [.cls k]) ∧
      ((code n).numParams = 2 → getInst code (execLocked code contains ss h) i "matrix" = (code n).run (execLocked code contains ss h) [.cls k, .self (some i)]) := by
  have h2 := (decent_steps (code := code) (contains := contains) ss hl hm hs).2
  refine ⟨h2, (C69_class code h2).1, (C69_class code h2).2, fun i x hx hc => ?_⟩
  subst hc
  exact C69_instance code hx h2

/-- C96 is violated: deleting works. If the class itself has the attribute, `del K.matrix` succeeds and the class then has the attribute that it inherits. -/
theorem C96_delete_violated {h : Heap V} {k : Nat} {K : Cls V} (hK : h.classes[k]? = some K) {ks : List Nat} (hk : K.mro = k :: ks) (hnk : k ∉ ks) {a : Attr V}
    (ha : K.dict.get? "matrix" = some a) {b : Attr V} (hb : FirstOf h "matrix" ks b) :
    ∃ h', delClass h k "matrix" = (.ok (), h') ∧ lookup h k "matrix" = some a ∧ lookup h' k "matrix" = some b := by
  have hlt := (List.getElem?_eq_some_iff.1 hK).1
  refine ⟨{ h with classes := h.classes.set k { mro := K.mro, dict := K.dict.erase "matrix" } }, by simp only [delClass, hK, ha], by simp [lookup, hK, hk, find, ha], ?_⟩
  simp only [lookup, List.getElem?_set_self hlt, hk, find, PyDict.get?_erase, if_true]
  have : ∀ {ls : List Nat}, k ∉ ls → FirstOf h "matrix" ls b → find { h with classes := h.classes.set k { mro := k :: ks, dict := K.dict.erase "matrix" } } "matrix" ls = some b := by
    intro ls hn hf
    induction hf with
    | @here j js J a h1 h2 =>
      have e : k ≠ j := fun e => hn (by simp [e])
      simp [find, List.getElem?_set_ne e, h1, h2]
    | @later j js J a h1 h2 _ ih =>
      have e : k ≠ j := fun e => hn (by simp [e])
      simp [find, List.getElem?_set_ne e, h1, h2, ih hb (fun e => hn (List.mem_cons_of_mem _ e))]
  exact this hnk hb

/-- C96 is violated: after `K.locked_attributes = v`, where `v` does not contain `matrix`, assigning to `K.matrix` works. -/
theorem C96_list_violated (code : Nat → Fn V) (contains : V → String → Except Err Bool) {h : Heap V} (hl : NoClassHas h "locked_attributes") {k : Nat} {K : Cls V}
    (hK : h.classes[k]? = some K) {ks : List Nat} (hk : K.mro = k :: ks) {v : V} (hv : contains v "matrix" = .ok false) (m : V) :
    ∃ h1 h2, setLocked code contains h k "locked_attributes" v = (.ok (), h1) ∧ setLocked code contains h1 k "matrix" m = (.ok (), h2) ∧
      getClass code h2 k "matrix" = .ok (some m) := by
  obtain ⟨h1, e1, e2⟩ := (C96_assign code contains hl hK hk v).2 "locked_attributes" (by decide)
  have e3 : h1 = (setClass h k "locked_attributes" v).2 := by
    have := congrArg Prod.snd e1
    refine this.symm.trans ?_
    simp [setLocked, isLocked, lookup_none hl, lockedAttributes]
  have hlt := (List.getElem?_eq_some_iff.1 hK).1
  have hK1 : h1.classes[k]? = some { K with dict := K.dict.set "locked_attributes" (.plain v) } := by
    rw [e3]
    simp only [setClass, hK, List.getElem?_set_self hlt]
  have hl1 : lookup h1 k "locked_attributes" = some (.plain v) := by
    simp only [lookup, hK1, hk, find, PyDict.get?_set, if_true]
  obtain ⟨f1, f2, -⟩ := C69_violated code hK1 hk "matrix" m
  refine ⟨h1, (setClass h1 k "matrix" m).2, e1, ?_, f2⟩
  simp only [setLocked, isLocked, hl1, e2, hv]
  exact Prod.ext f1 rfl

/-- `Operation` with its `matrix`, a gate class with its own, and an instance. -/
def lockedDemo : Heap Nat :=
  { classes := [⟨[0], [("matrix", .mixed (decorate 0))]⟩, ⟨[1, 0], [("matrix", .mixed (decorate 1)), ("_num_qubits", .plain 1)]⟩], insts := [⟨1, []⟩] }

/-- The function of `Operation` returns nothing, the one of the gate 7. -/
def lockedCode : Nat → Fn Nat
  | 0 => ⟨1, fun _ _ => .ok none⟩
  | _ => ⟨1, fun _ _ => .ok (some 7)⟩

/-- Assignments, also in a subclass, leave the matrix of the gate; `del X.matrix` does not, nor does assigning to `X.locked_attributes` first. Every number contains no name. -/
example : NoClassHas lockedDemo "locked_attributes" ∧ HasMixed lockedDemo 1 "matrix" false 1 ∧
    (∀ s ∈ ([.setClass 1 "matrix" 3, .setClass 1 "_num_qubits" 2, .newClass [1, 0] [("matrix", .plain 4)], .setInst 0 "matrix" 5, .delClass 1 "_num_qubits"] : List (LStmt Nat)),
      Decent s) ∧
    getClass lockedCode (execLocked lockedCode (fun _ _ => .ok false) [.setClass 1 "matrix" 3, .setClass 1 "_num_qubits" 2, .newClass [1, 0] [("matrix", .plain 4)],
      .setInst 0 "matrix" 5, .delClass 1 "_num_qubits"] lockedDemo) 1 "matrix" = .ok (some 7) ∧
    getClass lockedCode (execLocked lockedCode (fun _ _ => .ok false) [.delClass 1 "matrix"] lockedDemo) 1 "matrix" = .ok none ∧
    getClass lockedCode (execLocked lockedCode (fun _ _ => .ok false) [.setClass 1 "locked_attributes" 0, .setClass 1 "matrix" 3] lockedDemo) 1 "matrix" = .ok (some 3) := by
  refine ⟨?_, ⟨_, rfl, .here (k := 1) rfl rfl⟩, ?_, by decide +kernel, by decide +kernel, by decide +kernel⟩
  · simp [NoClassHas, lockedDemo, PyDict.get?]
  · simp [Decent, PyDict.get?]

end DG.Props
