import Verif.Proofs.PyDict
import Verif.Spec.MixedProperty

/-!
# Property C69: mixed properties

`getClass code h k name` is `K.name` for a class, `getInst code h i name` is `x.name` for an instance; `code n` is the decorated function number `n`.
-/

namespace DG.Mixed
open Spec
variable {V : Type}

theorem find_first {h : Heap V} {name : String} {ks : List Nat} {a : Attr V} (hf : FirstOf h name ks a) : find h name ks = some a := by
  induction hf with
  | here h1 h2 => simp [find, h1, h2]
  | later h1 h2 _ ih => simp [find, h1, h2, ih]

theorem lookup_mixed {h : Heap V} {k : Nat} {name : String} {sr : Bool} {n : Nat} (hm : HasMixed h k name sr n) :
    lookup h k name = some (.mixed ⟨sr, some n⟩) := by
  obtain ⟨K, h1, h2⟩ := hm
  simp [lookup, h1, find_first h2]

/-- Whether a class has the mixed property depends on the entries of this name. -/
theorem first_same {h h' : Heap V} {name : String}
    (hs : ∀ (k : Nat) (K : Cls V), h.classes[k]? = some K → ∃ K' : Cls V, h'.classes[k]? = some K' ∧ K'.dict.get? name = K.dict.get? name) {ks : List Nat} {a : Attr V}
    (hf : FirstOf h name ks a) : FirstOf h' name ks a := by
  induction hf with
  | here h1 h2 => obtain ⟨K', e1, e2⟩ := hs _ _ h1; exact .here e1 (e2.trans h2)
  | later h1 h2 _ ih => obtain ⟨K', e1, e2⟩ := hs _ _ h1; exact .later e1 (e2.trans h2) ih

theorem exec_mixed {h : Heap V} {k : Nat} {name : String} {sr : Bool} {n : Nat} (hm : HasMixed h k name sr n) (s : Stmt V) (hs : NotToClass name s) :
    HasMixed (s.exec h).2 k name sr n := by
  have same : (s.exec h).2.classes = h.classes → HasMixed (s.exec h).2 k name sr n := by
    intro e
    obtain ⟨K, h1, h2⟩ := hm
    exact ⟨K, by rw [e]; exact h1, first_same (fun j J hj => ⟨J, by rw [e]; exact hj, rfl⟩) h2⟩
  cases s with
  | newInst j =>
    apply same
    simp only [Stmt.exec]
    split <;> rfl
  | setInst i m v =>
    apply same
    simp only [Stmt.exec, setInst]
    split
    · rfl
    · split <;> rfl
  | delInst i m =>
    apply same
    simp only [Stmt.exec, delInst]
    split
    · rfl
    · split
      · rfl
      · split <;> rfl
  | setClass j m v =>
    simp only [Stmt.exec, setClass]
    cases hj : h.classes[j]? with
    | none => exact hm
    | some J =>
      dsimp only
      have hlt := (List.getElem?_eq_some_iff.1 hj).1
      obtain ⟨K, h1, h2⟩ := hm
      have key : ∀ (k : Nat) (K : Cls V), h.classes[k]? = some K → ∃ K' : Cls V, (h.classes.set j { J with dict := J.dict.set m (.plain v) })[k]? = some K' ∧
          K'.mro = K.mro ∧ K'.dict.get? name = K.dict.get? name := by
        intro k K hk
        by_cases e : j = k
        · subst e
          rw [hj] at hk; cases hk
          refine ⟨_, List.getElem?_set_self hlt, rfl, ?_⟩
          dsimp only
          rw [PyDict.get?_set, if_neg]
          intro e
          exact hs e
        · exact ⟨K, by rw [List.getElem?_set_ne e]; exact hk, rfl, rfl⟩
      obtain ⟨K', e1, e2, -⟩ := key k K h1
      refine ⟨K', e1, ?_⟩
      rw [e2]
      refine first_same (fun k K hk => ?_) h2
      obtain ⟨K', e1, -, e3⟩ := key k K hk
      exact ⟨K', e1, e3⟩

theorem execAll_mixed {k : Nat} {name : String} {sr : Bool} {n : Nat} : ∀ (ss : List (Stmt V)) {h : Heap V}, HasMixed h k name sr n →
    (∀ s ∈ ss, NotToClass name s) → HasMixed (execAll ss h) k name sr n
  | [], _, hm, _ => hm
  | s :: ss, _, hm, hs => execAll_mixed ss (exec_mixed hm s (hs s (by simp))) fun t ht => hs t (by simp [ht])

end DG.Mixed

namespace DG.Props
open Spec Mixed
variable {V : Type}

/-! ## C69 -/

/-- C69: read on a class, a mixed property of a function of two parameters calls the function with this class and without an instance, or gives `None`
if the instance is required; one of a function of one parameter calls the function with this class. -/
theorem C69_class (code : Nat → Fn V) {h : Heap V} {k : Nat} {name : String} {sr : Bool} {n : Nat} (hm : HasMixed h k name sr n) :
    ((code n).numParams = 1 → getClass code h k name = (code n).run h [.cls k]) ∧
    ((code n).numParams = 2 → getClass code h k name = if sr then .ok none else (code n).run h [.cls k, .self none]) := by
  unfold getClass
  rw [lookup_mixed hm]
  refine ⟨fun e => ?_, fun e => ?_⟩
  · simp [Mixed.get, e, Fn.call]
  · cases sr <;> simp [Mixed.get, e, Fn.call]

/-- C69: read on an instance, a mixed property calls the function with the class of the instance and, if it has two parameters, the instance, even if
the instance itself has an attribute of this name. -/
theorem C69_instance (code : Nat → Fn V) {h : Heap V} {i : Nat} {x : Inst V} (hx : h.insts[i]? = some x) {name : String} {sr : Bool} {n : Nat}
    (hm : HasMixed h x.cls name sr n) :
    ((code n).numParams = 1 → getInst code h i name = (code n).run h [.cls x.cls]) ∧
    ((code n).numParams = 2 → getInst code h i name = (code n).run h [.cls x.cls, .self (some i)]) := by
  unfold getInst
  rw [hx]
  dsimp only
  rw [lookup_mixed hm]
  refine ⟨fun e => ?_, fun e => ?_⟩ <;> simp [Mixed.get, e, Fn.call]

/-- C69: a mixed property cannot be assigned to, or deleted, on an instance: `AttributeError` is raised and nothing is changed. -/
theorem C69_readonly {h : Heap V} {i : Nat} {x : Inst V} (hx : h.insts[i]? = some x) {name : String} {sr : Bool} {n : Nat}
    (hm : HasMixed h x.cls name sr n) (v : V) :
    setInst h i name v = (.error .attributeError, h) ∧ delInst h i name = (.error .attributeError, h) := by
  unfold setInst delInst
  rw [hx]
  dsimp only
  rw [lookup_mixed hm]
  exact ⟨rfl, rfl⟩

/-- C69, for assignments on instances: whatever is done, unless the attribute of this name is assigned on some class, classes keep their mixed property.
Missing: assignments on classes, see `C69_violated`. -/
theorem C69_partial {h : Heap V} {k : Nat} {name : String} {sr : Bool} {n : Nat} (hm : HasMixed h k name sr n) (ss : List (Stmt V))
    (hs : ∀ s ∈ ss, NotToClass name s) : HasMixed (execAll ss h) k name sr n :=
  execAll_mixed ss hm hs

/-- The property of a decorated function. -/
theorem C69_decorate (n : Nat) (sr : Bool) : decorate n = ⟨false, some n⟩ ∧ decorateWith sr n = ⟨sr, some n⟩ := ⟨rfl, rfl⟩

/-- C69: a `mixedproperty(...)` that was given no function raises `AttributeError` when it is read, on the class and on its instances. -/
theorem C69_undecorated (code : Nat → Fn V) {h : Heap V} {k : Nat} {K : Cls V} (hK : h.classes[k]? = some K) {name : String} {sr : Bool}
    (hf : FirstOf h name K.mro (.mixed ⟨sr, none⟩)) :
    getClass code h k name = .error .attributeError ∧
    ∀ (i : Nat) (x : Inst V), h.insts[i]? = some x → x.cls = k → getInst code h i name = .error .attributeError := by
  have hl : lookup h k name = some (.mixed ⟨sr, none⟩) := by simp [lookup, hK, find_first hf]
  refine ⟨by simp [getClass, hl, Mixed.get], fun i x hx hc => ?_⟩
  subst hc
  simp [getInst, hx, hl, Mixed.get]

/-- The hypothesis of `C69_undecorated` is met by a class with the attribute `a = mixedproperty(self_required=True)`. -/
example : FirstOf (V := Nat) { classes := [⟨[0], [("a", .mixed ⟨true, none⟩)]⟩] } "a" [0] (.mixed ⟨true, none⟩) := .here rfl rfl

/-- C69 is violated: on a class, a mixed property can be assigned to like any attribute, and is then gone for the class, for its subclasses and for all
instances that have no such attribute themselves. -/
theorem C69_violated (code : Nat → Fn V) {h : Heap V} {k : Nat} {K : Cls V} (hK : h.classes[k]? = some K) {ks : List Nat} (hk : K.mro = k :: ks)
    (name : String) (v : V) :
    (setClass h k name v).1 = .ok () ∧ getClass code (setClass h k name v).2 k name = .ok (some v) ∧
    ∀ (i : Nat) (x : Inst V), h.insts[i]? = some x → x.cls = k → x.dict.get? name = none →
      getInst code (setClass h k name v).2 i name = .ok (some v) := by
  have hlt := (List.getElem?_eq_some_iff.1 hK).1
  have hl : lookup (setClass h k name v).2 k name = some (.plain v) := by
    simp only [setClass, hK, lookup, List.getElem?_set_self hlt, hk, find, PyDict.get?_set, if_true]
  refine ⟨by simp [setClass, hK], by simp [getClass, hl], fun i x hx hc hd => ?_⟩
  have hx' : (setClass h k name v).2.insts[i]? = some x := by simp [setClass, hK, hx]
  simp only [getInst, hx', hc, hl, hd]

/-- A class with a mixed property of two parameters, one of one parameter, and one that requires the instance; a subclass; and an instance of it. -/
def heapMixedDemo : Heap Nat :=
  { classes := [⟨[0], [("a", .mixed (decorate 0)), ("b", .mixed (decorate 1)), ("c", .mixed (decorateWith true 1))]⟩, ⟨[1, 0], [("d", .plain 9)]⟩],
    insts := [⟨1, [("b", 100)]⟩] }

/-- The functions: the number of the class, and the sum of the numbers of class and instance plus 10, or the number of the class. -/
def codeMixedDemo : Nat → Fn Nat
  | 0 => ⟨1, fun _ args => match args with | [.cls k] => .ok (some k) | _ => .error .typeError⟩
  | _ => ⟨2, fun _ args => match args with
    | [.cls k, .self (some i)] => .ok (some (k + i + 10))
    | [.cls k, .self none] => .ok (some k)
    | _ => .error .typeError⟩

/-- The demo heap meets the hypotheses. -/
example : HasMixed heapMixedDemo 1 "c" true 1 := ⟨_, rfl, .later (k := 1) rfl (by decide +kernel) (.here (k := 0) rfl (by rfl))⟩

example : HasMixed heapMixedDemo 1 "b" false 1 := ⟨_, rfl, .later (k := 1) rfl (by decide +kernel) (.here (k := 0) rfl (by rfl))⟩

example : [getClass codeMixedDemo heapMixedDemo 1 "a", getClass codeMixedDemo heapMixedDemo 1 "b", getClass codeMixedDemo heapMixedDemo 1 "c",
    getInst codeMixedDemo heapMixedDemo 0 "a", getInst codeMixedDemo heapMixedDemo 0 "b", getInst codeMixedDemo heapMixedDemo 0 "c"] =
    [.ok (some 1), .ok (some 1), .ok none, .ok (some 1), .ok (some 11), .ok (some 11)] := by decide +kernel

example : getInst codeMixedDemo (execAll [.setInst 0 "c" 5, .delInst 0 "b", .setInst 0 "d" 3, .newInst 1] heapMixedDemo) 0 "c" = .ok (some 11) := by decide +kernel

end DG.Props
