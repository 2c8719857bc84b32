import Verif.Model.Repr
import Verif.Proofs.QasmInj
import Verif.Proofs.CircuitRegs

/-!
# The printed text determines the object
-/

namespace DG
open Spec

/-- The part after the last separator. -/
theorem split_at_last {α : Type} {s : α} {a1 a2 b1 b2 : List α} (h1 : s ∉ b1) (h2 : s ∉ b2) (h : a1 ++ s :: b1 = a2 ++ s :: b2) : a1 = a2 ∧ b1 = b2 := by
  have := congrArg List.reverse h
  simp only [List.reverse_append, List.reverse_cons, List.append_assoc, List.singleton_append] at this
  obtain ⟨e1, e2⟩ := split_at (by simpa using h1) (by simpa using h2) this
  exact ⟨List.reverse_inj.1 e2, List.reverse_inj.1 e1⟩

theorem str_inj {s t : String} (h : s.toList = t.toList) : s = t := String.toList_inj.1 h

theorem reprQubit_inj {l1 l2 i1 i2 : String} (h1 : Free ' ' i1) (h2 : Free ' ' i2) (h : reprQubit l1 i1 = reprQubit l2 i2) : l1 = l2 ∧ i1 = i2 := by
  have := congrArg String.toList h
  have e : ∀ l i : String, (reprQubit l i).toList = ("<qubit: ".toList ++ l.toList ++ ", id:".toList) ++ ' ' :: (i.toList ++ ['>']) := by
    intro l i; simp [reprQubit]
  rw [e, e] at this
  obtain ⟨a, b⟩ := split_at_last (by simpa [Free] using h1) (by simpa [Free] using h2) this
  exact ⟨str_inj (List.append_cancel_left (List.append_cancel_right a)), str_inj (List.append_cancel_right b)⟩

theorem int_free {c : Char} (hc : c.isDigit = false) (hm : c ≠ '-') (n : Int) : Free c (toString n) := by
  cases n with
  | ofNat m => exact digits_free hc m
  | negSucc m =>
    have : (toString (Int.negSucc m)) = "-" ++ toString (m + 1) := rfl
    rw [this]
    refine Free.append ?_ (digits_free hc _)
    simpa [Free] using hm

theorem toString_int_inj {m n : Int} (h : toString m = toString n) : m = n := by
  have key : ∀ a b : Nat, toString (a : Int) ≠ toString (Int.negSucc b) := by
    intro a b e
    have e2 : toString (a : Int) = toString a := rfl
    have e1 : (toString (Int.negSucc b)) = "-" ++ toString (b + 1) := rfl
    rw [e1, e2] at e
    have := digits_free (c := '-') (by decide) a
    rw [e] at this
    simp [Free] at this
  cases m with
  | ofNat a => cases n with
    | ofNat b => exact congrArg _ (toString_nat_inj h)
    | negSucc b => exact absurd h (key a b)
  | negSucc a => cases n with
    | ofNat b => exact absurd h.symm (key b a)
    | negSucc b =>
      have e1 : ∀ b, (toString (Int.negSucc b)) = "-" ++ toString (b + 1) := fun _ => rfl
      rw [e1, e1] at h
      have := toString_nat_inj ((String.append_right_inj "-").1 h)
      congr 1
      omega

theorem reprBit_inj {l1 l2 i1 i2 : String} {v1 v2 : Option Int} (h1 : Free ' ' i1) (h2 : Free ' ' i2)
    (h : reprBit l1 i1 v1 = reprBit l2 i2 v2) : l1 = l2 ∧ i1 = i2 ∧ v1 = v2 := by
  have h := congrArg String.toList h
  have sp : ∀ v : Int, Free ' ' (toString v) := int_free (by decide) (by decide)
  have e : ∀ l i : String, (reprBit l i none).toList = ("<bit: ".toList ++ l.toList ++ ", id:".toList) ++ ' ' :: (i.toList ++ ['>']) := by
    intro l i; simp [reprBit]
  have e' : ∀ (l i : String) (v : Int), (reprBit l i (some v)).toList =
      (("<bit: ".toList ++ l.toList ++ ", id:".toList) ++ ' ' :: (i.toList ++ ", value:".toList)) ++ ' ' :: ((toString v).toList ++ ['>']) := by
    intro l i v; simp [reprBit]
  have en : ∀ (l i l' i' : String), "<bit: ".toList ++ l.toList ++ ", id:".toList ≠
      ("<bit: ".toList ++ l'.toList ++ ", id:".toList) ++ ' ' :: (i'.toList ++ ", value:".toList) := by
    intro l i l' i' e
    have := congrArg List.reverse e
    simp at this
  cases v1 with
  | none => cases v2 with
    | none =>
      rw [e, e] at h
      obtain ⟨a, b⟩ := split_at_last (by simpa [Free] using h1) (by simpa [Free] using h2) h
      exact ⟨str_inj (List.append_cancel_left (List.append_cancel_right a)), str_inj (List.append_cancel_right b), rfl⟩
    | some v =>
      rw [e, e'] at h
      obtain ⟨a, b⟩ := split_at_last (by simpa [Free] using h1) (by simpa [Free] using sp v) h
      exact absurd a (en l1 i1 l2 i2)
  | some v => cases v2 with
    | none =>
      rw [e, e'] at h
      obtain ⟨a, b⟩ := split_at_last (by simpa [Free] using sp v) (by simpa [Free] using h2) h
      exact absurd a.symm (en l2 i2 l1 i1)
    | some v' =>
      rw [e', e'] at h
      obtain ⟨a, b⟩ := split_at_last (by simpa [Free] using sp v) (by simpa [Free] using sp v') h
      rw [← List.cons_append, ← List.append_assoc, ← List.cons_append, ← List.append_assoc] at a
      obtain ⟨c, d⟩ := split_at_last h1 h2 (List.append_cancel_right a)
      exact ⟨str_inj (List.append_cancel_left (List.append_cancel_right c)), str_inj d,
        congrArg some (toString_int_inj (str_inj (List.append_cancel_right b)))⟩

theorem circuitText_inj {s1 s2 : String} {q1 q2 b1 b2 o1 o2 : Nat} (hs1 : Free ':' s1) (hs2 : Free ':' s2)
    (h : circuitText s1 q1 b1 o1 = circuitText s2 q2 b2 o2) : s1 = s2 ∧ q1 = q2 ∧ b1 = b2 ∧ o1 = o2 := by
  have h := congrArg String.toList h
  have e : ∀ (s : String) (q b o : Nat), (circuitText s q b o).toList = ('<' :: s.toList) ++ ':' :: (" qubits=".toList ++ ((toString q).toList ++ ',' ::
      (" bits=".toList ++ ((toString b).toList ++ ',' :: (" ops=".toList ++ ((toString o).toList ++ ['>'])))))) := by
    intro s q b o; simp [circuitText]
  rw [e, e] at h
  obtain ⟨a, h⟩ := split_at (by simpa [Free] using hs1) (by simpa [Free] using hs2) h
  have d : ∀ n : Nat, Free ',' (toString n) := digits_free (by decide)
  obtain ⟨b, h⟩ := split_at (d _) (d _) (List.append_cancel_left h)
  obtain ⟨c, h⟩ := split_at (d _) (d _) (List.append_cancel_left h)
  have h := List.append_cancel_right (List.append_cancel_left h)
  exact ⟨str_inj (List.cons.inj a).2, toString_nat_inj (str_inj b), toString_nat_inj (str_inj c), toString_nat_inj (str_inj h)⟩

/-! Tuples of items `<…>`. -/

/-- A text `<…>` without another `>`. -/
def Item (s : String) : Prop := ∃ b : List Char, '>' ∉ b ∧ s.toList = b ++ ['>']

/-- What follows the first of at least two items. -/
def tailChars : List String → List Char
  | [] => [')']
  | x :: l => ',' :: ' ' :: (x.toList ++ tailChars l)

theorem join_tail : ∀ (x : String) (l : List String), (joinWith ", " (x :: l)).toList ++ [')'] = x.toList ++ tailChars l
  | x, [] => by simp [joinWith, tailChars]
  | x, y :: l => by
    rw [joinWith_cons_toList (c := ',') (rest := [' ']) (by simp)]
    have := join_tail y l
    simp [tailChars, ← this]

theorem item_split {x y : String} (hx : Item x) (hy : Item y) {r1 r2 : List Char} (h : x.toList ++ r1 = y.toList ++ r2) : x = y ∧ r1 = r2 := by
  obtain ⟨b, hb, e⟩ := hx
  obtain ⟨b', hb', e'⟩ := hy
  rw [e, e'] at h
  simp only [List.append_assoc, List.singleton_append] at h
  obtain ⟨rfl, h'⟩ := split_at hb hb' h
  exact ⟨str_inj (e.trans e'.symm), h'⟩

theorem tail_split : ∀ {l1 l2 : List String} {r1 r2 : List Char}, (∀ x ∈ l1, Item x) → (∀ x ∈ l2, Item x) → tailChars l1 ++ r1 = tailChars l2 ++ r2 →
    l1 = l2 ∧ r1 = r2
  | [], [], _, _, _, _, h => by simpa [tailChars] using h
  | [], _ :: _, _, _, _, _, h => by simp [tailChars] at h
  | _ :: _, [], _, _, _, _, h => by simp [tailChars] at h
  | x :: l1, y :: l2, r1, r2, h1, h2, h => by
    simp only [tailChars, List.cons_append, List.append_assoc, List.cons.injEq, true_and] at h
    obtain ⟨rfl, h'⟩ := item_split (h1 x (by simp)) (h2 y (by simp)) h
    obtain ⟨e, h''⟩ := tail_split (fun z hz => h1 z (List.mem_cons_of_mem _ hz)) (fun z hz => h2 z (List.mem_cons_of_mem _ hz)) h'
    exact ⟨by rw [e], h''⟩

theorem tuple_chars (l : List String) : (pyTuple l).toList = match l with
    | [] => ['(', ')']
    | [x] => '(' :: (x.toList ++ [',', ')'])
    | x :: y :: l => '(' :: (x.toList ++ tailChars (y :: l)) := by
  match l with
  | [] => simp [pyTuple]
  | [x] => simp [pyTuple]
  | x :: y :: l =>
    have := join_tail x (y :: l)
    simp [pyTuple, ← this]

theorem item_head {x : String} (hx : Item x) {r s : List Char} (hp : x.toList ++ r = ')' :: s) (hx' : x.toList.head? = some '<') : False := by
  obtain ⟨b, -, e⟩ := hx
  rw [e] at hx' hp
  cases b with
  | nil => simp at hx'
  | cons c b => simp at hx' hp; rw [hx'] at hp; simp at hp

/-- An item that begins with `<`. -/
def Angle (s : String) : Prop := Item s ∧ s.toList.head? = some '<'

theorem tuple_split {l1 l2 : List String} {r1 r2 : List Char} (h1 : ∀ x ∈ l1, Angle x) (h2 : ∀ x ∈ l2, Angle x)
    (h : (pyTuple l1).toList ++ r1 = (pyTuple l2).toList ++ r2) : l1 = l2 ∧ r1 = r2 := by
  rw [tuple_chars, tuple_chars] at h
  match l1, l2 with
  | [], [] => simpa using h
  | [], [x] =>
    simp only [List.cons_append, List.append_assoc, List.cons.injEq, true_and, List.nil_append] at h
    exact (item_head (h2 x (by simp)).1 h.symm (h2 x (by simp)).2).elim
  | [], x :: y :: l =>
    simp only [List.cons_append, List.append_assoc, List.cons.injEq, true_and, List.nil_append] at h
    exact (item_head (h2 x (by simp)).1 h.symm (h2 x (by simp)).2).elim
  | [x], [] =>
    simp only [List.cons_append, List.append_assoc, List.cons.injEq, true_and, List.nil_append] at h
    exact (item_head (h1 x (by simp)).1 h (h1 x (by simp)).2).elim
  | x :: y :: l, [] =>
    simp only [List.cons_append, List.append_assoc, List.cons.injEq, true_and, List.nil_append] at h
    exact (item_head (h1 x (by simp)).1 h (h1 x (by simp)).2).elim
  | [x], [y] =>
    simp only [List.cons_append, List.append_assoc, List.cons.injEq, true_and] at h
    obtain ⟨rfl, h⟩ := item_split (h1 x (by simp)).1 (h2 y (by simp)).1 h
    simpa using h
  | [x], y :: z :: l =>
    simp only [List.cons_append, List.append_assoc, List.cons.injEq, true_and] at h
    obtain ⟨rfl, h⟩ := item_split (h1 x (by simp)).1 (h2 y (by simp)).1 h
    simp [tailChars] at h
  | y :: z :: l, [x] =>
    simp only [List.cons_append, List.append_assoc, List.cons.injEq, true_and] at h
    obtain ⟨rfl, h⟩ := item_split (h1 y (by simp)).1 (h2 x (by simp)).1 h
    simp [tailChars] at h
  | x :: y :: l, x' :: y' :: l' =>
    simp only [List.cons_append, List.append_assoc, List.cons.injEq, true_and] at h
    obtain ⟨rfl, h'⟩ := item_split (h1 x (by simp)).1 (h2 x' (by simp)).1 h
    obtain ⟨e, h''⟩ := tail_split (fun z hz => (h1 z (List.mem_cons_of_mem _ hz)).1) (fun z hz => (h2 z (List.mem_cons_of_mem _ hz)).1) h'
    exact ⟨by rw [e], h''⟩

theorem angleList_inj {l1 l2 : List String} (h1 : ∀ x ∈ l1, Angle x) (h2 : ∀ x ∈ l2, Angle x) (h : pyList l1 = pyList l2) : l1 = l2 := by
  have h := congrArg String.toList h
  simp only [pyList, String.toList_append] at h
  have h := List.append_cancel_left (List.append_cancel_right h)
  have ne : ∀ (x : String) (l : List String), Angle x → (joinWith ", " (x :: l)).toList ≠ [] := by
    intro x l hx e
    have := join_tail x l
    rw [e] at this
    exact item_head (s := []) hx.1 this.symm hx.2
  cases l1 with
  | nil => cases l2 with
    | nil => rfl
    | cons y l2 => exact absurd h.symm (by simpa [joinWith] using ne y l2 (h2 y (by simp)))
  | cons x l1 => cases l2 with
    | nil => exact absurd h (by simpa [joinWith] using ne x l1 (h1 x (by simp)))
    | cons y l2 =>
      have h := congrArg (· ++ [')']) h
      simp only [join_tail] at h
      obtain ⟨e, h'⟩ := item_split (h1 x (by simp)).1 (h2 y (by simp)).1 h
      have h'' : tailChars l1 ++ [] = tailChars l2 ++ [] := by rw [h']
      rw [e, (tail_split (fun z hz => (h1 z (List.mem_cons_of_mem _ hz)).1) (fun z hz => (h2 z (List.mem_cons_of_mem _ hz)).1) h'').1]

theorem reprRegister_inj {s t : String} (hs : Free ',' s) (ht : Free ',' t) {l1 l2 : List String} (h1 : ∀ x ∈ l1, Angle x)
    (h2 : ∀ x ∈ l2, Angle x) (h : reprRegister s l1 = reprRegister t l2) : s = t ∧ l1 = l2 := by
  have h := congrArg String.toList h
  have e : ∀ (s : String) (l : List String), (reprRegister s l).toList = ('<' :: s.toList) ++ ',' :: (" data=".toList ++ ((pyList l).toList ++ ['>'])) := by
    intro s l; simp [reprRegister]
  rw [e, e] at h
  obtain ⟨a, b⟩ := split_at (by simpa [Free] using hs) (by simpa [Free] using ht) h
  exact ⟨str_inj (List.cons.inj a).2, angleList_inj h1 h2 (str_inj (List.append_cancel_right (List.append_cancel_left b)))⟩

theorem strRegister_inj {s t : String} (hs : Free '(' s) (ht : Free '(' t) {l1 l2 : List String} (h1 : ∀ x ∈ l1, Angle x)
    (h2 : ∀ x ∈ l2, Angle x) (h : strRegister s l1 = strRegister t l2) : s = t ∧ l1 = l2 := by
  have h := congrArg String.toList h
  have e : ∀ (s : String) (l : List String), (strRegister s l).toList = s.toList ++ '(' :: ((pyList l).toList ++ [')']) := by
    intro s l; simp [strRegister]
  rw [e, e] at h
  obtain ⟨a, b⟩ := split_at hs ht h
  exact ⟨str_inj a, angleList_inj h1 h2 (str_inj (List.append_cancel_right b))⟩

theorem tuple_head (l : List String) : ∃ r, (pyTuple l).toList = '(' :: r := by
  rw [tuple_chars]
  match l with
  | [] => exact ⟨_, rfl⟩
  | [x] => exact ⟨_, rfl⟩
  | x :: y :: l => exact ⟨_, rfl⟩

theorem optTuple_split {l1 l2 : Option (List String)} {r1 r2 : List Char} (h1 : ∀ l, l1 = some l → ∀ x ∈ l, Angle x)
    (h2 : ∀ l, l2 = some l → ∀ x ∈ l, Angle x) (h : (pyOptTuple l1).toList ++ r1 = (pyOptTuple l2).toList ++ r2) : l1 = l2 ∧ r1 = r2 := by
  cases l1 with
  | none => cases l2 with
    | none => simpa using h
    | some l =>
      obtain ⟨r, e⟩ := tuple_head l
      simp [pyOptTuple, e] at h
  | some l => cases l2 with
    | none =>
      obtain ⟨r, e⟩ := tuple_head l
      simp [pyOptTuple, e] at h
    | some l' =>
      obtain ⟨e, h'⟩ := tuple_split (h1 l rfl) (h2 l' rfl) h
      exact ⟨by rw [e], h'⟩

/-! Names of operations. -/

theorem opName_free {c : Char} (hc : c ∉ ['(', ')', '[', ']', ',', ' ']) {s : String} (hs : Free c s) {ps : Option (List String)}
    (hp : ∀ l, ps = some l → ∀ x ∈ l, Free c x) : Free c (opName s ps) := by
  simp only [List.mem_cons, List.not_mem_nil, or_false, not_or] at hc
  obtain ⟨c1, c2, c3, c4, c5, c6⟩ := hc
  cases ps with
  | none => exact hs
  | some l =>
    have := joinWith_free (c := c) (sep := ", ") (by simp [Free, c5, c6]) (hp l rfl)
    simp only [Free] at this hs
    simp [opName, pyList, Free, hs, this, c1, c2, c3, c4]

theorem pyList_inj {l1 l2 : List String} (h1 : ∀ x ∈ l1, Free ',' x ∧ x ≠ "") (h2 : ∀ x ∈ l2, Free ',' x ∧ x ≠ "") (h : pyList l1 = pyList l2) :
    l1 = l2 := by
  have h := congrArg String.toList h
  simp only [pyList, String.toList_append] at h
  have h := str_inj (List.append_cancel_left (List.append_cancel_right h))
  have ne : ∀ (x : String) (l : List String), x ≠ "" → joinWith ", " (x :: l) ≠ "" := by
    intro x l hx e
    cases l with
    | nil => exact hx e
    | cons y l =>
      have := congrArg String.toList e
      rw [joinWith_cons_toList (c := ',') (rest := [' ']) (by simp)] at this
      simp at this
  cases l1 with
  | nil => cases l2 with
    | nil => rfl
    | cons y l2 => exact absurd h.symm (ne y l2 (h2 y (by simp)).2)
  | cons x l1 => cases l2 with
    | nil => exact absurd h (ne x l1 (h1 x (by simp)).2)
    | cons y l2 => exact joinWith_inj (c := ',') (rest := [' ']) (by simp) (by simp) (by simp) (fun x hx => (h1 x hx).1) (fun x hx => (h2 x hx).1) h

theorem opName_inj {s1 s2 : String} (hs1 : Free '(' s1) (hs2 : Free '(' s2) {p1 p2 : Option (List String)}
    (h1 : ∀ l, p1 = some l → ∀ x ∈ l, Free ',' x ∧ x ≠ "") (h2 : ∀ l, p2 = some l → ∀ x ∈ l, Free ',' x ∧ x ≠ "")
    (h : opName s1 p1 = opName s2 p2) : s1 = s2 ∧ p1 = p2 := by
  have e : ∀ (s : String) (l : List String), (opName s (some l)).toList = s.toList ++ '(' :: ((pyList l).toList ++ [')']) := by
    intro s l; simp [opName]
  cases p1 with
  | none => cases p2 with
    | none => exact ⟨h, rfl⟩
    | some l =>
      have := e s2 l
      rw [← h] at this
      refine absurd ?_ hs1
      simp only [opName] at this
      simp [Free, this]
  | some l => cases p2 with
    | none =>
      have := e s1 l
      rw [h] at this
      refine absurd ?_ hs2
      simp only [opName] at this
      simp [Free, this]
    | some l' =>
      have := congrArg String.toList h
      rw [e, e] at this
      obtain ⟨a, b⟩ := split_at hs1 hs2 this
      rw [pyList_inj (h1 l rfl) (h2 l' rfl) (str_inj (List.append_cancel_right b))]
      exact ⟨str_inj a, rfl⟩

/-- The tuple of bits that is printed. -/
def shownCond : Option (List String) → Option (List String)
  | some (b :: bs) => some (b :: bs)
  | _ => none

theorem reprOperation_inj {b1 b2 s1 s2 : String} {p1 p2 q1 q2 c1 c2 : Option (List String)} (hb1 : Free ':' b1) (hb2 : Free ':' b2)
    (he1 : Free '=' b1) (he2 : Free '=' b2) (hs1 : Free '(' s1) (hs2 : Free '(' s2) (hx1 : Free '=' s1) (hx2 : Free '=' s2)
    (hp1 : ∀ l, p1 = some l → ∀ x ∈ l, Free ',' x ∧ Free '=' x ∧ x ≠ "") (hp2 : ∀ l, p2 = some l → ∀ x ∈ l, Free ',' x ∧ Free '=' x ∧ x ≠ "")
    (hq1 : ∀ l, q1 = some l → ∀ x ∈ l, Angle x) (hq2 : ∀ l, q2 = some l → ∀ x ∈ l, Angle x)
    (hc1 : ∀ l, c1 = some l → ∀ x ∈ l, Angle x) (hc2 : ∀ l, c2 = some l → ∀ x ∈ l, Angle x)
    (h : reprOperation b1 s1 p1 q1 c1 = reprOperation b2 s2 p2 q2 c2) : b1 = b2 ∧ s1 = s2 ∧ p1 = p2 ∧ q1 = q2 ∧ shownCond c1 = shownCond c2 := by
  let suf : Option (List String) → List Char := fun c => match shownCond c with
    | some l => ", conditional: ".toList ++ ((pyTuple l).toList ++ ['>'])
    | none => ['>']
  have e : ∀ (b s : String) (p q c : Option (List String)), (reprOperation b s p q c).toList =
      (('<' :: b.toList) ++ ':' :: (' ' :: ((opName s p).toList ++ ", qubits".toList))) ++ '=' :: ((pyOptTuple q).toList ++ suf c) := by
    intro b s p q c
    match c with
    | none => simp [reprOperation, suf, shownCond]
    | some [] => simp [reprOperation, suf, shownCond]
    | some (x :: l) => simp [reprOperation, suf, shownCond]
  have fr : ∀ (b s : String) (p : Option (List String)), Free '=' b → Free '=' s → (∀ l, p = some l → ∀ x ∈ l, Free '=' x) →
      '=' ∉ ('<' :: b.toList) ++ ':' :: (' ' :: ((opName s p).toList ++ ", qubits".toList)) := by
    intro b s p hb hs hp
    have := opName_free (c := '=') (by simp) hs hp
    simp only [Free] at this hb
    simp [this, hb]
  have h := congrArg String.toList h
  rw [e, e] at h
  obtain ⟨a, h'⟩ := split_at (fr _ _ _ he1 hx1 fun l hl x hx => (hp1 l hl x hx).2.1) (fr _ _ _ he2 hx2 fun l hl x hx => (hp2 l hl x hx).2.1) h
  obtain ⟨a', g⟩ := split_at (by simpa [Free] using hb1) (by simpa [Free] using hb2) a
  have g := str_inj (List.append_cancel_right (List.cons.inj g).2)
  obtain ⟨e1, e2⟩ := opName_inj hs1 hs2 (fun l hl x hx => ⟨(hp1 l hl x hx).1, (hp1 l hl x hx).2.2⟩)
    (fun l hl x hx => ⟨(hp2 l hl x hx).1, (hp2 l hl x hx).2.2⟩) g
  obtain ⟨e3, h⟩ := optTuple_split hq1 hq2 h'
  refine ⟨str_inj (List.cons.inj a').2, e1, e2, e3, ?_⟩
  have hsh : ∀ c l, shownCond c = some l → c = some l := by
    intro c l hl
    match c with
    | none => simp [shownCond] at hl
    | some [] => simp [shownCond] at hl
    | some (x :: m) => exact hl
  simp only [suf] at h
  cases k1 : shownCond c1 with
  | none => cases k2 : shownCond c2 with
    | none => rfl
    | some l => rw [k1, k2] at h; simp at h
  | some l => cases k2 : shownCond c2 with
    | none => rw [k1, k2] at h; simp at h
    | some l' =>
      rw [k1, k2] at h
      rw [(tuple_split (hc1 l (hsh _ _ k1)) (hc2 l' (hsh _ _ k2)) (List.append_cancel_left h)).1]

theorem reprMeasurement_inj {q1 q2 b1 b2 : Option (List String)} (hq1 : ∀ l, q1 = some l → ∀ x ∈ l, Angle x)
    (hq2 : ∀ l, q2 = some l → ∀ x ∈ l, Angle x) (hb1 : ∀ l, b1 = some l → ∀ x ∈ l, Angle x) (hb2 : ∀ l, b2 = some l → ∀ x ∈ l, Angle x)
    (h : reprMeasurement q1 b1 = reprMeasurement q2 b2) : q1 = q2 ∧ b1 = b2 := by
  have five : ∀ a b c d e : String, (a ++ b ++ c ++ d ++ e).toList = a.toList ++ (b.toList ++ (c.toList ++ (d.toList ++ e.toList))) := by
    intro a b c d e; simp only [String.toList_append, List.append_assoc]
  have e := fun q b => five "<Measurement, qubits=" (pyOptTuple q) ", measured=" (pyOptTuple b) ">"
  unfold reprMeasurement at h
  generalize "<Measurement, qubits=" = pre, ", measured=" = mid, ">" = post at h e
  have h := congrArg String.toList h
  rw [e, e] at h
  obtain ⟨e1, h'⟩ := optTuple_split hq1 hq2 (List.append_cancel_left h)
  exact ⟨e1, (optTuple_split hb1 hb2 (List.append_cancel_left h')).1⟩

theorem angle_qubit {l i : String} (hl : Free '>' l) (hi : Free '>' i) : Angle (reprQubit l i) := by
  refine ⟨⟨"<qubit: ".toList ++ l.toList ++ ", id: ".toList ++ i.toList, ?_, by simp [reprQubit]⟩, by simp [reprQubit]⟩
  simp only [Free] at hl hi
  simp [hl, hi]

theorem angle_bit {l i : String} {v : Option Int} (hl : Free '>' l) (hi : Free '>' i) : Angle (reprBit l i v) := by
  simp only [Free] at hl hi
  cases v with
  | none =>
    refine ⟨⟨"<bit: ".toList ++ l.toList ++ ", id: ".toList ++ i.toList, ?_, by simp [reprBit]⟩, by simp [reprBit]⟩
    simp [hl, hi]
  | some v =>
    have hv := int_free (c := '>') (by decide) (by decide) v
    refine ⟨⟨"<bit: ".toList ++ l.toList ++ ", id: ".toList ++ i.toList ++ ", value: ".toList ++ (toString v).toList, ?_, by simp [reprBit]⟩,
      by simp [reprBit]⟩
    simp only [Free] at hv
    simp only [List.mem_append, hl, hi, hv]
    simp

end DG
