import Verif.Spec.Qasm

/-!
# Text of OpenQASM programs: `str.strip`, lines
-/

namespace DG
open Spec

theorem commas_eq : ∀ l : List String, Qasm.commas l = joinWith ", " l
  | [] => rfl
  | [_] => rfl
  | s :: t :: l => by unfold Qasm.commas joinWith; rw [commas_eq (t :: l)]

/-- Every string followed by a line break. -/
def unlines : List String → String
  | [] => ""
  | s :: l => s ++ "\n" ++ unlines l

theorem unlines_append (a b : List String) : unlines (a ++ b) = unlines a ++ unlines b := by
  induction a with
  | nil => simp [unlines]
  | cons s a ih => simp [unlines, ih, String.append_assoc]

theorem unlines_eq {l : List String} (h : l ≠ []) : unlines l = joinWith "\n" l ++ "\n" := by
  match l, h with
  | [s], _ => simp [unlines, joinWith]
  | s :: t :: l, _ =>
    have := unlines_eq (l := t :: l) (by simp)
    rw [unlines, this, joinWith]
    simp [String.append_assoc]

/-- The first character is not a whitespace. -/
def StartsWell (s : String) : Prop := ∃ a l, s.toList = a :: l ∧ a.isWhitespace = false

/-- The last character is not a whitespace. -/
def EndsWell (s : String) : Prop := ∃ l a, s.toList = l ++ [a] ∧ a.isWhitespace = false

theorem StartsWell.append {s : String} (h : StartsWell s) (t : String) : StartsWell (s ++ t) := by
  obtain ⟨a, l, h1, h2⟩ := h
  exact ⟨a, l ++ t.toList, by simp [h1], h2⟩

theorem EndsWell.append (s : String) {t : String} (h : EndsWell t) : EndsWell (s ++ t) := by
  obtain ⟨l, a, h1, h2⟩ := h
  exact ⟨s.toList ++ l, a, by simp [h1], h2⟩

theorem dropEnd_ws (l : List Char) (a : Char) (h : a.isWhitespace = true) :
    ((l ++ [a]).reverse.dropWhile Char.isWhitespace).reverse = (l.reverse.dropWhile Char.isWhitespace).reverse := by
  simp [List.dropWhile_cons, h]

theorem dropWhile_start {s : String} (h : StartsWell s) (t : String) :
    (s ++ t).toList.dropWhile Char.isWhitespace = (s ++ t).toList := by
  obtain ⟨a, l, h1, h2⟩ := h
  simp [h1, h2]

theorem strip_newline {s : String} (h : StartsWell s) : strip (s ++ "\n") = strip s := by
  unfold strip
  rw [dropWhile_start h]
  have := dropWhile_start h ""
  simp only [String.append_empty] at this
  rw [this]
  have e : (s ++ "\n").toList = s.toList ++ ['\n'] := by simp
  rw [e, dropEnd_ws _ _ (by decide)]

theorem strip_well {s : String} (h : StartsWell s) (h' : EndsWell s) : strip s = s := by
  unfold strip
  have := dropWhile_start h ""
  simp only [String.append_empty] at this
  rw [this]
  obtain ⟨l, a, h1, h2⟩ := h'
  rw [h1]
  simp only [List.reverse_append, List.reverse_cons, List.reverse_nil, List.nil_append, List.singleton_append, List.dropWhile_cons, h2]
  simp only [Bool.false_eq_true, if_false, List.reverse_cons, List.reverse_reverse]
  rw [← h1]
  simp

theorem joinWith_start {sep s : String} {l : List String} (h : StartsWell s) : StartsWell (joinWith sep (s :: l)) := by
  cases l with
  | nil => exact h
  | cons t l => rw [joinWith, String.append_assoc]; exact h.append _

theorem joinWith_end {sep : String} : ∀ {l : List String} {s : String}, EndsWell s → EndsWell (joinWith sep (l ++ [s]))
  | [], _, h => h
  | [t], _, h => by simp only [List.cons_append, List.nil_append, joinWith]; exact h.append _
  | t :: u :: l, s, h => by
    have := joinWith_end (sep := sep) (l := u :: l) h
    simp only [List.cons_append, joinWith] at this ⊢
    exact this.append _

/-- The text of some lines that start and end well, after a `strip`. -/
theorem strip_unlines {s : String} {l : List String} (hs : StartsWell s) (he : ∀ t ∈ s :: l, EndsWell t) : strip (unlines (s :: l)) = joinWith "\n" (s :: l) := by
  rw [unlines_eq (by simp), strip_newline (joinWith_start hs)]
  apply strip_well (joinWith_start hs)
  rcases List.eq_nil_or_concat (s :: l) with h | ⟨L, b, h⟩
  · cases h
  · rw [List.concat_eq_append] at h
    rw [h]
    exact joinWith_end (he b (by rw [h]; simp))

/-- An empty line at the end is stripped. -/
theorem strip_unlines_blank {s : String} {l : List String} (hs : StartsWell s) (he : ∀ t ∈ s :: l, EndsWell t) :
    strip (unlines (s :: l) ++ "\n") = joinWith "\n" (s :: l) := by
  rw [strip_newline, strip_unlines hs he]
  rw [unlines_eq (by simp)]
  exact (joinWith_start hs).append _

theorem endsWell_semicolon (s : String) : EndsWell (s ++ ";") := ⟨s.toList, ';', by simp, by decide⟩

theorem QStmt_ends (s : QStmt) : EndsWell s.text := endsWell_semicolon _

end DG
