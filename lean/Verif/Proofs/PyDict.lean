import Verif.Model.Py
import Mathlib.Data.List.Nodup
import Mathlib.Data.List.Perm.Subperm

namespace DG.PyDict
variable {K V : Type} [DecidableEq K]

@[simp] theorem get?_nil (k : K) : get? ([] : PyDict K V) k = none := rfl

theorem get?_cons (p : K × V) (d : PyDict K V) (k : K) :
    get? (p :: d) k = if p.1 = k then some p.2 else get? d k := rfl

@[simp] theorem get?_set (d : PyDict K V) (k : K) (v : V) (k' : K) :
    get? (set d k v) k' = if k = k' then some v else get? d k' := by
  induction d with
  | nil => simp [set, get?]
  | cons p d ih =>
    obtain ⟨a, b⟩ := p
    by_cases h : a = k <;> by_cases h' : a = k' <;> by_cases h'' : k = k' <;>
      simp_all [set, get?]

@[simp] theorem get?_erase (d : PyDict K V) (k k' : K) :
    get? (erase d k) k' = if k = k' then none else get? d k' := by
  induction d with
  | nil => simp [erase, get?]
  | cons p d ih =>
    obtain ⟨a, b⟩ := p
    by_cases h : a = k <;> by_cases h' : a = k' <;> by_cases h'' : k = k' <;>
      simp_all [erase, get?]

theorem contains_eq (d : PyDict K V) (k : K) : d.contains k = (d.get? k).isSome := rfl

theorem get?_eq_none_iff (d : PyDict K V) (k : K) : d.get? k = none ↔ k ∉ d.keys := by
  induction d with
  | nil => simp [keys]
  | cons p d ih =>
    obtain ⟨a, b⟩ := p
    by_cases h : a = k
    · simp [get?, keys, h]
    · have : k ≠ a := fun e => h e.symm
      simp only [get?, h, if_false, ih]
      simp [keys, this]

theorem mem_of_get? {d : PyDict K V} {k : K} {v : V} (h : d.get? k = some v) : (k, v) ∈ d := by
  induction d with
  | nil => simp at h
  | cons p d ih =>
    obtain ⟨a, b⟩ := p
    by_cases h' : a = k
    · simp [get?, h'] at h; simp [h', h]
    · simp only [get?, h', if_false] at h; exact List.mem_cons_of_mem _ (ih h)

theorem get?_of_mem {d : PyDict K V} {k : K} {v : V} (hn : d.keys.Nodup) (h : (k, v) ∈ d) :
    d.get? k = some v := by
  induction d with
  | nil => simp at h
  | cons p d ih =>
    obtain ⟨a, b⟩ := p
    simp only [keys, List.map_cons, List.nodup_cons] at hn
    rcases List.mem_cons.1 h with h | h
    · cases h; simp [get?]
    · have : a ≠ k := by
        rintro rfl; exact hn.1 (List.mem_map_of_mem (f := Prod.fst) h)
      simp [get?, this, ih hn.2 h]

omit [DecidableEq K] in
theorem mem_keys_of_mem {d : PyDict K V} {k : K} {v : V} (h : (k, v) ∈ d) : k ∈ d.keys :=
  List.mem_map_of_mem (f := Prod.fst) h

omit [DecidableEq K] in
theorem mem_values_of_mem {d : PyDict K V} {k : K} {v : V} (h : (k, v) ∈ d) : v ∈ d.values :=
  List.mem_map_of_mem (f := Prod.snd) h

omit [DecidableEq K] in
theorem mem_keys_iff {d : PyDict K V} {k : K} : k ∈ d.keys ↔ ∃ v, (k, v) ∈ d := by
  simp [keys]

omit [DecidableEq K] in
theorem mem_values_iff {d : PyDict K V} {v : V} : v ∈ d.values ↔ ∃ k, (k, v) ∈ d := by
  simp [values]

theorem contains_iff (d : PyDict K V) (k : K) : d.contains k = true ↔ k ∈ d.keys := by
  rw [contains, ← not_iff_not, ← get?_eq_none_iff]
  cases d.get? k <;> simp

theorem set_of_notMem {d : PyDict K V} {k : K} (v : V) (h : k ∉ d.keys) : d.set k v = d ++ [(k, v)] := by
  induction d with
  | nil => rfl
  | cons p d ih =>
    obtain ⟨a, b⟩ := p
    simp only [keys, List.map_cons, List.mem_cons, not_or] at h
    have : a ≠ k := fun e => h.1 e.symm
    simp [set, this, ih h.2]

theorem keys_set_of_mem {d : PyDict K V} {k : K} (v : V) (h : k ∈ d.keys) :
    (d.set k v).keys = d.keys := by
  induction d with
  | nil => simp [keys] at h
  | cons p d ih =>
    obtain ⟨a, b⟩ := p
    by_cases h' : a = k
    · simp [set, h', keys]
    · have : k ∈ keys d := by
        simp only [keys, List.map_cons, List.mem_cons] at h
        exact h.resolve_left (fun e => h' e.symm)
      simp only [set, h', if_false]
      simpa [keys] using ih this

theorem mem_keys_set {d : PyDict K V} {k k' : K} (v : V) : k' ∈ (d.set k v).keys ↔ k' = k ∨ k' ∈ d.keys := by
  by_cases h : k ∈ d.keys
  · rw [keys_set_of_mem v h]
    constructor
    · exact Or.inr
    · rintro (rfl | h') <;> assumption
  · rw [set_of_notMem v h]; simp [keys, or_comm]

theorem nodup_keys_set {d : PyDict K V} (k : K) (v : V) (h : d.keys.Nodup) : (d.set k v).keys.Nodup := by
  by_cases h' : k ∈ d.keys
  · rwa [keys_set_of_mem v h']
  · rw [set_of_notMem v h']
    simp only [keys, List.map_append, List.map_cons, List.map_nil]
    rw [List.nodup_append]
    refine ⟨h, by simp, ?_⟩
    intro a ha b hb
    simp at hb; subst hb
    rintro rfl; exact h' ha

theorem mem_erase {d : PyDict K V} {k : K} {p : K × V} (h : p ∈ d.erase k) : p ∈ d := by
  induction d with
  | nil => simp [erase] at h
  | cons q d ih =>
    obtain ⟨a, b⟩ := q
    by_cases h' : a = k
    · simp only [erase, h', if_true] at h; exact List.mem_cons_of_mem _ (ih h)
    · simp only [erase, h', if_false] at h
      rcases List.mem_cons.1 h with h | h
      · rw [h]; simp
      · exact List.mem_cons_of_mem _ (ih h)

theorem nodup_keys_erase {d : PyDict K V} (k : K) (h : d.keys.Nodup) : (d.erase k).keys.Nodup := by
  induction d with
  | nil => simp [erase, keys]
  | cons q d ih =>
    obtain ⟨a, b⟩ := q
    simp only [keys, List.map_cons, List.nodup_cons] at h
    by_cases h' : a = k
    · simp only [erase, h', if_true]; exact ih h.2
    · simp only [erase, h', if_false, keys, List.map_cons, List.nodup_cons]
      refine ⟨?_, ih h.2⟩
      intro hc
      obtain ⟨p, hp, he⟩ := List.mem_map.1 hc
      exact h.1 (List.mem_map.2 ⟨p, mem_erase hp, he⟩)

omit [DecidableEq K] in
theorem keys_append (d e : PyDict K V) : keys (d ++ e) = keys d ++ keys e := by simp [keys]
omit [DecidableEq K] in
theorem values_append (d e : PyDict K V) : values (d ++ e) = values d ++ values e := by simp [values]

theorem foldl_set_of_nodup (ps : List (K × V)) (d : PyDict K V) (h : (keys (d ++ ps)).Nodup) :
    ps.foldl (fun d p => d.set p.1 p.2) d = d ++ ps := by
  induction ps generalizing d with
  | nil => simp
  | cons p ps ih =>
    have hp : p.1 ∉ d.keys := by
      rw [keys_append, List.nodup_append] at h
      intro hc; exact h.2.2 _ hc p.1 (by simp [keys]) rfl
    simp only [List.foldl_cons, set_of_notMem _ hp]
    rw [ih]
    · simp
    · simpa using h

theorem ofPairs_of_nodup (ps : List (K × V)) (h : (keys ps).Nodup) : ofPairs ps = ps := by
  have := foldl_set_of_nodup ps [] (by simpa using h)
  simpa [ofPairs] using this

theorem foldl_set_keys (ps : List (K × V)) (d : PyDict K V) (hd : d.keys.Nodup) :
    (ps.foldl (fun d p => d.set p.1 p.2) d).keys.Nodup ∧
    ∀ k, k ∈ (ps.foldl (fun d p => d.set p.1 p.2) d).keys ↔ k ∈ d.keys ∨ k ∈ keys ps := by
  induction ps generalizing d with
  | nil => exact ⟨hd, by simp [keys]⟩
  | cons p ps ih =>
    obtain ⟨h1, h2⟩ := ih (d.set p.1 p.2) (nodup_keys_set _ _ hd)
    refine ⟨h1, fun k => ?_⟩
    rw [List.foldl_cons, h2, mem_keys_set]
    simp only [keys, List.map_cons, List.mem_cons]
    tauto

theorem nodup_keys_ofPairs (ps : List (K × V)) : (ofPairs ps).keys.Nodup :=
  (foldl_set_keys ps [] (by simp [keys])).1

theorem mem_keys_ofPairs (ps : List (K × V)) (k : K) : k ∈ (ofPairs ps).keys ↔ k ∈ keys ps := by
  simpa [keys, ofPairs] using (foldl_set_keys ps [] (by simp [keys])).2 k

theorem length_set (d : PyDict K V) (k : K) (v : V) :
    (d.set k v).length = if k ∈ d.keys then d.length else d.length + 1 := by
  by_cases h : k ∈ d.keys
  · have := congrArg List.length (keys_set_of_mem v h)
    rw [if_pos h]; simpa [keys] using this
  · rw [set_of_notMem v h]; simp [h]

end DG.PyDict
