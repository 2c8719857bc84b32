import Verif.Proofs.Unitary
import Verif.Proofs.SimExtra

/-!
# build_controlled_unitary and build_unitary as linear maps
-/

namespace DG.Unitary
open Complex Spec Kernel DG.Sim

/-! ## The loop over pairs of rows -/

/-- One assignment. -/
noncomputable def setRows' (u : NMat) (state : NMat) (rows : Nat × Nat) : NMat :=
  ⟨state.dim, fun i j =>
    if i = rows.2 then u.e 1 0 * state.e rows.1 j + u.e 1 1 * state.e rows.2 j
    else if i = rows.1 then u.e 0 0 * state.e rows.1 j + u.e 0 1 * state.e rows.2 j else state.e i j⟩

theorem setRows_ok (u state : NMat) (rows : Nat × Nat) (h : u.dim = 2) : setRows (some u) state rows = .ok (setRows' u state rows) := by
  simp only [setRows, h, if_true, setRows']

theorem foldlM_ok {α β : Type} (f : β → α → Except Err β) (g : β → α → β) (h : ∀ b a, f b a = .ok (g b a)) (l : List α) :
    ∀ b, l.foldlM f b = .ok (l.foldl g b) := by
  induction l with
  | nil => intro b; rfl
  | cons a l ih => intro b; rw [List.foldlM_cons, h]; exact ih _

theorem setRows_loop (u : NMat) : ∀ (L : List (Nat × Nat)) (state : NMat), (L.map Prod.fst).Nodup → (L.map Prod.snd).Nodup →
    (∀ p ∈ L, ∀ q ∈ L, p.1 ≠ q.2) →
    (L.foldl (setRows' u) state).dim = state.dim ∧
    (∀ p ∈ L, ∀ j, (L.foldl (setRows' u) state).e p.1 j = u.e 0 0 * state.e p.1 j + u.e 0 1 * state.e p.2 j ∧
      (L.foldl (setRows' u) state).e p.2 j = u.e 1 0 * state.e p.1 j + u.e 1 1 * state.e p.2 j) ∧
    (∀ i, (∀ p ∈ L, i ≠ p.1 ∧ i ≠ p.2) → ∀ j, (L.foldl (setRows' u) state).e i j = state.e i j) := by
  intro L
  induction L with
  | nil => intro state _ _ _; exact ⟨rfl, fun p hp => by simp at hp, fun i _ j => rfl⟩
  | cons r L ih =>
    intro state h1 h2 h3
    simp only [List.map_cons, List.nodup_cons, List.mem_map, not_exists, not_and] at h1 h2
    obtain ⟨i1, i2, i3⟩ := ih (setRows' u state r) h1.2 h2.2 (fun p hp q hq => h3 p (by simp [hp]) q (by simp [hq]))
    have hr : r.1 ≠ r.2 := h3 r (by simp) r (by simp)
    rw [List.foldl_cons]
    refine ⟨i1, ?_, ?_⟩
    · intro p hp j
      rcases List.mem_cons.1 hp with rfl | hp
      · have g1 := i3 p.1 (fun q hq => ⟨fun h => h1.1 q hq h.symm, h3 p (by simp) q (by simp [hq])⟩) j
        have g2 := i3 p.2 (fun q hq => ⟨fun h => h3 q (by simp [hq]) p (by simp) h.symm, fun h => h2.1 q hq h.symm⟩) j
        rw [g1, g2]
        simp [setRows', hr]
      · obtain ⟨g1, g2⟩ := i2 p hp j
        rw [g1, g2]
        have a1 : p.1 ≠ r.2 := h3 p (by simp [hp]) r (by simp)
        have a2 : p.1 ≠ r.1 := fun h => h1.1 p hp h
        have a3 : p.2 ≠ r.2 := fun h => h2.1 p hp h
        have a4 : p.2 ≠ r.1 := fun h => h3 r (by simp) p (by simp [hp]) h.symm
        simp [setRows', a1, a2, a3, a4]
    · intro i hi j
      rw [i3 i (fun p hp => hi p (by simp [hp])) j]
      have := hi r (by simp)
      simp [setRows', this.1, this.2]

section
variable {n : Nat}

theorem max?_append (cs : List (Fin n)) (t : Fin n) :
    ∃ m : Int, (cs.map (fun c : Fin n => (c.val : Int)) ++ [(t.val : Int)]).max? = some m ∧ 0 ≤ m ∧ m < n := by
  set L := cs.map (fun c : Fin n => (c.val : Int)) ++ [(t.val : Int)] with hL
  have hb : ∀ x ∈ L, 0 ≤ x ∧ x < n := by
    intro x hx
    rw [hL, List.mem_append] at hx
    rcases hx with hx | hx
    · obtain ⟨c, _, rfl⟩ := List.mem_map.1 hx
      exact ⟨by omega, by have := c.isLt; omega⟩
    · simp only [List.mem_singleton] at hx
      subst hx
      exact ⟨by omega, by have := t.isLt; omega⟩
  cases h : L.max? with
  | none =>
    rw [List.max?_eq_none_iff] at h
    rw [hL] at h
    simp at h
  | some m =>
    have := List.max?_mem h
    exact ⟨m, rfl, hb m this⟩

/-- The matrix of a controlled gate: entries. -/
theorem buildControlled_entries (cs : List (Fin n)) (t : Fin n) (hcs : cs.Nodup) (ht : t ∉ cs) (u : NMat) (hu : u.dim = 2)
    (N : Option Int) (hN : N = some (n : Int) ∨ N = none ∧ ∀ m, (cs.map (fun c : Fin n => (c.val : Int)) ++ [(t.val : Int)]).max? = some m → m + 1 = n) :
    ∃ M, buildControlled (cs.map fun c : Fin n => (c.val : Int)) [(t.val : Int)] (some u) N = .ok M ∧ M.dim = 2 ^ n ∧
      ∀ x y : Basis n, M.e (index false x) (index false y) =
        if ∀ c ∈ cs, x c = true then
          (if Function.update x t false = y then u.e (x t).toNat 0 else 0) + (if Function.update x t true = y then u.e (x t).toNat 1 else 0)
        else if x = y then 1 else 0 := by
  obtain ⟨m, hm, hm0, hmn⟩ := max?_append cs t
  have hle : cs.length + 1 ≤ n := by
    have : (t :: cs).Nodup := List.nodup_cons.2 ⟨ht, hcs⟩
    have := this.length_le_card
    simpa using this
  obtain ⟨r1, r2, r3⟩ := rowPair_spec cs t hcs ht
  set control := cs.map fun c : Fin n => (c.val : Int) with hctl
  set L := (product (n - (cs.length + 1))).map (rowPair control [(t.val : Int)]) with hL
  have hok : buildControlled control [(t.val : Int)] (some u) N = .ok (L.foldl (setRows' u) (eye (2 ^ n))) := by
    unfold buildControlled
    have hd : control.any (· ∈ [(t.val : Int)]) = false := by
      rw [List.any_eq_false]
      intro x hx hxt
      simp only [List.mem_singleton, decide_eq_true_eq] at hxt
      rw [hctl] at hx
      obtain ⟨c, hc, rfl⟩ := List.mem_map.1 hx
      have h' : (c.val : Int) = t.val := hxt
      exact ht (Fin.ext (show c.val = t.val by omega) ▸ hc)
    rw [hd, hm]
    have key : (product ((n : Int) - (control.length + [(t.val : Int)].length)).toNat).foldlM
        (fun state bits => setRows (some u) state (rowPair control [(t.val : Int)] bits)) (eye (2 ^ (n : Int).toNat)) =
        .ok (L.foldl (setRows' u) (eye (2 ^ n))) := by
      rw [foldlM_ok _ (fun state bits => setRows' u state (rowPair control [(t.val : Int)] bits)) (fun b a => setRows_ok u b _ hu)]
      rw [hL, List.foldl_map, Int.toNat_natCast]
      congr 4
      simp [hctl]
      omega
    have hr : ¬ ((n : Int) - ((control.length : Int) + ([(t.val : Int)].length : Int)) < 0) := by
      simp [hctl]; omega
    rcases hN with rfl | ⟨rfl, hN⟩
    · simp only [Bool.false_eq_true, if_false, decide_eq_true_eq]
      rw [if_neg (by omega), if_neg (by simp)]
      have hn0 : ¬ ((n : Int) = 0) := by omega
      simp only [hn0, if_false]
      rw [if_neg (by omega), if_neg hr]
      exact key
    · have hm' := hN m hm
      simp only [Bool.false_eq_true, if_false, hm']
      rw [if_neg (by simp), if_neg (by omega), if_neg hr]
      exact key
  have bmem : ∀ b, b ∈ product (n - (cs.length + 1)) ↔ b.length = n - (cs.length + 1) := fun b => mem_product
  have Lmem : ∀ p, p ∈ L ↔ ∃ x : Basis n, (∀ c ∈ cs, x c = true) ∧ x t = false ∧ p = (index false x, index false (Function.update x t true)) := by
    intro p
    rw [hL, List.mem_map]
    constructor
    · rintro ⟨b, hb, rfl⟩
      obtain ⟨x, a1, a2, a3⟩ := r1 b ((bmem b).1 hb)
      exact ⟨x, a1, a2, a3⟩
    · rintro ⟨x, a1, a2, rfl⟩
      obtain ⟨b, hb, he⟩ := r2 x a1 a2
      exact ⟨b, (bmem b).2 hb, he⟩
  have n1 : (L.map Prod.fst).Nodup := by
    rw [hL, List.map_map]
    refine List.Nodup.map_on (fun b hb b' hb' h => ?_) (product_nodup _)
    exact r3 b b' ((bmem b).1 hb) ((bmem b').1 hb') h
  have upd_inj : ∀ x x' : Basis n, x t = false → x' t = false → Function.update x t true = Function.update x' t true → x = x' := by
    intro x x' hx hx' h
    funext i
    by_cases hi : i = t
    · subst hi; rw [hx, hx']
    · have := congrFun h i
      rwa [Function.update_of_ne hi, Function.update_of_ne hi] at this
  have n2 : (L.map Prod.snd).Nodup := by
    rw [hL, List.map_map]
    refine List.Nodup.map_on (fun b hb b' hb' h => ?_) (product_nodup _)
    obtain ⟨x, a1, a2, a3⟩ := r1 b ((bmem b).1 hb)
    obtain ⟨x', a1', a2', a3'⟩ := r1 b' ((bmem b').1 hb')
    apply r3 b b' ((bmem b).1 hb) ((bmem b').1 hb')
    simp only [Function.comp_apply, a3, a3'] at h ⊢
    rw [upd_inj x x' a2 a2' (index_inj h)]
  have n3 : ∀ p ∈ L, ∀ q ∈ L, p.1 ≠ q.2 := by
    intro p hp q hq h
    obtain ⟨x, a1, a2, rfl⟩ := (Lmem p).1 hp
    obtain ⟨x', a1', a2', rfl⟩ := (Lmem q).1 hq
    have := index_inj h
    rw [this] at a2
    simp at a2
  obtain ⟨g1, g2, g3⟩ := setRows_loop u L (eye (2 ^ n)) n1 n2 n3
  refine ⟨_, hok, g1, ?_⟩
  intro x y
  have eyeE : ∀ x y : Basis n, (eye (2 ^ n)).e (index false x) (index false y) = if x = y then 1 else 0 := by
    intro x y
    by_cases h : x = y
    · subst h; simp [eye]
    · have : index false x ≠ index false y := fun h' => h (index_inj h')
      simp [eye, h, this]
  by_cases hx : ∀ c ∈ cs, x c = true
  · rw [if_pos hx]
    have ctl : ∀ c ∈ cs, (Function.update x t false) c = true := by
      intro c hc
      have hct : c ≠ t := fun h => ht (h ▸ hc)
      rw [Function.update_of_ne hct]
      exact hx c hc
    have hp := (Lmem (index false (Function.update x t false), index false (Function.update x t true))).2
      ⟨Function.update x t false, ctl, by simp, by simp⟩
    obtain ⟨e1, e2⟩ := g2 _ hp (index false y)
    cases hxt : x t with
    | false =>
      have : Function.update x t false = x := by rw [← hxt]; exact Function.update_eq_self _ _
      have hidx : index false x = index false (Function.update x t false) := by rw [this]
      rw [hidx]
      refine e1.trans ?_
      simp only [eyeE, Bool.toNat_false]
      split <;> split <;> simp
    | true =>
      have : Function.update x t true = x := by rw [← hxt]; exact Function.update_eq_self _ _
      have hidx : index false x = index false (Function.update x t true) := by rw [this]
      rw [hidx]
      refine e2.trans ?_
      simp only [eyeE, Bool.toNat_true]
      split <;> split <;> simp
  · rw [if_neg hx]
    rw [g3 _ _ _, eyeE]
    intro p hp
    obtain ⟨z, a1, a2, rfl⟩ := (Lmem p).1 hp
    refine ⟨fun h => hx ?_, fun h => hx ?_⟩
    · rw [index_inj h]; exact a1
    · rw [index_inj h]
      intro c hc
      have hct : c ≠ t := fun h => ht (h ▸ hc)
      rw [Function.update_of_ne hct]
      exact a1 c hc

/-- A 2x2 array indexed by bits. -/
noncomputable def gateN (u : NMat) (i j : Bool) : ℂ := u.e i.toNat j.toNat

theorem gateN_ofArr (a : Arr2) : gateN (ofArr a) = gateOf a := by
  funext i j
  cases i <;> cases j <;> simp [gateN, ofArr, gateOf]

theorem buildControlled_acts (cs : List (Fin n)) (t : Fin n) (hcs : cs.Nodup) (ht : t ∉ cs) (u : NMat) (hu : u.dim = 2)
    (N : Option Int) (hN : N = some (n : Int) ∨ N = none ∧ ∀ m, (cs.map (fun c : Fin n => (c.val : Int)) ++ [(t.val : Int)]).max? = some m → m + 1 = n) :
    ∃ M, buildControlled (cs.map fun c : Fin n => (c.val : Int)) [(t.val : Int)] (some u) N = .ok M ∧
      ActsAs n M (applyControlled cs t (gateN u)) := by
  obtain ⟨M, h1, h2, h3⟩ := buildControlled_entries cs t hcs ht u hu N hN
  refine ⟨M, h1, h2, fun ψ x => ?_⟩
  simp only [h3]
  unfold applyControlled applyGate
  by_cases hx : ∀ c ∈ cs, x c = true
  · simp only [if_pos hx, Fintype.sum_bool, gateN, add_mul, Finset.sum_add_distrib, ite_mul, zero_mul, Finset.sum_ite_eq,
      Finset.mem_univ, if_true, Bool.toNat_false, Bool.toNat_true]
    rw [add_comm]
  · simp only [if_neg hx, ite_mul, one_mul, zero_mul, Finset.sum_ite_eq, Finset.mem_univ, if_true]

/-! ## Products -/

/-- Every index is the index of a basis state. -/
theorem sum_range_index {f : Nat → ℂ} : ∑ k ∈ Finset.range (2 ^ n), f k = ∑ y : Basis n, f (index false y) := by
  have hinj : Function.Injective (fun y : Basis n => index false y) := fun a b h => index_inj h
  rw [← Finset.sum_image (f := f) (s := Finset.univ) (g := fun y : Basis n => index false y) (fun a _ b _ h => hinj h)]
  apply Finset.sum_congr _ (fun _ _ => rfl)
  symm
  apply Finset.eq_of_subset_of_card_le
  · intro i hi
    obtain ⟨y, _, rfl⟩ := Finset.mem_image.1 hi
    exact Finset.mem_range.2 (index_lt _ _)
  · rw [Finset.card_image_of_injective _ hinj]
    simp

theorem matmul_acts {A B : NMat} {f g : State n ℂ → State n ℂ} (hA : ActsAs n A f) (hB : ActsAs n B g) :
    ∃ M, matmul A B = .ok M ∧ ActsAs n M (f ∘ g) := by
  unfold matmul
  rw [if_pos (hA.1.trans hB.1.symm)]
  refine ⟨_, rfl, hA.1, fun ψ x => ?_⟩
  simp only [Function.comp_apply]
  rw [hA.2]
  simp only [hB.2, hA.1, sum_range_index, Finset.sum_mul, Finset.mul_sum]
  rw [Finset.sum_comm]
  refine Finset.sum_congr rfl fun y _ => Finset.sum_congr rfl fun z _ => ?_
  ring

theorem eye_acts : ActsAs n (eye (2 ^ n)) id := by
  refine ⟨rfl, fun ψ x => ?_⟩
  have : ∀ y : Basis n, (eye (2 ^ n)).e (index false x) (index false y) * ψ y = if x = y then ψ y else 0 := by
    intro y
    by_cases h : x = y
    · subst h; simp [eye]
    · have : index false x ≠ index false y := fun h' => h (index_inj h')
      simp [eye, h, this]
  simp only [this, Finset.sum_ite_eq, Finset.mem_univ, if_true, id]

/-- A matrix is determined by its action. -/
theorem acts_unique {A B : NMat} {f : State n ℂ → State n ℂ} (hA : ActsAs n A f) (hB : ActsAs n B f) (x y : Basis n) :
    A.e (index false x) (index false y) = B.e (index false x) (index false y) := by
  have h := (hA.2 (fun z => if z = y then 1 else 0) x).symm.trans (hB.2 _ x)
  simpa using h

/-! ## The Kronecker product -/

/-- `np.kron` of the factors of all qubits. -/
noncomputable def chain (F : Nat → NMat) : List Nat → NMat
  | [] => eye 1
  | q :: qs => qs.foldl (fun m q => kron m (F q)) (F q)

theorem chain_concat (F : Nat → NMat) (l : List Nat) (hl : l ≠ []) (q : Nat) : chain F (l ++ [q]) = kron (chain F l) (F q) := by
  cases l with
  | nil => exact absurd rfl hl
  | cons a l => simp [chain, List.foldl_append]

theorem bit_div (m : Nat) (b : Bool) : (2 * m + b.toNat) / 2 = m ∧ (2 * m + b.toNat) % 2 = b.toNat := by
  cases b <;> simp <;> omega

theorem chain_entries (F : Nat → NMat) (hF : ∀ q, (F q).dim = 2) : ∀ (n : Nat) (qf : Fin (n + 1) → Nat),
    (chain F (List.ofFn qf)).dim = 2 ^ (n + 1) ∧ ∀ x y : Basis (n + 1),
      (chain F (List.ofFn qf)).e (index false x) (index false y) = ∏ i, (F (qf i)).e (x i).toNat (y i).toNat := by
  intro n
  induction n with
  | zero =>
    intro qf
    have h0 : List.ofFn qf = [qf 0] := by simp
    rw [h0]
    refine ⟨by simp [chain, hF], fun x y => ?_⟩
    have hz : ∀ x : Basis 1, index false x = (x 0).toNat := by
      intro x
      rw [index_succ]
      simp [index]
    simp [chain, hz]
  | succ n ih =>
    intro qf
    obtain ⟨h1, h2⟩ := ih (fun i => qf i.castSucc)
    rw [List.ofFn_succ', List.concat_eq_append, chain_concat _ _ (by simp)]
    refine ⟨?_, fun x y => ?_⟩
    · show _ * _ = _
      rw [h1, hF]; ring
    · show (chain F _).e (index false x / _) (index false y / _) * (F _).e (index false x % _) (index false y % _) = _
      rw [hF, index_succ x, index_succ y, (bit_div _ _).1, (bit_div _ _).1, (bit_div _ _).2, (bit_div _ _).2, h2,
        Fin.prod_univ_castSucc (n := n + 1)]

theorem chain_acts (qubits : List Nat) (hnd : qubits.Nodup) (hlen : qubits.length = n) (t : Fin n) (q : Nat)
    (hq : qubits[t.val]? = some q) (m : NMat) (hm : m.dim = 2) :
    ActsAs n (chain (fun q' => if some q = some q' then m else eye 2) qubits) (applyGate t (gateN m)) := by
  subst hlen
  obtain ⟨k, hk⟩ : ∃ k, qubits.length = k + 1 := ⟨qubits.length - 1, by have := t.isLt; omega⟩
  set F : Nat → NMat := fun q' => if some q = some q' then m else eye 2 with hF
  have hFd : ∀ q', (F q').dim = 2 := by
    intro q'
    simp only [hF]
    split
    · exact hm
    · rfl
  have entries : (chain F qubits).dim = 2 ^ qubits.length ∧ ∀ x y : Basis qubits.length,
      (chain F qubits).e (index false x) (index false y) = ∏ i : Fin qubits.length, (F qubits[i]).e (x i).toNat (y i).toNat := by
    have key : ∀ (n : Nat) (qf : Fin n → Nat), 0 < n → (chain F (List.ofFn qf)).dim = 2 ^ n ∧ ∀ x y : Basis n,
        (chain F (List.ofFn qf)).e (index false x) (index false y) = ∏ i, (F (qf i)).e (x i).toNat (y i).toNat := by
      intro n qf hn
      obtain ⟨n, rfl⟩ : ∃ n', n = n' + 1 := ⟨n - 1, by omega⟩
      exact chain_entries F hFd n qf
    have := key qubits.length (fun i => qubits[i]) (by omega)
    have hofn : List.ofFn (fun i : Fin qubits.length => qubits[i]) = qubits := List.ofFn_getElem
    rwa [hofn] at this
  obtain ⟨e1, e2⟩ := entries
  refine ⟨e1, fun ψ x => ?_⟩
  have hprod : ∀ y : Basis qubits.length, ∏ i : Fin qubits.length, (F qubits[i]).e (x i).toNat (y i).toNat =
      (if Function.update x t false = y then m.e (x t).toNat 0 else 0) + (if Function.update x t true = y then m.e (x t).toNat 1 else 0) := by
    intro y
    have ht : F qubits[t] = m := by
      have : qubits[t] = q := by
        have := List.getElem?_eq_some_iff.1 hq
        exact this.2
      simp only [hF, this, if_true]
    have hne : ∀ i : Fin qubits.length, i ≠ t → F qubits[i] = eye 2 := by
      intro i hi
      have : q ≠ qubits[i] := by
        intro h
        obtain ⟨_, h'⟩ := List.getElem?_eq_some_iff.1 hq
        apply hi
        apply Fin.ext
        exact (List.Nodup.getElem_inj_iff hnd).1 (show qubits[i.val] = qubits[t.val] from h.symm.trans h'.symm)
      simp only [hF, Option.some.injEq, if_neg this]
    have bit : ∀ a b : Bool, (eye 2).e a.toNat b.toNat = if a = b then (1 : ℂ) else 0 := by
      intro a b; cases a <;> cases b <;> simp [eye]
    rw [← Finset.mul_prod_erase Finset.univ _ (Finset.mem_univ t), ht]
    have hrest : ∏ i ∈ Finset.univ.erase t, (F qubits[i]).e (x i).toNat (y i).toNat =
        if ∀ i, i ≠ t → x i = y i then (1 : ℂ) else 0 := by
      rw [Finset.prod_congr rfl (g := fun i => if x i = y i then (1 : ℂ) else 0) (by
        intro i hi
        rw [hne i (Finset.ne_of_mem_erase hi), bit])]
      split
      · rename_i h
        refine Finset.prod_eq_one fun i hi => ?_
        rw [if_pos (h i (Finset.ne_of_mem_erase hi))]
      · rename_i h
        push Not at h
        obtain ⟨i, hi, hxy⟩ := h
        exact Finset.prod_eq_zero (Finset.mem_erase.2 ⟨hi, Finset.mem_univ i⟩) (if_neg hxy)
    rw [hrest]
    have upd : ∀ b, Function.update x t b = y ↔ y t = b ∧ ∀ i, i ≠ t → x i = y i := by
      intro b
      constructor
      · rintro rfl
        exact ⟨by simp, fun i hi => by rw [Function.update_of_ne hi]⟩
      · rintro ⟨h1, h2⟩
        funext i
        by_cases hi : i = t
        · subst hi; simp [h1]
        · rw [Function.update_of_ne hi, h2 i hi]
    simp only [upd]
    by_cases h : ∀ i, i ≠ t → x i = y i
    · cases hy : y t <;> simp [h, hy]
    · simp [h]
  rw [Finset.sum_congr rfl (fun y _ => by rw [e2, hprod y])]
  simp only [applyGate, Fintype.sum_bool, gateN, add_mul, Finset.sum_add_distrib, ite_mul, zero_mul, Finset.sum_ite_eq,
      Finset.mem_univ, if_true, Bool.toNat_false, Bool.toNat_true]
  rw [add_comm]

/-! ## Operations -/

theorem applySingle_acts (op : UOp) (b : Base) (a : Arr2) (hk : op.kind = .single b) (ha : b.matrix = .ok a) (qubits : List Nat)
    (hnd : qubits.Nodup) (hlen : qubits.length = n) (t : Fin n) (q : Nat) (hq : qubits[t.val]? = some q) (hop : op.qubits = [q])
    {S : NMat} {f : State n ℂ → State n ℂ} (hS : ActsAs n S f) :
    ∃ M, applySingle op qubits S = .ok M ∧ ActsAs n M (applyGate t (gateOf a) ∘ f) := by
  have hfac : factor op = .ok (ofArr a) := by
    unfold factor
    rw [hk]
    show (do match (← (do let a ← b.matrix; pure (some (ofArr a)) : Except Err (Option NMat))) with
      | some m => pure m
      | none => .error .typeError) = _
    rw [ha]; rfl
  have hnum : Sim.numQubitsOf op.toSOp = 1 := by unfold Sim.numQubitsOf; rw [hk]
  have hacts := chain_acts qubits hnd hlen t q hq (ofArr a) rfl
  rw [gateN_ofArr] at hacts
  cases qubits with
  | nil => simp at hq
  | cons q0 rest =>
    unfold applySingle
    have hstep : ∀ q', factorFor op q' = .ok (if some q = some q' then ofArr a else eye 2) := by
      intro q'
      unfold factorFor
      rw [hop, hfac, hnum]
      show (if some q = some q' then _ else _) = _
      split <;> rfl
    have hfold : ∀ m0, rest.foldlM (fun mat qb => do
        let m ← factorFor op qb
        pure (kron mat m)) m0 = (.ok (rest.foldl (fun m q' => kron m (if some q = some q' then ofArr a else eye 2)) m0) : Except Err NMat) := by
      intro m0
      refine foldlM_ok _ _ (fun m q' => ?_) rest m0
      rw [hstep]; rfl
    dsimp only
    rw [hstep, ok_bind, hfold, ok_bind]
    exact matmul_acts hacts hS

theorem position_ok {qubits : List Nat} (hnd : qubits.Nodup) {t : Fin qubits.length} {q : Nat} (hq : qubits[t.val]? = some q) :
    position qubits q = .ok (t.val : Int) := by
  obtain ⟨h, rfl⟩ := List.getElem?_eq_some_iff.1 hq
  unfold position
  rw [if_pos (List.getElem_mem _), List.Nodup.idxOf_getElem hnd]

theorem positions_ok {qubits : List Nat} (hnd : qubits.Nodup) (ts : List (Fin qubits.length)) :
    (ts.map fun t => qubits[t]).mapM (position qubits) = .ok (ts.map fun t : Fin qubits.length => (t.val : Int)) := by
  induction ts with
  | nil => rfl
  | cons t ts ih =>
    have h1 : position qubits qubits[t] = .ok (t.val : Int) := position_ok hnd (t := t) (List.getElem?_eq_getElem _)
    rw [List.map_cons, List.mapM_cons, h1, ok_bind, ih]
    rfl

theorem applyControlledGate_acts (op : UOp) (b : Base) (a : Arr2) (ha : classMatrix b = .ok (some a)) (qubits : List Nat)
    (hnd : qubits.Nodup) (cs : List (Fin qubits.length)) (t : Fin qubits.length) (hcs : cs.Nodup) (ht : t ∉ cs)
    (hc : op.control = cs.map fun c => qubits[c]) (hopt : op.target = [qubits[t]])
    {S : NMat} {f : State qubits.length ℂ → State qubits.length ℂ} (hS : ActsAs qubits.length S f) :
    ∃ M, applyControlledGate op b qubits S = .ok M ∧ ActsAs qubits.length M (applyControlled cs t (gateOf a) ∘ f) := by
  obtain ⟨M, h1, h2⟩ := buildControlled_acts cs t hcs ht (ofArr a) rfl (some qubits.length) (.inl rfl)
  rw [gateN_ofArr] at h2
  obtain ⟨M', h3, h4⟩ := matmul_acts h2 hS
  refine ⟨M', ?_, h4⟩
  unfold applyControlledGate
  have ht' := positions_ok hnd [t]
  simp only [List.map_cons, List.map_nil] at ht'
  rw [hc, positions_ok hnd, ok_bind, hopt, ht', ok_bind, ha, ok_bind]
  rw [show (some a).map ofArr = some (ofArr a) from rfl, h1, ok_bind]
  exact h3

end
end DG.Unitary
