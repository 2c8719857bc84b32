import Verif.Proofs.DirectRegs

/-!
# C121 — registers of a circuit that are used directly

`circuit.qregisters` gives the registers themselves, so that `circuit.qregisters["a"].add(q)` is possible beside `circuit.add_qubit(q, "a")`.  Whoever uses both, and never adds a
qubit twice, sees in `circuit.qubits` qubits of the circuit in the right order, but not always all of them: they appear with the next addition by a method of the circuit.
-/

namespace DG.Props
open DG.Spec DG.Bank

/-- In every careful history: no qubit is in two places, reading `circuit.qubits` does not fail, and it gives qubits of the registers, each once and in the order of the
registers.  Missing: that it gives all of them (`C121_stale_violated`). -/
theorem C121_direct_partial {b : Bank} (h : Careful b) :
    ∃ (L : Layout) (A : List Nat), Shows b L ∧ L.labels.Nodup ∧ L.items.Nodup ∧ seen (b.flat qubitEnv).1 = .ok (A.map Lbl.obj) ∧ A.Sublist L.items := by
  obtain ⟨L, hL⟩ := careful_lag h
  obtain ⟨r, b', h1, -, -, -, ⟨A, hA, hs⟩, -⟩ := flat_lag inert_qubitEnv hL
  refine ⟨L, A, hL.ok.shows, hL.ok.labels, hL.ok.nodup, ?_, hs⟩
  rw [h1]
  exact hA.iter_eq

/-- What one addition does in such a history: to a register itself, by `add_qubit`, and by `add_qregister` with a new label.  After the latter two `circuit.qubits` is the concatenation of
all registers, whatever was added directly before. -/
theorem C121_additions {b : Bank} (h : Careful b) {L : Layout} (hs : Shows b L) {fresh : Nat} (hu : Unused b fresh) :
    (∀ l k, l ∈ L.labels → k ∉ L.items → (b.directAdd qubitEnv l k).1 = .ok () ∧ Shows (b.directAdd qubitEnv l k).2 (L.addTo l k)) ∧
    (∀ given label, (∀ k, given = some k → k ∉ L.items) →
      ∃ created b', b.addItem qubitEnv "qreg" (given.map fun k => (k, true)) label fresh = (.ok created, b') ∧
        Shows b' ((L.withRegister "qreg" label).2.addTo (L.withRegister "qreg" label).1 (given.getD fresh)) ∧
        seen (b'.flat qubitEnv).1 =
          .ok (((L.withRegister "qreg" label).2.addTo (L.withRegister "qreg" label).1 (given.getD fresh)).items.map Lbl.obj)) ∧
    ∀ (n : Int) l, l ∉ L.labels →
      ∃ created b', b.addRegister qubitEnv "qreg" n (some l) fresh = (.ok created, b') ∧ Shows b' (L ++ [(l, List.range' fresh n.toNat)]) ∧
        seen (b'.flat qubitEnv).1 = .ok ((L.items ++ List.range' fresh n.toNat).map Lbl.obj) := by
  obtain ⟨L', hL⟩ := careful_lag h
  obtain rfl := shows_unique hs hL.ok.shows
  have hlt := unused_iff hL.ok hu
  have read : ∀ {b' : Bank} {M : Layout}, Ok b' M → b'.cache = none → seen (b'.flat qubitEnv).1 = .ok (M.items.map Lbl.obj) := by
    intro b' M hM hc
    obtain ⟨r, b'', h1, -, -, -, h5⟩ := flat_ok inert_qubitEnv hM
    rw [h1]
    exact (h5 hc).iter_eq
  refine ⟨?_, ?_, ?_⟩
  · intro l k hl hk
    obtain ⟨b', h1, h2, -⟩ := direct_lag inert_qubitEnv hL hl hk
    rw [h1]
    exact ⟨rfl, h2.ok.shows⟩
  · intro given label hk
    obtain ⟨created, b', h1, h2, h3⟩ := add_lag inert_qubitEnv hL "qreg" given label fresh hlt hk
    exact ⟨created, b', h1, h3.shows, read h3 h2⟩
  · intro n l hl
    obtain ⟨created, b', h1, h2, h3, -⟩ := addRegister_ok inert_qubitEnv hL.ok "qreg" n (some l) fresh hl hlt
    refine ⟨created, b', h1, h3.shows, ?_⟩
    rw [read h3 h2, items_append]
    simp [Layout.items, newLabel]

/-- Once `circuit.qubits` was read, a qubit that is added to a register itself does not appear in it, in every history and for every register and qubit. -/
theorem C121_stale_violated {b : Bank} (h : Careful b) {L : Layout} (hs : Shows b L) {l : RLabel} {k : Nat} (hl : l ∈ L.labels) (hk : k ∉ L.items) :
    let b1 := (b.flat qubitEnv).2
    let b2 := (b1.directAdd qubitEnv l k).2
    (b1.directAdd qubitEnv l k).1 = .ok () ∧ InRegs b2 k ∧ (b2.flat qubitEnv).1 = (b.flat qubitEnv).1 ∧
      ∃ A : List Nat, seen (b2.flat qubitEnv).1 = .ok (A.map Lbl.obj) ∧ k ∉ A := by
  obtain ⟨L', hL⟩ := careful_lag h
  obtain rfl := shows_unique hs hL.ok.shows
  obtain ⟨r, b1, h1, h2, h3, h4, ⟨A, hA, hsub⟩, -⟩ := flat_lag inert_qubitEnv hL
  obtain ⟨b2, g1, g2, g3, -⟩ := direct_lag inert_qubitEnv h4 hl hk
  have hf : (b2.flat qubitEnv).1 = .ok r := by
    unfold flat
    rw [g3, h3]
  simp only [h1, g1]
  refine ⟨trivial, ?_, hf, A, ?_, fun hm => hk (hsub.subset hm)⟩
  · rw [inRegs_iff g2.ok]
    obtain ⟨P, S, -, e⟩ := addTo_items hL.ok.labels hl k
    rw [e]
    simp
  · rw [hf]
    exact hA.iter_eq

/-- The circuit with the registers `a` and `b` of one qubit each, whose `circuit.qubits` was read. -/
def twoRegs : Bank :=
  ((((({} : Bank).addRegister qubitEnv "qreg" 1 (some (.str "a")) 0).2).addRegister qubitEnv "qreg" 1 (some (.str "b")) 1).2.flat qubitEnv).2

/-- Such a qubit is then accepted by `add_qubit` for another register; it is in two registers, and from then on `circuit.qubits` raises `ValueError`, as does every further `add_qubit`. -/
theorem C121_twice_violated :
    Careful twoRegs ∧
    (let b1 := (twoRegs.directAdd qubitEnv (.str "a") 2).2
     let x := b1.addItem qubitEnv "qreg" (some (2, true)) (some (.str "b")) 3
     x.1 = .ok [] ∧ Shows x.2 [(.str "a", [0, 2]), (.str "b", [1, 2])] ∧ (x.2.flat qubitEnv).1 = .error .valueError ∧
       (x.2.addItem qubitEnv "qreg" (some (3, true)) none 4).1 = .error .valueError) := by
  have hnone : ∀ fresh, Unused ({} : Bank) fresh := fun fresh k hk => by obtain ⟨p, hp, -⟩ := hk; cases hp
  have c1 := Careful.addRegister 1 (some (.str "a")) Careful.new (hnone 0)
  refine ⟨.read (.addRegister 1 (some (.str "b")) c1 ?_), ?_⟩
  · have ho : Ok (({} : Bank).addRegister qubitEnv "qreg" 1 (some (.str "a")) 0).2 [(.str "a", [0])] := by
      obtain ⟨_, b', h1, -, h3, -⟩ := addRegister_ok inert_qubitEnv (b := {}) (L := []) ⟨.nil, by simp [Layout.labels], by simp [Layout.items]⟩ "qreg" 1 (some (.str "a")) 0
        (by simp [Layout.labels]) (by simp [Layout.items])
      rw [h1]
      exact h3
    intro k hk
    have := (inRegs_iff ho k).1 hk
    simp [Layout.items] at this
    omega
  · refine ⟨by decide +kernel, ?_, by decide +kernel, by decide +kernel⟩
    unfold Shows
    refine .cons ⟨?_, ?_⟩ (.cons ⟨?_, ?_⟩ .nil) <;> decide +kernel

/-- A frozen register of a circuit: `add_qubit` raises `RegisterError` and the registers stay as they are, and reading `circuit.qubits` gives what it gave. -/
theorem C121_freeze {b : Bank} (h : Careful b) {l : RLabel} {k fresh : Nat} (hl : l ∈ b.regs.keys) (hk : ¬ InRegs b k) :
    let b1 := (b.directFreeze l).2
    (b.directFreeze l).1 = .ok () ∧ (b1.flat qubitEnv).1 = (b.flat qubitEnv).1 ∧
      (b1.addItem qubitEnv "qreg" (some (k, true)) (some l) fresh).1 = .error .registerError ∧
      (b1.addItem qubitEnv "qreg" (some (k, true)) (some l) fresh).2.regs = b1.regs := by
  obtain ⟨L, hL⟩ := careful_lag h
  rw [regs_map_fst hL.ok.regs] at hl
  have hc := (regs_get? hL.ok.regs l).2 hl
  obtain ⟨r0, hg⟩ := Option.isSome_iff_exists.1 (show (PyDict.get? b.regs l).isSome = true from hc)
  have e1 : b.directFreeze l = (.ok (), { b with regs := b.regs.set l r0.freeze }) := by
    unfold directFreeze
    rw [hg]
  obtain ⟨r, b', h1, h2, h3, -, ⟨A, hA, hsub⟩, -⟩ := flat_lag inert_qubitEnv hL
  have hflat : ({ b with regs := b.regs.set l r0.freeze } : Bank).flat qubitEnv = (.ok r, { regs := b.regs.set l r0.freeze, cache := some r }) := by
    unfold flat at h1 ⊢
    dsimp only at h1 ⊢
    cases hcache : b.cache with
    | some rc =>
      rw [hcache] at h1
      have : r = rc := (Except.ok.inj (congrArg Prod.fst h1)).symm
      subst this
      rfl
    | none =>
      rw [hcache] at h1
      dsimp only at h1 ⊢
      rw [sum_freeze qubitEnv l r0 _ _ hg]
      cases hs : sum qubitEnv b.regs.values (Reg.new qubitEnv []) with
      | error e => rw [hs] at h1; cases congrArg Prod.fst h1
      | ok r1 =>
        rw [hs] at h1
        have : r = r1 := (Except.ok.inj (congrArg Prod.fst h1)).symm
        subst this
        rfl
  have hno : holds r (some k) = false := by
    simp only [holds]
    rw [← Bool.not_eq_true, hA.count_iff, obj_mem]
    exact fun hm => hk ((inRegs_iff hL.ok k).2 (hsub.subset hm))
  have hcont : PyDict.contains (PyDict.set b.regs l r0.freeze) l = true := by
    unfold PyDict.contains
    rw [get_set]
    rfl
  have hadd : ({ b with regs := b.regs.set l r0.freeze } : Bank).addItem qubitEnv "qreg" (some (k, true)) (some l) fresh =
      (.error .registerError, { regs := b.regs.set l r0.freeze, cache := some r }) := by
    unfold addItem chooseRegister
    dsimp only
    rw [if_pos hcont]
    dsimp only
    rw [hflat]
    dsimp only [Option.map_some]
    rw [if_neg (by rw [hno]; simp)]
    unfold store
    dsimp only
    rw [get_set]
    have : r0.freeze.add qubitEnv [.obj k] = (.error .registerError, r0.freeze) := rfl
    dsimp only
    rw [this]
    dsimp only
    rw [set_same]
  simp only [e1, hflat, hadd, h1]
  exact ⟨trivial, trivial, trivial, trivial⟩

/-- `circuit.qubits.add(q)` on a circuit with a register always raises `AttributeError`, and changes neither the registers nor `circuit.qubits`. -/
theorem C121_flat_add {b : Bank} (h : Careful b) (hne : b.regs ≠ []) (k : Nat) :
    (b.flatAdd qubitEnv k).1 = .error .attributeError ∧ (b.flatAdd qubitEnv k).2.regs = b.regs ∧
      ((b.flatAdd qubitEnv k).2.flat qubitEnv).1 = (b.flat qubitEnv).1 := by
  obtain ⟨L, hL⟩ := careful_lag h
  obtain ⟨r, b', h1, h2, h3, h4, -⟩ := flat_lag inert_qubitEnv hL
  have hf : r.frozen = none := h4.frozen r h3 (by
    rintro rfl
    exact hne (List.length_eq_zero_iff.1 (by simpa using hL.ok.regs.length_eq)))
  have ha : r.add qubitEnv [.obj k] = (.error .attributeError, r) := by
    unfold Reg.add Reg.getFrozen
    rw [hf]
  have e : b.flatAdd qubitEnv k = (.error .attributeError, { b' with cache := some r }) := by
    unfold flatAdd
    rw [h1]
    dsimp only
    rw [ha]
  rw [e, h1]
  exact ⟨rfl, h2, rfl⟩

/-- On a circuit without registers it succeeds: the circuit then has a qubit that is in none of its registers, and loses it when a register is added. -/
theorem C121_flat_add_violated (k : Nat) (label : Option RLabel) (fresh : Nat) :
    let b1 := (({} : Bank).flatAdd qubitEnv k).2
    (({} : Bank).flatAdd qubitEnv k).1 = .ok () ∧ b1.regs = [] ∧ seen (b1.flat qubitEnv).1 = .ok [.obj k] ∧
      seen ((b1.addRegister qubitEnv "qreg" 0 label fresh).2.flat qubitEnv).1 = .ok [] := by
  refine ⟨rfl, rfl, ?_, ?_⟩
  · rfl
  · cases label <;> rfl

/-- Not vacuous: a careful history with a direct addition, and a circuit for which the hypotheses of `C121_stale_violated` hold. -/
example : Careful (twoRegs.directAdd qubitEnv (.str "a") 2).2 ∧ Shows twoRegs [(.str "a", [0]), (.str "b", [1])] := by
  have hs : Shows twoRegs [(.str "a", [0]), (.str "b", [1])] := by
    unfold Shows
    refine .cons ⟨?_, ?_⟩ (.cons ⟨?_, ?_⟩ .nil) <;> decide +kernel
  refine ⟨.direct _ _ C121_twice_violated.1 ?_, hs⟩
  obtain ⟨L, hL⟩ := careful_lag C121_twice_violated.1
  obtain rfl := shows_unique hs hL.ok.shows
  rw [inRegs_iff hL.ok]
  decide

end DG.Props
