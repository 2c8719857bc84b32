import Verif.Spec.Qir
import Verif.Proofs.Qasm

/-! What `to_qir` emits. -/

namespace DG
open Spec
variable {K : Type}

theorem length_le_items {L : Layout} {j : Nat} {l : RLabel} {ks : List Nat} (h : L[j]? = some (l, ks)) : ks.length ≤ L.items.length := by
  induction L generalizing j with
  | nil => simp at h
  | cons p L ih =>
    unfold Layout.items at *
    cases j with
    | zero => simp at h; subst h; simp
    | succ j => have := ih (j := j) (by simpa using h); simp at this ⊢; omega

theorem PyDict.get?_mem {α β : Type} [DecidableEq α] {d : PyDict α β} {k : α} {v : β} (h : d.get? k = some v) : (k, v) ∈ d := by
  induction d with
  | nil => cases h
  | cons p d ih =>
    obtain ⟨a, b⟩ := p
    unfold PyDict.get? at h
    split at h
    · next e => cases h; subst e; exact List.mem_cons_self
    · exact List.mem_cons_of_mem _ (ih h)

theorem PyDict.get?_set_same {α β : Type} [DecidableEq α] (d : PyDict α β) (k : α) (v : β) : (d.set k v).get? k = some v := by
  induction d with
  | nil => simp [PyDict.set, PyDict.get?]
  | cons p d ih =>
    obtain ⟨a, b⟩ := p
    unfold PyDict.set
    split
    · next e => simp [PyDict.get?, e]
    · next e => unfold PyDict.get?; rw [if_neg e]; exact ih

namespace Qir

theorem place_ok {b : Bank} {L : Layout} (h : Bank.Ok b L) {n : Nat} (hn : L ≠ [] → n = L.items.length) (mk : Nat → QirArg K) (q : Nat) (a : QirArg K) :
    place b n mk q = .ok a ↔ ∃ i, InRegister L q i ∧ a = mk i := by
  unfold place
  obtain ⟨h1, h2⟩ := find_ok h q
  by_cases hq : q ∈ L.items
  · obtain ⟨j, l, ks, i, g1, g2, -, g4⟩ := h1 hq
    have hat : At L q j i := ⟨l, ks, g1, g2⟩
    rw [g4]
    dsimp only
    have hlt : i < n := by
      rw [hn (by rintro rfl; simp at g1)]
      have := length_le_items g1
      have := (List.getElem?_eq_some_iff.1 g2).1
      omega
    have hc : constant n mk (i : Int) = .ok (mk i) := by unfold constant; rw [if_pos ⟨by omega, by omega⟩]; rfl
    rw [hc]
    constructor
    · intro e; cases e; exact ⟨i, ⟨j, hat⟩, rfl⟩
    · rintro ⟨i', ⟨j', hat'⟩, rfl⟩
      rw [(at_unique h.nodup hat hat').2]
  · rw [(h2 hq).2]
    constructor
    · intro e; cases e
    · rintro ⟨i, ⟨j, hat⟩, -⟩; exact (hq (at_mem hat)).elim

theorem places_ok {b : Bank} {L : Layout} (h : Bank.Ok b L) {n : Nat} (hn : L ≠ [] → n = L.items.length) (mk : Nat → QirArg K) :
    ∀ (qs : List Nat) (l : List (QirArg K)), places b n mk qs = .ok l ↔ ∃ is, List.Forall₂ (InRegister L) qs is ∧ l = is.map mk
  | [], l => by
    unfold places
    constructor
    · intro e; cases e; exact ⟨[], .nil, rfl⟩
    · rintro ⟨is, g, rfl⟩; cases g; rfl
  | q :: qs, l => by
    unfold places
    cases hp : place b n mk q with
    | error e =>
      constructor
      · intro e; cases e
      · rintro ⟨is, g, rfl⟩
        cases g with
        | cons g1 g2 => rw [(place_ok h hn mk q _).2 ⟨_, g1, rfl⟩] at hp; cases hp
    | ok a =>
      dsimp only
      obtain ⟨i, g1, rfl⟩ := (place_ok h hn mk q a).1 hp
      cases hps : places b n mk qs with
      | error e =>
        constructor
        · intro e; cases e
        · rintro ⟨is, g, rfl⟩
          cases g with
          | cons g1 g2 => rw [(places_ok h hn mk qs _).2 ⟨_, g2, rfl⟩] at hps; cases hps
      | ok as =>
        obtain ⟨is, g2, rfl⟩ := (places_ok h hn mk qs as).1 hps
        constructor
        · intro e; cases e; exact ⟨i :: is, .cons g1 g2, rfl⟩
        · rintro ⟨is', g, rfl⟩
          cases g with
          | cons g3 g4 =>
            have e1 := (place_ok h hn mk q _).2 ⟨_, g3, rfl⟩
            rw [hp] at e1; injection e1 with e1
            have e2 := (places_ok h hn mk qs _).2 ⟨_, g4, rfl⟩
            rw [hps] at e2; injection e2 with e2
            simp_all

theorem paramArgs_ok : ∀ (ps : List (OpParam K)) (l : List (QirArg K)), paramArgs ps = .ok l ↔ ∃ xs : List K, ps = xs.map OpParam.num ∧ l = xs.map QirArg.dbl
  | [], l => by
    unfold paramArgs
    constructor
    · intro e; cases e; exact ⟨[], rfl, rfl⟩
    · rintro ⟨xs, g, rfl⟩; cases xs <;> simp_all
  | .var v :: ps, l => by
    unfold paramArgs
    constructor
    · intro e; cases e
    · rintro ⟨xs, g, rfl⟩; cases xs <;> simp_all
  | .num x :: ps, l => by
    unfold paramArgs
    cases hp : paramArgs ps with
    | error e =>
      constructor
      · intro e; cases e
      · rintro ⟨xs, g, rfl⟩
        cases xs with
        | nil => cases g
        | cons y ys =>
          simp only [List.map_cons, List.cons.injEq, OpParam.num.injEq] at g
          rw [(paramArgs_ok ps _).2 ⟨ys, g.2, rfl⟩] at hp; cases hp
    | ok as =>
      obtain ⟨xs, rfl, rfl⟩ := (paramArgs_ok ps as).1 hp
      constructor
      · intro e; cases e; exact ⟨x :: xs, rfl, rfl⟩
      · rintro ⟨ys, g, rfl⟩
        cases ys with
        | nil => cases g
        | cons y ys =>
          simp only [List.map_cons, List.cons.injEq, OpParam.num.injEq] at g
          have : xs = ys := List.map_injective_iff.2 (fun a b h => by simpa using h) g.2
          rw [g.1, this]; rfl

theorem gate_ok {C : Circ} {L : Layout} (h : Bank.Ok C.q L) (k : OpCls) (op : OpObj K) (ty : InstrType) (name : String) (M M' : QirModule K)
    (hn : L ≠ [] → M.numQubits = L.items.length) :
    gate C k op ty name M = .ok M' ↔ ∃ xs qs args, GateArgs (InRegister L) k op xs qs args ∧
      M' = { M with body := M.body ++ [⟨ty, name, args, if ty = .external then M.externals.get? name else none⟩] } := by
  unfold gate GateArgs opParams
  cases hq : op.qubits with
  | none => constructor
            · intro e; cases e
            · rintro ⟨_, _, _, ⟨_, h2, _⟩, _⟩; cases h2
  | some qs =>
    dsimp only
    cases hp : places C.q M.numQubits QirArg.qubit qs with
    | error e =>
      constructor
      · intro e; cases e
      · rintro ⟨_, _, _, ⟨_, h2, is, h3, _⟩, _⟩
        cases h2
        rw [(places_ok h hn QirArg.qubit qs _).2 ⟨is, h3, rfl⟩] at hp; cases hp
    | ok as =>
      dsimp only
      cases hx : paramArgs (if k.kind.isParametric then op.params else []) with
      | error e =>
        constructor
        · intro e; cases e
        · rintro ⟨xs, _, _, ⟨h1, _⟩, _⟩
          rw [(paramArgs_ok _ _).2 ⟨xs, h1, rfl⟩] at hx; cases hx
      | ok ps =>
        dsimp only
        constructor
        · intro e; cases e
          obtain ⟨is, g1, rfl⟩ := (places_ok h hn QirArg.qubit qs _).1 hp
          obtain ⟨xs, g2, rfl⟩ := (paramArgs_ok _ _).1 hx
          exact ⟨xs, qs, _, ⟨g2, rfl, is, g1, rfl⟩, rfl⟩
        · rintro ⟨xs, _, _, ⟨h1, h2, is, h3, rfl⟩, rfl⟩
          cases h2
          have e1 := (places_ok (K := K) h hn QirArg.qubit qs _).2 ⟨is, h3, rfl⟩
          have e2 := (paramArgs_ok _ _).2 ⟨xs, h1, rfl⟩
          rw [hp] at e1; rw [hx] at e2
          cases e1; cases e2; rfl

theorem measure_ok {C : Circ} {L LC : Layout} (h : Bank.Ok C.q L) (hc : Bank.Ok C.c LC) (name : String) :
    ∀ (ps : List (Nat × Nat)) (M M' : QirModule K) (_ : L ≠ [] → M.numQubits = L.items.length) (_ : LC ≠ [] → M.numBits = LC.items.length),
    measure C name ps M = .ok M' ↔ ∃ pairs : List (Nat × Nat), List.Forall₂ (fun p r => InRegister L p.1 r.1 ∧ InRegister LC p.2 r.2) ps pairs ∧
      M' = { M with measurements := M.measurements ++ pairs.map (fun p => ⟨.measurement, name, [.qubit p.1, .result p.2], none⟩),
                    output := M.output ++ pairs.map (fun p => ⟨.output, "out", [.result p.2], none⟩) }
  | [], M, M', _, _ => by
    unfold measure
    constructor
    · intro e; cases e; exact ⟨[], .nil, by simp⟩
    · rintro ⟨ps, g, rfl⟩; cases g; simp
  | (q, b) :: ps, M, M', hn, hm => by
    unfold measure
    cases hp : place C.q M.numQubits QirArg.qubit q with
    | error e =>
      constructor
      · intro e; cases e
      · rintro ⟨is, g, rfl⟩
        cases g with
        | cons g1 g2 => rw [(place_ok h hn QirArg.qubit q _).2 ⟨_, g1.1, rfl⟩] at hp; cases hp
    | ok x =>
      dsimp only
      obtain ⟨i, g1, rfl⟩ := (place_ok h hn QirArg.qubit q x).1 hp
      cases hb : place C.c M.numBits QirArg.result b with
      | error e =>
        constructor
        · intro e; cases e
        · rintro ⟨is, g, rfl⟩
          cases g with
          | cons g1 g2 => rw [(place_ok hc hm QirArg.result b _).2 ⟨_, g1.2, rfl⟩] at hb; cases hb
      | ok y =>
        dsimp only
        obtain ⟨j, g2, rfl⟩ := (place_ok hc hm QirArg.result b y).1 hb
        rw [measure_ok h hc name ps _ M' (by exact hn) (by exact hm)]
        constructor
        · rintro ⟨pairs, g3, rfl⟩
          exact ⟨(i, j) :: pairs, .cons ⟨g1, g2⟩ g3, by simp⟩
        · rintro ⟨pairs, g, rfl⟩
          cases g with
          | @cons _ r _ rs g3 g4 =>
            have e1 := (place_ok (K := K) h hn QirArg.qubit q _).2 ⟨_, g3.1, rfl⟩
            have e2 := (place_ok (K := K) hc hm QirArg.result b _).2 ⟨_, g3.2, rfl⟩
            rw [hp] at e1; rw [hb] at e2
            cases e1; cases e2
            exact ⟨rs, g4, by simp⟩

/-- The instructions for a sequence of gates, before they are checked by pyqir. -/
inductive BodyInstrs (uniq : List String → String → String) (ext : Bool) (w : World K) (L : Layout) : List String → List Nat → List (QirInstr K) → Prop
  | nil (fs) : BodyInstrs uniq ext w L fs [] []
  | base {fs : List String} {o : Nat} {os : List Nat} {op : OpObj K} {k : OpCls} {name : String} {xs : List K} {qs : List Nat} {args : List (QirArg K)}
      {is : List (QirInstr K)} (ho : w.ops[o]? = some op) (hk : w.classes[op.cls]? = some k)
      (hname : table.get? k.name = some (.base, name)) (ha : GateArgs (InRegister L) k op xs qs args) (rest : BodyInstrs uniq ext w L fs os is) :
      BodyInstrs uniq ext w L fs (o :: os) (⟨.base, name, args, none⟩ :: is)
  | external {fs : List String} {o : Nat} {os : List Nat} {op : OpObj K} {k : OpCls} {name : String} {xs : List K} {qs : List Nat}
      {args : List (QirArg K)} {n : Nat} {is : List (QirInstr K)} (he : ext = true) (ho : w.ops[o]? = some op) (hk : w.classes[op.cls]? = some k)
      (hname : table.get? k.name = some (.external, name)) (ha : GateArgs (InRegister L) k op xs qs args) (hq : op.numQubits = some n)
      (rest : BodyInstrs uniq ext w L (fs ++ [uniq fs (qisName name)]) os is) :
      BodyInstrs uniq ext w L fs (o :: os) (⟨.external, name, args, some (uniq fs (qisName name),
        List.replicate n QirTy.qubit ++ List.replicate (if k.kind.isParametric then k.numParams.getD 0 else 0) QirTy.double)⟩ :: is)

theorem table_measurement {s name : String} : table.get? s = some (.measurement, name) ↔ s = "Measurement" ∧ name = "mz" := by
  constructor
  · intro h
    have := PyDict.get?_mem h
    simpa [table] using this
  · rintro ⟨rfl, rfl⟩; decide +kernel

/-- What the loop adds. -/
theorem loop_out (uniq : List String → String → String) (ext : Bool) {w : World K} {C : Circ} {L LC : Layout} (h : Bank.Ok C.q L) (hc : Bank.Ok C.c LC) :
    ∀ (os : List Nat) (measured : Bool) (M M' : QirModule K), (L ≠ [] → M.numQubits = L.items.length) → (LC ≠ [] → M.numBits = LC.items.length) →
    loop uniq ext w C os measured M = .ok M' → ∃ gates meas is pairs, os = gates ++ meas ∧ (measured = true → gates = []) ∧
      BodyInstrs uniq ext w L M.functions gates is ∧ List.Forall₂ (Measures w (InRegister L) (InRegister LC)) meas pairs ∧
      M'.body = M.body ++ is ∧
      M'.measurements = M.measurements ++ pairs.flatten.map (fun p => ⟨.measurement, "mz", [.qubit p.1, .result p.2], none⟩) ∧
      M'.output = M.output ++ pairs.flatten.map (fun p => ⟨.output, "out", [.result p.2], none⟩)
  | [], measured, M, M', _, _, hl => by
    unfold loop at hl
    cases hl
    exact ⟨[], [], [], [], rfl, fun _ => rfl, .nil _, .nil, by simp, by simp, by simp⟩
  | o :: os, measured, M, M', hn, hm, hl => by
    unfold loop at hl
    cases ho : w.ops[o]? with
    | none => rw [ho] at hl; cases hl
    | some op =>
      cases hk : w.classes[op.cls]? with
      | none => rw [ho] at hl; dsimp only at hl; rw [hk] at hl; cases hl
      | some k =>
        rw [ho] at hl; dsimp only at hl; rw [hk] at hl; dsimp only at hl
        cases hs : step uniq ext C k op measured M with
        | error e => rw [hs] at hl; cases hl
        | ok r =>
          obtain ⟨measured', M1⟩ := r
          rw [hs] at hl
          dsimp only at hl
          unfold step at hs
          split at hs
          · next name ht =>
            obtain ⟨hname, rfl⟩ := table_measurement.1 ht
            split at hs
            · next qs bs hqs hbs =>
              split at hs
              · cases hs
              · next M2 hmm =>
                cases hs
                obtain ⟨ps, g1, rfl⟩ := (measure_ok h hc "mz" _ M _ hn hm).1 hmm
                obtain ⟨gates, meas, is, pairs, e1, e2, e3, e4, e5, e6, e7⟩ := loop_out uniq ext h hc os true _ M' (by exact hn) (by exact hm) hl
                have hg := e2 rfl
                subst hg
                cases e3
                refine ⟨[], o :: meas, [], ps :: pairs, by simpa using e1, fun _ => rfl, .nil _, .cons ?_ e4, by simpa using e5, ?_, ?_⟩
                · exact ⟨op, k, qs, bs, ho, hk, hname, hqs, hbs, g1⟩
                · rw [e6]; simp
                · rw [e7]; simp
            · cases hs
          · next name ht =>
            split at hs
            · cases hs
            · next hme =>
              split at hs
              · cases hs
              · next M2 hg =>
                cases hs
                obtain ⟨xs, qs, args, g1, rfl⟩ := (gate_ok h k op .base name M _ hn).1 hg
                obtain ⟨gates, meas, is, pairs, e1, e2, e3, e4, e5, e6, e7⟩ := loop_out uniq ext h hc os measured _ M' (by exact hn) (by exact hm) hl
                refine ⟨o :: gates, meas, _ :: is, pairs, by rw [e1]; rfl, fun hx => (hme hx).elim, .base ho hk ht g1 e3, e4, ?_, e6, e7⟩
                rw [e5]; simp
          · next name ht =>
            split at hs
            · next hext =>
              split at hs
              · cases hs
              · next M2 hadd =>
                unfold addExternal at hadd
                cases hnq : op.numQubits with
                | none => rw [hnq] at hadd; cases hadd
                | some n =>
                  rw [hnq] at hadd
                  cases hadd
                  split at hs
                  · cases hs
                  · next hme =>
                    split at hs
                    · cases hs
                    · next M3 hg =>
                      cases hs
                      obtain ⟨xs, qs, args, g1, rfl⟩ := (gate_ok h k op .external name _ _ (by exact hn)).1 hg
                      obtain ⟨gates, meas, is, pairs, e1, e2, e3, e4, e5, e6, e7⟩ := loop_out uniq ext h hc os measured _ M' (by exact hn) (by exact hm) hl
                      refine ⟨o :: gates, meas, _ :: is, pairs, by rw [e1]; rfl, fun hx => (hme hx).elim, .external hext ho hk ht g1 hnq e3, e4, ?_, e6, e7⟩
                      rw [e5]; simp [PyDict.get?_set_same]
            · cases hs
          · cases hs

/-- The loop accepts gates followed by measurements. -/
theorem loop_in (uniq : List String → String → String) (ext : Bool) {w : World K} {C : Circ} {L LC : Layout} (h : Bank.Ok C.q L) (hc : Bank.Ok C.c LC)
    {meas : List Nat} {pairs : List (List (Nat × Nat))} (hmeas : List.Forall₂ (Measures w (InRegister L) (InRegister LC)) meas pairs) :
    ∀ (measured : Bool) (M : QirModule K), (L ≠ [] → M.numQubits = L.items.length) → (LC ≠ [] → M.numBits = LC.items.length) →
    ∃ M', loop uniq ext w C meas measured M = .ok M' ∧ M'.body = M.body ∧
      M'.measurements = M.measurements ++ pairs.flatten.map (fun p => ⟨.measurement, "mz", [.qubit p.1, .result p.2], none⟩) ∧
      M'.output = M.output ++ pairs.flatten.map (fun p => ⟨.output, "out", [.result p.2], none⟩) := by
  induction hmeas with
  | nil => intro measured M _ _; exact ⟨M, rfl, rfl, by simp, by simp⟩
  | cons hd _ ih =>
    intro measured M hn hm
    obtain ⟨op, k, qs, bs, ho, hk, hname, hqs, hbs, g⟩ := hd
    have hstep : ∃ M1, step uniq ext C k op measured M = .ok (true, M1) ∧ M1 = _ := ⟨_, by
      unfold step
      rw [table_measurement.2 ⟨hname, rfl⟩]
      dsimp only
      rw [hqs, hbs]
      dsimp only
      rw [(measure_ok h hc "mz" _ M _ hn hm).2 ⟨_, g, rfl⟩], rfl⟩
    obtain ⟨M1, hs, hM1⟩ := hstep
    obtain ⟨M', e1, e2, e3, e4⟩ := ih true M1 (by rw [hM1]; exact hn) (by rw [hM1]; exact hm)
    refine ⟨M', ?_, ?_, ?_, ?_⟩
    · unfold loop; rw [ho]; dsimp only; rw [hk]; dsimp only; rw [hs]; exact e1
    · rw [e2, hM1]
    · rw [e3, hM1]; simp
    · rw [e4, hM1]; simp

theorem loop_gates (uniq : List String → String → String) (ext : Bool) {w : World K} {C : Circ} {L LC : Layout} (h : Bank.Ok C.q L) (hc : Bank.Ok C.c LC)
    {fs : List String} {gates : List Nat} {is : List (QirInstr K)} (hb : BodyInstrs uniq ext w L fs gates is) (rest : List Nat) :
    ∀ (M : QirModule K), M.functions = fs → (L ≠ [] → M.numQubits = L.items.length) →
    ∃ M1, loop uniq ext w C (gates ++ rest) false M = loop uniq ext w C rest false M1 ∧ M1.body = M.body ++ is ∧
      M1.measurements = M.measurements ∧ M1.output = M.output ∧ M1.numQubits = M.numQubits ∧ M1.numBits = M.numBits := by
  induction hb with
  | nil => intro M _ _; exact ⟨M, rfl, by simp, rfl, rfl, rfl, rfl⟩
  | @base fs o os op k name xs qs args is ho hk hname ha _ ih =>
    intro M hf hn
    have hg := (gate_ok h k op .base name M _ hn).2 ⟨xs, qs, args, ha, rfl⟩
    obtain ⟨M1, e1, e2, e3, e4, e5, e6⟩ := ih { M with body := M.body ++ [⟨.base, name, args, none⟩] } hf (by exact hn)
    refine ⟨M1, ?_, ?_, e3, e4, e5, e6⟩
    · rw [← e1, List.cons_append]
      conv => lhs; unfold loop
      rw [ho]; dsimp only; rw [hk]; dsimp only
      unfold step
      rw [hname]
      dsimp only
      rw [if_neg (by simp), hg]
      rfl
    · rw [e2]; simp
  | @external fs o os op k name xs qs args n is he ho hk hname ha hq _ ih =>
    intro M hf hn
    subst hf
    obtain ⟨N, hN⟩ : ∃ N : QirModule K, N = { M with
        functions := M.functions ++ [uniq M.functions (qisName name)],
        externals := M.externals.set name (uniq M.functions (qisName name), List.replicate n QirTy.qubit ++
          List.replicate (if k.kind.isParametric then k.numParams.getD 0 else 0) QirTy.double) } := ⟨_, rfl⟩
    have hadd : addExternal uniq k op name M = .ok N := by
      unfold addExternal; rw [hq, hN]
    have hg := (gate_ok h k op .external name N _ (by rw [hN]; exact hn)).2 ⟨xs, qs, args, ha, rfl⟩
    obtain ⟨M1, e1, e2, e3, e4, e5, e6⟩ := ih { N with body := N.body ++ [⟨.external, name, args, N.externals.get? name⟩] } (by rw [hN]) (by rw [hN]; exact hn)
    refine ⟨M1, ?_, ?_, by rw [e3, hN], by rw [e4, hN], by rw [e5, hN], by rw [e6, hN]⟩
    · rw [← e1, List.cons_append]
      conv => lhs; unfold loop
      rw [ho]; dsimp only; rw [hk]; dsimp only
      unfold step
      rw [hname]
      dsimp only
      rw [if_pos he, hadd]
      dsimp only
      rw [if_neg (by simp), hg]
      rfl
    · rw [e2, hN]; simp [PyDict.get?_set_same]

/-! ### Checking the instructions -/

theorem base_table {s callee : String} {np nq : Nat} : (s, callee, np, nq) ∈ baseGates ↔
    ∃ name, table.get? s = some (.base, name) ∧ qis.get? name = some (callee, List.replicate np .double ++ List.replicate nq .qubit) := by
  constructor
  · intro h
    have : ∀ g ∈ baseGates, ∃ p ∈ table, table.get? g.1 = some (.base, p.2.2) ∧
        qis.get? p.2.2 = some (g.2.1, List.replicate g.2.2.1 .double ++ List.replicate g.2.2.2 .qubit) := by decide +kernel
    obtain ⟨p, -, h1, h2⟩ := this _ h
    exact ⟨_, h1, h2⟩
  · rintro ⟨name, h1, h2⟩
    have t : ∀ p ∈ table, p.2.1 = .base → ∃ g ∈ baseGates, g.1 = p.1 ∧
        qis.get? p.2.2 = some (g.2.1, List.replicate g.2.2.1 .double ++ List.replicate g.2.2.2 .qubit) := by decide +kernel
    obtain ⟨g, hg, e1, e2⟩ := t _ (PyDict.get?_mem h1) rfl
    obtain ⟨g1, g2, g3, g4⟩ := g
    dsimp only at e1 e2
    subst e1
    rw [h2] at e2
    injection e2 with e2
    injection e2 with e3 e4
    have c1 := congrArg (List.count QirTy.double) e4
    have c2 := congrArg (List.count QirTy.qubit) e4
    simp [List.count_replicate] at c1 c2
    rw [e3, c1, c2]
    exact hg

theorem base_qis {s name : String} (h : table.get? s = some (.base, name)) : ∃ callee np nq, (s, callee, np, nq) ∈ baseGates ∧
    qis.get? name = some (callee, List.replicate np .double ++ List.replicate nq .qubit) := by
  have t : ∀ p ∈ table, p.2.1 = .base → ∃ g ∈ baseGates, g.1 = p.1 ∧
      qis.get? p.2.2 = some (g.2.1, List.replicate g.2.2.1 .double ++ List.replicate g.2.2.2 .qubit) := by decide +kernel
  obtain ⟨⟨g1, g2, g3, g4⟩, hg, e1, e2⟩ := t _ (PyDict.get?_mem h) rfl
  dsimp only at e1 e2
  subst e1
  exact ⟨g2, g3, g4, hg, e2⟩

theorem external_table {s callee : String} : (s, callee) ∈ externalGates ↔ ∃ name, table.get? s = some (.external, name) ∧ callee = qisName name := by
  constructor
  · intro h
    have : ∀ g ∈ externalGates, ∃ p ∈ table, table.get? g.1 = some (.external, p.2.2) ∧ g.2 = qisName p.2.2 := by decide +kernel
    obtain ⟨p, -, h1, h2⟩ := this _ h
    exact ⟨_, h1, h2⟩
  · rintro ⟨name, h1, rfl⟩
    have t : ∀ p ∈ table, p.2.1 = .external → (p.1, qisName p.2.2) ∈ externalGates := by decide +kernel
    exact t _ (PyDict.get?_mem h1) rfl

theorem argTys (xs : List K) (is : List Nat) : (xs.map QirArg.dbl ++ is.map QirArg.qubit).map argTy =
    (List.replicate xs.length QirTy.double ++ List.replicate is.length QirTy.qubit).map some := by
  rw [List.map_append, List.map_map, List.map_map, List.map_append, List.map_replicate, List.map_replicate]
  congr 1 <;> · rw [List.eq_replicate_iff]; simp [argTy]

theorem argTys_iff (xs : List K) (is : List Nat) (tys : List QirTy) : (xs.map QirArg.dbl ++ is.map QirArg.qubit).map argTy = tys.map some ↔
    List.replicate xs.length QirTy.double ++ List.replicate is.length QirTy.qubit = tys := by
  rw [argTys]
  exact (List.map_injective_iff.2 (Option.some_injective _)).eq_iff

theorem execute_base {k : OpCls} {op : OpObj K} {L : Layout} {name : String} {xs : List K} {qs : List Nat} {args : List (QirArg K)}
    (hname : table.get? k.name = some (.base, name)) (ha : GateArgs (InRegister L) k op xs qs args) (e : Option (String × List QirTy)) (c : LInstr K) :
    execute ⟨.base, name, args, e⟩ = .ok c ↔ ∃ callee np nq, (k.name, callee, np, nq) ∈ baseGates ∧ xs.length = np ∧ qs.length = nq ∧ c = .call callee args := by
  obtain ⟨callee, np, nq, hm, hq⟩ := base_qis hname
  obtain ⟨-, -, is, h3, rfl⟩ := ha
  unfold execute
  dsimp only
  rw [hq]
  simp only [argTys_iff]
  rw [h3.length_eq]
  have hcount : ∀ a b : Nat, List.replicate a QirTy.double ++ List.replicate b QirTy.qubit = List.replicate np QirTy.double ++ List.replicate nq QirTy.qubit ↔ a = np ∧ b = nq := by
    intro a b
    constructor
    · intro e
      have c1 := congrArg (List.count QirTy.double) e
      have c2 := congrArg (List.count QirTy.qubit) e
      simp [List.count_replicate] at c1 c2
      exact ⟨c1, c2⟩
    · rintro ⟨rfl, rfl⟩; rfl
  split
  · next ht =>
    obtain ⟨t1, t2⟩ := (hcount _ _).1 ht
    constructor
    · intro e; cases e; exact ⟨callee, np, nq, hm, t1, t2, rfl⟩
    · rintro ⟨c', n1, n2, hm', u1, u2, rfl⟩
      obtain ⟨n', v1, v2⟩ := base_table.1 hm'
      rw [hname] at v1; cases v1
      rw [hq] at v2
      injection v2 with v2
      injection v2 with v2
      rw [v2]
  · next ht =>
    constructor
    · intro e; cases e
    · rintro ⟨c', n1, n2, hm', u1, u2, rfl⟩
      obtain ⟨n', v1, v2⟩ := base_table.1 hm'
      rw [hname] at v1; cases v1
      rw [hq] at v2
      injection v2 with v2
      injection v2 with v2 v3
      exact (ht (by rw [v3, ← u1, ← u2])).elim

theorem execute_external {k : OpCls} {op : OpObj K} {L : Layout} {name f : String} {xs : List K} {qs : List Nat} {args : List (QirArg K)}
    (ha : GateArgs (InRegister L) k op xs qs args) (tys : List QirTy) (c : LInstr K) :
    execute ⟨.external, name, args, some (f, tys)⟩ = .ok c ↔
      List.replicate xs.length QirTy.double ++ List.replicate qs.length QirTy.qubit = tys ∧ c = .call f args := by
  obtain ⟨-, -, is, h3, rfl⟩ := ha
  unfold execute
  simp only [argTys_iff]
  rw [h3.length_eq]
  split
  · next ht => exact ⟨fun e => by cases e; exact ⟨ht, rfl⟩, fun e => by rw [e.2]⟩
  · next ht => exact ⟨fun e => (by cases e), fun e => (ht e.1).elim⟩

theorem executeAll_cons (i : QirInstr K) (is : List (QirInstr K)) (l : List (LInstr K)) :
    executeAll (i :: is) = .ok l ↔ ∃ c cs, execute i = .ok c ∧ executeAll is = .ok cs ∧ l = c :: cs := by
  conv => lhs; unfold executeAll
  cases execute i with
  | error e => exact ⟨fun h => (by cases h), fun ⟨_, _, h, _⟩ => (by cases h)⟩
  | ok c =>
    dsimp only
    cases executeAll is with
    | error e => exact ⟨fun h => (by cases h), fun ⟨_, _, _, h, _⟩ => (by cases h)⟩
    | ok cs => exact ⟨fun h => by cases h; exact ⟨c, cs, rfl, rfl, rfl⟩, fun ⟨_, _, h1, h2, h3⟩ => by cases h1; cases h2; rw [h3]⟩

theorem body_out {uniq : List String → String → String} {ext : Bool} {w : World K} {L : Layout} {fs : List String} {os : List Nat} {is : List (QirInstr K)}
    (h : BodyInstrs uniq ext w L fs os is) : ∀ calls, executeAll is = .ok calls → BodyCalls uniq ext w (InRegister L) fs os calls := by
  induction h with
  | nil => intro calls e; cases e; exact .nil _
  | @base fs o os op k name xs qs args is ho hk hname ha _ ih =>
    intro calls e
    obtain ⟨c, cs, e1, e2, rfl⟩ := (executeAll_cons _ _ _).1 e
    obtain ⟨callee, np, nq, g1, g2, g3, rfl⟩ := (execute_base hname ha _ _).1 e1
    exact .base ⟨op, k, callee, np, nq, xs, qs, args, ho, hk, g1, ha, g2, g3, rfl⟩ (ih _ e2)
  | @external fs o os op k name xs qs args n is he ho hk hname ha hq _ ih =>
    intro calls e
    obtain ⟨c, cs, e1, e2, rfl⟩ := (executeAll_cons _ _ _).1 e
    obtain ⟨g1, rfl⟩ := (execute_external ha _ _).1 e1
    exact .external he ⟨op, k, n, xs, qs, ho, hk, external_table.2 ⟨name, hname, rfl⟩, ha, hq, g1⟩ (ih _ e2)

theorem body_in {uniq : List String → String → String} {ext : Bool} {w : World K} {L : Layout} {fs : List String} {os : List Nat} {calls : List (LInstr K)}
    (h : BodyCalls uniq ext w (InRegister L) fs os calls) : ∃ is, BodyInstrs uniq ext w L fs os is ∧ executeAll is = .ok calls := by
  induction h with
  | nil => exact ⟨[], .nil _, rfl⟩
  | base hb _ ih =>
    obtain ⟨is, h1, h2⟩ := ih
    obtain ⟨op, k, callee, np, nq, xs, qs, args, ho, hk, g1, ha, g2, g3, rfl⟩ := hb
    obtain ⟨name, hname, -⟩ := base_table.1 g1
    exact ⟨_, .base ho hk hname ha h1, (executeAll_cons _ _ _).2 ⟨_, _, (execute_base hname ha _ _).2 ⟨callee, np, nq, g1, g2, g3, rfl⟩, h2, rfl⟩⟩
  | external he hb _ ih =>
    obtain ⟨is, h1, h2⟩ := ih
    obtain ⟨op, k, n, xs, qs, ho, hk, g1, ha, hq, g2⟩ := hb
    obtain ⟨name, hname, rfl⟩ := external_table.1 g1
    exact ⟨_, .external he ho hk hname ha hq h1, (executeAll_cons _ _ _).2 ⟨_, _, (execute_external ha _ _).2 ⟨g2, rfl⟩, h2, rfl⟩⟩

theorem executeAll_mz (ps : List (Nat × Nat)) :
    executeAll (ps.map fun p => (⟨.measurement, "mz", [.qubit p.1, .result p.2], none⟩ : QirInstr K)) =
      .ok (ps.map fun p => .call "__quantum__qis__mz__body" [.qubit p.1, .result p.2]) := by
  induction ps with
  | nil => rfl
  | cons p ps ih =>
    rw [List.map_cons, executeAll_cons]
    refine ⟨_, _, ?_, ih, rfl⟩
    unfold execute
    have : qis.get? "mz" = some ("__quantum__qis__mz__body", [.qubit, .result]) := by decide +kernel
    dsimp only
    rw [this]
    simp [argTy]

/-- What compiling gives. -/
theorem compiles (uniq : List String → String → String) (ext : Bool) {w : World K} {C : Circ} {L LC : Layout} (h : Bank.Ok C.q L) (hc : Bank.Ok C.c LC)
    (os : List Nat) {n m : Nat} (hn : L ≠ [] → n = L.items.length) (hm : LC ≠ [] → m = LC.items.length) (P : QirProgram K) :
    (∃ M', loop uniq ext w C os false { numQubits := n, numBits := m } = .ok M' ∧ compile M' = .ok P) ↔
      Compiles uniq ext w (InRegister L) (InRegister LC) os P := by
  constructor
  · rintro ⟨M', h1, h2⟩
    obtain ⟨gates, meas, is, pairs, e1, -, e3, e4, e5, e6, e7⟩ := loop_out uniq ext h hc os false _ M' (by exact hn) (by exact hm) h1
    simp only [List.nil_append] at e5 e6 e7
    unfold compile at h2
    rw [e5, e6, executeAll_mz] at h2
    cases hx : executeAll is with
    | error e => rw [hx] at h2; cases h2
    | ok calls =>
      rw [hx] at h2
      refine ⟨gates, meas, calls, pairs, e1, body_out e3 _ hx, e4, ?_⟩
      cases h2
      rw [e7]
      unfold mainProgram
      simp [record, Function.comp_def]
  · rintro ⟨gates, meas, calls, pairs, rfl, g1, g2, rfl⟩
    obtain ⟨is, b1, b2⟩ := body_in g1
    obtain ⟨M1, l1, l2, l3, l4, l5, l6⟩ := loop_gates uniq ext h hc b1 meas { numQubits := n, numBits := m } rfl hn
    obtain ⟨M2, m1, m2, m3, m4⟩ := loop_in uniq ext h hc g2 false M1 (by rw [l5]; exact hn) (by rw [l6]; exact hm)
    refine ⟨M2, by rw [l1, m1], ?_⟩
    unfold compile
    rw [m2, l2, m3, l3]
    simp only [List.nil_append]
    rw [b2, executeAll_mz]
    dsimp only
    rw [m4, l4]
    unfold mainProgram
    simp [record, Function.comp_def]

/-! ### Gates after measurements -/

/-- A measurement sets `measured`. -/
theorem step_meas (uniq : List String → String → String) (ext : Bool) {w : World K} {C : Circ} {L LC : Layout} (h : Bank.Ok C.q L) (hc : Bank.Ok C.c LC)
    {o : Nat} {pairs : List (Nat × Nat)} (hd : Measures w (InRegister L) (InRegister LC) o pairs) (rest : List Nat) (measured : Bool) (M : QirModule K)
    (hn : L ≠ [] → M.numQubits = L.items.length) (hm : LC ≠ [] → M.numBits = LC.items.length) :
    ∃ M1, loop uniq ext w C (o :: rest) measured M = loop uniq ext w C rest true M1 ∧ M1.numQubits = M.numQubits ∧ M1.numBits = M.numBits := by
  obtain ⟨op, k, qs, bs, ho, hk, hname, hqs, hbs, g⟩ := hd
  obtain ⟨N, hN⟩ : ∃ N : QirModule K, N = { M with
      measurements := M.measurements ++ pairs.map (fun p => ⟨.measurement, "mz", [.qubit p.1, .result p.2], none⟩),
      output := M.output ++ pairs.map (fun p => ⟨.output, "out", [.result p.2], none⟩) } := ⟨_, rfl⟩
  have hmm := (measure_ok h hc "mz" _ M N hn hm).2 ⟨_, g, hN⟩
  refine ⟨N, ?_, by rw [hN], by rw [hN]⟩
  conv => lhs; unfold loop
  rw [ho]; dsimp only; rw [hk]; dsimp only
  unfold step
  rw [table_measurement.2 ⟨hname, rfl⟩]
  dsimp only
  rw [hqs, hbs]
  dsimp only
  rw [hmm]

/-- A gate after a measurement is refused. -/
theorem step_refused (uniq : List String → String → String) (ext : Bool) {w : World K} {C : Circ} {L : Layout} {o : Nat}
    (hg : (∃ call, BaseCall w (InRegister L) o call) ∨ (ext = true ∧ ∃ callee args, ExternalCall w (InRegister L) o callee args)) (rest : List Nat) (M : QirModule K) :
    loop uniq ext w C (o :: rest) true M = .error .valueError := by
  rcases hg with ⟨call, op, k, callee, np, nq, xs, qs, args, ho, hk, g1, -⟩ | ⟨he, callee, args, op, k, n, xs, qs, ho, hk, g1, -, hq, -⟩
  · obtain ⟨name, hname, -⟩ := base_table.1 g1
    unfold loop
    rw [ho]; dsimp only; rw [hk]; dsimp only
    unfold step
    rw [hname]
    rfl
  · obtain ⟨name, hname, -⟩ := external_table.1 g1
    unfold loop
    rw [ho]; dsimp only; rw [hk]; dsimp only
    unfold step addExternal
    rw [hname]
    dsimp only
    rw [if_pos he, hq]
    rfl

theorem bodyCalls_exist (uniq : List String → String → String) {ext : Bool} {w : World K} {place : Nat → Nat → Prop} : ∀ (os : List Nat) (fs : List String),
    (∀ o ∈ os, (∃ call, BaseCall w place o call) ∨ (ext = true ∧ ∃ callee args, ExternalCall w place o callee args)) →
    ∃ calls, BodyCalls uniq ext w place fs os calls
  | [], fs, _ => ⟨[], .nil _⟩
  | o :: os, fs, h => by
    rcases h o (by simp) with ⟨call, hb⟩ | ⟨he, callee, args, hb⟩
    · obtain ⟨calls, hc⟩ := bodyCalls_exist uniq os fs fun x hx => h x (by simp [hx])
      exact ⟨_, .base hb hc⟩
    · obtain ⟨calls, hc⟩ := bodyCalls_exist uniq os (fs ++ [uniq fs callee]) fun x hx => h x (by simp [hx])
      exact ⟨_, .external he hb hc⟩

/-- Once a measurement has been compiled, only measurements are accepted. -/
theorem loop_measured (uniq : List String → String → String) (ext : Bool) {w : World K} {C : Circ} {L LC : Layout} (h : Bank.Ok C.q L) (hc : Bank.Ok C.c LC) :
    ∀ (os : List Nat) (M : QirModule K), (L ≠ [] → M.numQubits = L.items.length) → (LC ≠ [] → M.numBits = LC.items.length) →
    (∀ o ∈ os, ((∃ call, BaseCall w (InRegister L) o call) ∨ (ext = true ∧ ∃ callee args, ExternalCall w (InRegister L) o callee args)) ∨
      ∃ pairs, Measures w (InRegister L) (InRegister LC) o pairs) →
    (∃ o ∈ os, ¬ ∃ pairs, Measures w (InRegister L) (InRegister LC) o pairs) → loop uniq ext w C os true M = .error .valueError
  | [], _, _, _, _, hx => by simp at hx
  | o :: os, M, hn, hm, hall, hx => by
    by_cases ho : ∃ pairs, Measures w (InRegister L) (InRegister LC) o pairs
    · obtain ⟨pairs, hd⟩ := ho
      obtain ⟨M1, e1, e2, e3⟩ := step_meas uniq ext h hc hd os true M hn hm
      rw [e1]
      refine loop_measured uniq ext h hc os M1 (by rw [e2]; exact hn) (by rw [e3]; exact hm) (fun x hx => hall x (by simp [hx])) ?_
      obtain ⟨x, hx1, hx2⟩ := hx
      rcases List.mem_cons.1 hx1 with rfl | hx1
      · exact (hx2 ⟨pairs, hd⟩).elim
      · exact ⟨x, hx1, hx2⟩
    · rcases hall o (by simp) with hg | hg
      · exact step_refused uniq ext hg os M
      · exact (ho hg).elim

/-- A circuit in which some gate comes after a measurement is refused. -/
theorem loop_refused (uniq : List String → String → String) (ext : Bool) {w : World K} {C : Circ} {L LC : Layout} (h : Bank.Ok C.q L) (hc : Bank.Ok C.c LC) :
    ∀ (os : List Nat) (M : QirModule K), (L ≠ [] → M.numQubits = L.items.length) → (LC ≠ [] → M.numBits = LC.items.length) →
    (∀ o ∈ os, ((∃ call, BaseCall w (InRegister L) o call) ∨ (ext = true ∧ ∃ callee args, ExternalCall w (InRegister L) o callee args)) ∨
      ∃ pairs, Measures w (InRegister L) (InRegister LC) o pairs) →
    (∃ as a bs, os = as ++ a :: bs ∧ (∃ pairs, Measures w (InRegister L) (InRegister LC) a pairs) ∧
      ∃ b ∈ bs, ¬ ∃ pairs, Measures w (InRegister L) (InRegister LC) b pairs) → loop uniq ext w C os false M = .error .valueError := by
  intro os
  induction os with
  | nil => rintro M - - - ⟨as, a, bs, e, -⟩; simp at e
  | cons o os ih =>
    intro M hn hm hall hx
    by_cases ho : ∃ pairs, Measures w (InRegister L) (InRegister LC) o pairs
    · obtain ⟨pairs, hd⟩ := ho
      obtain ⟨M1, e1, e2, e3⟩ := step_meas uniq ext h hc hd os false M hn hm
      rw [e1]
      refine loop_measured uniq ext h hc os M1 (by rw [e2]; exact hn) (by rw [e3]; exact hm) (fun x hx => hall x (by simp [hx])) ?_
      obtain ⟨as, a, bs, e, -, b, hb, hb'⟩ := hx
      refine ⟨b, ?_, hb'⟩
      cases as with
      | nil => simp at e; rw [e.2]; exact hb
      | cons x as => simp at e; rw [e.2]; simp [hb]
    · rcases hall o (by simp) with hg | hg
      · obtain ⟨calls, hcalls⟩ := bodyCalls_exist uniq (ext := ext) [o] M.functions (by intro x hx; simp at hx; subst hx; exact hg)
        obtain ⟨is, b1, -⟩ := body_in hcalls
        obtain ⟨M1, e1, -, -, -, e5, e6⟩ := loop_gates uniq ext h hc b1 os M rfl hn
        simp only [List.cons_append, List.nil_append] at e1
        rw [e1]
        refine ih M1 (by rw [e5]; exact hn) (by rw [e6]; exact hm) (fun x hx => hall x (by simp [hx])) ?_
        obtain ⟨as, a, bs, e, ha, hb⟩ := hx
        cases as with
        | nil => simp at e; rw [e.1] at ho; exact (ho ha).elim
        | cons x as => simp at e; exact ⟨as, a, bs, e.2, ha, hb⟩
      · exact (ho hg).elim

end Qir

/-- `to_qir` reads the registers and then compiles the operations. -/
theorem toQir_eq [DecidableEq K] [Zero K] {A : Call K → Prop} (hA : ∀ e, A e → SetsNoBit e) {w : World K} (h : Reach A w) {c : Nat} {C : Circ} (hC : w.circs[c]? = some C)
    {L LC : Layout} (hL : Shows C.q L) (hLC : Shows C.c LC) (uniq : List String → String → String) (ext : Bool) :
    ∃ (w' : World K) (C' : Circ) (n m : Nat), w'.ops = w.ops ∧ w'.classes = w.classes ∧ C'.ops = C.ops ∧ Bank.Ok C'.q L ∧ Bank.Ok C'.c LC ∧
      (L ≠ [] → n = L.items.length) ∧ (LC ≠ [] → m = LC.items.length) ∧
      (toQir uniq c ext w).1 = match Qir.loop uniq ext w' C' C'.ops false { numQubits := n, numBits := m } with
        | .error e => .error e
        | .ok M' => Qir.compile M' := by
  obtain ⟨L', h1, h2, -⟩ := reach_q h hC
  cases Bank.shows_unique h1.shows hL
  obtain ⟨hev, -, LC', h3, h4, -⟩ := reach_c hA h hC
  cases Bank.shows_unique h3.shows hLC
  obtain ⟨r, g1, -, g3⟩ := qubitsOf_eq hC h1
  obtain ⟨s, b', f1, f2, f3, f4, -⟩ := Bank.flat_ok hev h3
  set C1 : Circ := { C with q := { C.q with cache := some r } } with hC1
  have hC1' : (w.setCirc c C1).circs[c]? = some C1 := setCirc_get hC
  have hb : bitsOf c (w.setCirc c C1) = (.ok s, (w.setCirc c C1).setCirc c { C1 with c := b' }) := by
    unfold bitsOf
    rw [hC1']
    dsimp only
    have : (w.setCirc c C1).bitEnv = w.bitEnv := rfl
    rw [this, show C1.c = C.c from rfl, f1]
  have hC2 : ((w.setCirc c C1).setCirc c { C1 with c := b' }).circs[c]? = some { C1 with c := b' } := setCirc_get hC1'
  refine ⟨(w.setCirc c C1).setCirc c { C1 with c := b' }, { C1 with c := b' }, r.cy.stop, s.cy.stop, rfl, rfl, rfl, Bank.ok_of_regs h1 rfl,
    Bank.ok_of_regs h3 f2, ?_, ?_, ?_⟩
  · intro hne; have := (g3 (h2 hne)).stop; simpa using this
  · intro hne; have := (f4 (h4 hne)).stop; simpa using this
  · unfold toQir
    simp only [bind, M.bind, circ, M.deref, M.read, id, g1, hb, hC2]
    generalize Qir.loop uniq ext _ _ _ _ _ = z
    cases z <;> rfl

theorem toQir_ok [DecidableEq K] [Zero K] {A : Call K → Prop} (hA : ∀ e, A e → SetsNoBit e) {w : World K} (h : Reach A w) {c : Nat} {C : Circ} (hC : w.circs[c]? = some C)
    {L LC : Layout} (hL : Shows C.q L) (hLC : Shows C.c LC) (uniq : List String → String → String) (ext : Bool) (P : QirProgram K) :
    (toQir uniq c ext w).1 = .ok P ↔ Compiles uniq ext w (InRegister L) (InRegister LC) C.ops P := by
  obtain ⟨w', C', n, m, e1, e2, e3, e4, e5, e6, e7, e8⟩ := toQir_eq hA h hC hL hLC uniq ext
  have key := Qir.compiles uniq ext (w := w') e4 e5 C'.ops e6 e7 P
  have hcong : Compiles uniq ext w' (InRegister L) (InRegister LC) C'.ops P ↔ Compiles uniq ext w (InRegister L) (InRegister LC) C.ops P := by
    have hb : ∀ fs os calls, BodyCalls uniq ext w' (InRegister L) fs os calls ↔ BodyCalls uniq ext w (InRegister L) fs os calls := by
      intro fs os calls
      constructor
      · intro h
        induction h with
        | nil => exact .nil _
        | base a _ ih => exact .base (by unfold BaseCall at *; rwa [e1, e2] at a) ih
        | external he a _ ih => exact .external he (by unfold ExternalCall at *; rwa [e1, e2] at a) ih
      · intro h
        induction h with
        | nil => exact .nil _
        | base a _ ih => exact .base (by unfold BaseCall at *; rwa [e1, e2]) ih
        | external he a _ ih => exact .external he (by unfold ExternalCall at *; rwa [e1, e2]) ih
    unfold Compiles Measures
    simp only [hb, e1, e2, e3]
  rw [← hcong, ← key, e8]
  constructor
  · intro hx
    split at hx
    · cases hx
    · next M' hM => exact ⟨M', hM, hx⟩
  · rintro ⟨M', hM, hx⟩
    rw [hM]; exact hx

/-- A measurement is not a gate. -/
theorem not_both {ext : Bool} {w : World K} {place placeQ placeC : Nat → Nat → Prop} {o : Nat} (hg : GateCompilable ext w place o)
    (hm : MeasurementCompilable w placeQ placeC o) : False := by
  obtain ⟨pairs, op, k, qs, bs, ho, hk, hn, -⟩ := hm
  have b1 : ∀ g ∈ baseGates, g.1 ≠ "Measurement" := by decide +kernel
  have b2 : ∀ g ∈ externalGates, g.1 ≠ "Measurement" := by decide +kernel
  rcases hg with ⟨call, op', k', callee, np, nq, xs, qs, args, ho', hk', g1, -⟩ | ⟨-, callee, args, op', k', n, xs, qs, ho', hk', g1, -⟩
  · rw [ho] at ho'; cases ho'
    rw [hk] at hk'; cases hk'
    exact b1 _ g1 hn
  · rw [ho] at ho'; cases ho'
    rw [hk] at hk'; cases hk'
    exact b2 _ g1 hn

/-- Splitting a list before the first element with a property that is kept. -/
theorem split_last {α : Type} {G N : α → Prop} : ∀ (l : List α), (∀ x ∈ l, G x ∨ N x) →
    (∀ (i j : Nat) (a b : α), i < j → l[i]? = some a → l[j]? = some b → N a → N b) → ∃ gs ns, l = gs ++ ns ∧ (∀ x ∈ gs, G x) ∧ ∀ x ∈ ns, N x
  | [], _, _ => ⟨[], [], rfl, by simp, by simp⟩
  | x :: l, hall, hord => by
    by_cases hx : N x
    · refine ⟨[], x :: l, rfl, by simp, ?_⟩
      intro y hy
      rcases List.mem_cons.1 hy with rfl | hy
      · exact hx
      · obtain ⟨j, hj⟩ := List.getElem?_of_mem hy
        exact hord 0 (j + 1) x y (by omega) rfl (by simpa using hj) hx
    · obtain ⟨gs, ns, e, h1, h2⟩ := split_last l (fun y hy => hall y (by simp [hy]))
        (fun i j a b hij ha hb => hord (i + 1) (j + 1) a b (by omega) (by simpa using ha) (by simpa using hb))
      refine ⟨x :: gs, ns, by rw [e]; rfl, ?_, h2⟩
      intro y hy
      rcases List.mem_cons.1 hy with rfl | hy
      · exact (hall y (by simp)).resolve_right hx
      · exact h1 y hy

theorem forall₂_exists {α β : Type} {R : α → β → Prop} : ∀ (l : List α), (∀ x ∈ l, ∃ y, R x y) → ∃ l', List.Forall₂ R l l'
  | [], _ => ⟨[], .nil⟩
  | x :: l, h => by
    obtain ⟨y, hy⟩ := h x (by simp)
    obtain ⟨l', hl⟩ := forall₂_exists l fun z hz => h z (by simp [hz])
    exact ⟨y :: l', .cons hy hl⟩

theorem toQir_last [DecidableEq K] [Zero K] {A : Call K → Prop} (hA : ∀ e, A e → SetsNoBit e) {w : World K} (h : Reach A w) {c : Nat} {C : Circ} (hC : w.circs[c]? = some C)
    {L LC : Layout} (hL : Shows C.q L) (hLC : Shows C.c LC) (uniq : List String → String → String) (ext : Bool)
    (hall : ∀ o ∈ C.ops, GateCompilable ext w (InRegister L) o ∨ MeasurementCompilable w (InRegister L) (InRegister LC) o) :
    ((∀ i j a b : Nat, i < j → C.ops[i]? = some a → C.ops[j]? = some b → MeasurementCompilable w (InRegister L) (InRegister LC) a →
        MeasurementCompilable w (InRegister L) (InRegister LC) b) → ∃ P, (toQir uniq c ext w).1 = .ok P) ∧
    ((∃ i j a b : Nat, i < j ∧ C.ops[i]? = some a ∧ C.ops[j]? = some b ∧ MeasurementCompilable w (InRegister L) (InRegister LC) a ∧
        GateCompilable ext w (InRegister L) b) → (toQir uniq c ext w).1 = .error .valueError) := by
  constructor
  · intro hord
    obtain ⟨gs, ns, e, h1, h2⟩ := split_last C.ops hall hord
    obtain ⟨calls, hcalls⟩ := Qir.bodyCalls_exist uniq gs [] h1
    obtain ⟨pairs, hpairs⟩ := forall₂_exists ns h2
    exact ⟨_, (toQir_ok hA h hC hL hLC uniq ext _).2 ⟨gs, ns, calls, pairs, e, hcalls, hpairs, rfl⟩⟩
  · rintro ⟨i, j, a, b, hij, ha, hb, hma, hgb⟩
    obtain ⟨w', C', n, m, e1, e2, e3, e4, e5, e6, e7, e8⟩ := toQir_eq hA h hC hL hLC uniq ext
    rw [e8, Qir.loop_refused uniq ext e4 e5 C'.ops _ (by exact e6) (by exact e7)]
    · intro o ho
      rw [e3] at ho
      have := hall o ho
      unfold GateCompilable MeasurementCompilable BaseCall ExternalCall Measures at this
      unfold BaseCall ExternalCall Measures
      rw [e1, e2]
      exact this
    · obtain ⟨hi, ha⟩ := List.getElem?_eq_some_iff.1 ha
      refine ⟨C.ops.take i, a, C.ops.drop (i + 1), ?_, ?_, b, ?_, ?_⟩
      · rw [e3, ← ha, List.cons_getElem_drop_succ, List.take_append_drop]
      · unfold MeasurementCompilable Measures at hma; unfold Measures; rwa [e1, e2]
      · apply List.mem_of_getElem? (i := j - (i + 1))
        rw [List.getElem?_drop]
        rw [show i + 1 + (j - (i + 1)) = j by omega]
        exact hb
      · intro hm
        refine not_both (placeQ := InRegister L) (placeC := InRegister LC) hgb ?_
        unfold Measures at hm; unfold MeasurementCompilable Measures; rwa [e1, e2] at hm

theorem inRegister_single {L : Layout} (hL : L.length ≤ 1) : InRegister L = InCircuit L := by
  funext q i
  unfold InRegister InCircuit At
  match L, hL with
  | [], _ => simp [Layout.items]
  | [(l, ks)], _ =>
    apply propext
    constructor
    · rintro ⟨j, l', ks', h1, h2⟩
      cases j with
      | zero => simp at h1; simpa [Layout.items, h1] using h2
      | succ j => simp at h1
    · intro h
      exact ⟨0, l, ks, rfl, by simpa [Layout.items] using h⟩

end DG
