import Verif.Spec.Replace

/-! Identities between gates, as found in textbooks, and how to undo gates. -/

noncomputable section

namespace DG.Spec
open DG.Sim

/-- Gates on one qubit (in the order of the circuit) with the same matrix as other gates. -/
inductive Equal : List Base → List Base → Prop
  | identity : Equal [.identity] []
  | x_x : Equal [.x, .x] []
  | y_y : Equal [.y, .y] []
  | z_z : Equal [.z, .z] []
  | h_h : Equal [.hadamard, .hadamard] []
  | s_s : Equal [.s, .s] [.z]
  | t_t : Equal [.t, .t] [.s]
  | h_x_h : Equal [.hadamard, .x, .hadamard] [.z]
  | h_z_h : Equal [.hadamard, .z, .hadamard] [.x]
  | rx_zero : Equal [.rx (.num 0)] []
  | ry_zero : Equal [.ry (.num 0)] []
  | rz_zero : Equal [.rz (.num 0)] []
  | rx_rx (a b : ℝ) : Equal [.rx (.num a), .rx (.num b)] [.rx (.num (a + b))]
  | ry_ry (a b : ℝ) : Equal [.ry (.num a), .ry (.num b)] [.ry (.num (a + b))]
  | rz_rz (a b : ℝ) : Equal [.rz (.num a), .rz (.num b)] [.rz (.num (a + b))]
  | rx_turns (a : ℝ) : Equal [.rx (.num (a + 4 * Real.pi))] [.rx (.num a)]
  | ry_turns (a : ℝ) : Equal [.ry (.num (a + 4 * Real.pi))] [.ry (.num a)]
  | rz_turns (a : ℝ) : Equal [.rz (.num (a + 4 * Real.pi))] [.rz (.num a)]
  | rotation (b g d : ℝ) : Equal [.rotation (.num b) (.num g) (.num d)] [.rz (.num b), .ry (.num g), .rz (.num d)]

/-- Gates on one qubit with the same matrix as other gates up to a factor of modulus 1. -/
inductive EqualPhase : List Base → List Base → Prop
  | x : EqualPhase [.rx (.num Real.pi)] [.x]
  | y : EqualPhase [.ry (.num Real.pi)] [.y]
  | z : EqualPhase [.rz (.num Real.pi)] [.z]
  | s : EqualPhase [.rz (.num (Real.pi / 2))] [.s]
  | t : EqualPhase [.rz (.num (Real.pi / 4))] [.t]
  | x_y : EqualPhase [.x, .y] [.z]
  | y_x : EqualPhase [.y, .x] [.z]
  | h_y_h : EqualPhase [.hadamard, .y, .hadamard] [.y]
  | rx_turn (a : ℝ) : EqualPhase [.rx (.num (a + 2 * Real.pi))] [.rx (.num a)]
  | ry_turn (a : ℝ) : EqualPhase [.ry (.num (a + 2 * Real.pi))] [.ry (.num a)]
  | rz_turn (a : ℝ) : EqualPhase [.rz (.num (a + 2 * Real.pi))] [.rz (.num a)]

/-- Gates on the qubits at the given positions that do the same as other gates: CX is `.controlled 1 .x`. -/
inductive Same {n : Nat} : List (Kind × List (Fin n)) → List (Kind × List (Fin n)) → Prop
  | single {A B : List Base} (t : Fin n) : Equal A B → Same (A.map fun b => (.single b, [t])) (B.map fun b => (.single b, [t]))
  | controlled {A B : List Base} (c t : Fin n) : c ≠ t → Equal A B →
      Same (A.map fun b => (.controlled 1 b, [c, t])) (B.map fun b => (.controlled 1 b, [c, t]))
  | swap_swap (a b : Fin n) : a ≠ b → Same [(.swap, [a, b]), (.swap, [a, b])] []
  | swap_sym (a b : Fin n) : a ≠ b → Same [(.swap, [a, b])] [(.swap, [b, a])]
  | swap_cx (a b : Fin n) : a ≠ b → Same [(.swap, [a, b])] [(.controlled 1 .x, [a, b]), (.controlled 1 .x, [b, a]), (.controlled 1 .x, [a, b])]
  | cz_sym (a b : Fin n) : a ≠ b → Same [(.controlled 1 .z, [a, b])] [(.controlled 1 .z, [b, a])]
  | cx_cz (c t : Fin n) : c ≠ t → Same [(.single .hadamard, [t]), (.controlled 1 .z, [c, t]), (.single .hadamard, [t])] [(.controlled 1 .x, [c, t])]
  | cz_cx (c t : Fin n) : c ≠ t → Same [(.single .hadamard, [t]), (.controlled 1 .x, [c, t]), (.single .hadamard, [t])] [(.controlled 1 .z, [c, t])]
  | cy_cx (c t : Fin n) : c ≠ t →
      Same [(.single .s, [t]), (.single .z, [t]), (.controlled 1 .x, [c, t]), (.single .s, [t])] [(.controlled 1 .y, [c, t])]
  | cx_turned (a b : Fin n) : a ≠ b →
      Same [(.single .hadamard, [a]), (.single .hadamard, [b]), (.controlled 1 .x, [a, b]), (.single .hadamard, [a]), (.single .hadamard, [b])]
        [(.controlled 1 .x, [b, a])]
  | ccx_ccx (c c' t : Fin n) : c ≠ c' → c ≠ t → c' ≠ t → Same [(.ccx, [c, c', t]), (.ccx, [c, c', t])] []
  | ccx_sym (c c' t : Fin n) : c ≠ c' → c ≠ t → c' ≠ t → Same [(.ccx, [c, c', t])] [(.ccx, [c', c, t])]
  | cswap_cswap (c a b : Fin n) : c ≠ a → c ≠ b → a ≠ b → Same [(.cswap, [c, a, b]), (.cswap, [c, a, b])] []
  | cswap_sym (c a b : Fin n) : c ≠ a → c ≠ b → a ≠ b → Same [(.cswap, [c, a, b])] [(.cswap, [c, b, a])]
  | cswap_ccx (c a b : Fin n) : c ≠ a → c ≠ b → a ≠ b →
      Same [(.cswap, [c, a, b])] [(.controlled 1 .x, [b, a]), (.ccx, [c, a, b]), (.controlled 1 .x, [b, a])]

/-- Gates on one qubit that undo a gate. -/
inductive Undoes : Base → List Base → Prop
  | identity : Undoes .identity [.identity]
  | x : Undoes .x [.x]
  | y : Undoes .y [.y]
  | z : Undoes .z [.z]
  | hadamard : Undoes .hadamard [.hadamard]
  | s : Undoes .s [.s, .z]
  | t : Undoes .t [.t, .s, .z]
  | rx (a : ℝ) : Undoes (.rx (.num a)) [.rx (.num (-a))]
  | ry (a : ℝ) : Undoes (.ry (.num a)) [.ry (.num (-a))]
  | rz (a : ℝ) : Undoes (.rz (.num a)) [.rz (.num (-a))]
  | rotation (b g d : ℝ) : Undoes (.rotation (.num b) (.num g) (.num d)) [.rotation (.num (-d)) (.num (-g)) (.num (-b))]

/-- Gates that undo the given gates: each one is undone, the last one first. -/
inductive Undo {n : Nat} : List (Kind × List (Fin n)) → List (Kind × List (Fin n)) → Prop
  | nil : Undo [] []
  | single {b : Base} {bs : List Base} {A B : List (Kind × List (Fin n))} (t : Fin n) : Undoes b bs → Undo A B →
      Undo ((.single b, [t]) :: A) (B ++ bs.map fun b => (.single b, [t]))
  | controlled {b : Base} {bs : List Base} {A B : List (Kind × List (Fin n))} (c t : Fin n) : c ≠ t → Undoes b bs → Undo A B →
      Undo ((.controlled 1 b, [c, t]) :: A) (B ++ bs.map fun b => (.controlled 1 b, [c, t]))
  | swap {A B : List (Kind × List (Fin n))} (a b : Fin n) : a ≠ b → Undo A B → Undo ((.swap, [a, b]) :: A) (B ++ [(.swap, [a, b])])
  | ccx {A B : List (Kind × List (Fin n))} (c c' t : Fin n) : c ≠ c' → c ≠ t → c' ≠ t → Undo A B →
      Undo ((.ccx, [c, c', t]) :: A) (B ++ [(.ccx, [c, c', t])])
  | cswap {A B : List (Kind × List (Fin n))} (c a b : Fin n) : c ≠ a → c ≠ b → a ≠ b → Undo A B →
      Undo ((.cswap, [c, a, b]) :: A) (B ++ [(.cswap, [c, a, b])])

/-- The operations are the given gates on the qubits `qs` of a circuit, all under the condition `cond`. -/
def Formed (qs : List Nat) (cond : Option (List Nat)) (gates : List (Kind × List (Fin qs.length))) (ops : List SOp) : Prop :=
  List.Forall₂ (fun (op : SOp) g => op.kind = g.1 ∧ (op.qubits = g.2.map fun i => qs[i]) ∧ op.cond = cond) ops gates

end DG.Spec
