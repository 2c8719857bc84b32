import Verif.Spec.Simulation

/-! What it means that a part of a circuit does the same as another part. -/

noncomputable section

namespace DG.Spec
open DG.Sim

/-- The operations are library gates on different qubits of the circuit with the qubits `qs`, all under the condition `cond`; together, the first one first,
they are the map `f` of states. -/
def Together (qs : List Nat) (cond : Option (List Nat)) (ops : List SOp) (f : State qs.length ℂ → State qs.length ℂ) : Prop :=
  ∃ gates : List (Kind × List (Fin qs.length)), Runs gates f ∧
    List.Forall₂ (fun (op : SOp) g => Supported op.kind ∧ op.cond = cond ∧ op.kind = g.1 ∧ op.qubits = g.2.map fun i => qs[i]) ops gates

/-- `g` is `f`, up to the global phase `z`. -/
def UpTo {n : Nat} (z : ℂ) (f g : State n ℂ → State n ℂ) : Prop := Complex.normSq z = 1 ∧ ∀ ψ x, g ψ x = z * f ψ x

/-- The instances of the classes of single-qubit operations. -/
inductive OfClass : String → List ℝ → Base → Prop
  | identity : OfClass "Identity" [] .identity
  | x : OfClass "X" [] .x
  | y : OfClass "Y" [] .y
  | z : OfClass "Z" [] .z
  | hadamard : OfClass "Hadamard" [] .hadamard
  | s : OfClass "S" [] .s
  | t : OfClass "T" [] .t
  | rx (θ : ℝ) : OfClass "RX" [θ] (.rx (.num θ))
  | ry (θ : ℝ) : OfClass "RY" [θ] (.ry (.num θ))
  | rz (θ : ℝ) : OfClass "RZ" [θ] (.rz (.num θ))
  | rotation (β γ δ : ℝ) : OfClass "Rotation" [β, γ, δ] (.rotation (.num β) (.num γ) (.num δ))

/-- Instances of the classes with the given names, which use up the parameters in order. -/
inductive Instances : List String → List ℝ → List Base → Prop
  | nil : Instances [] [] []
  | cons {name : String} {ps : List ℝ} {b : Base} {names : List String} {rest : List ℝ} {bs : List Base} :
      OfClass name ps b → Instances names rest bs → Instances (name :: names) (ps ++ rest) (b :: bs)

/-- Operations for the instances, all on the qubit `q` and under the condition `cond`. -/
def On (q : Nat) (cond : Option (List Nat)) (bs : List Base) (ops : List SOp) : Prop :=
  List.Forall₂ (fun (op : SOp) b => op.kind = .single b ∧ op.qubits = [q] ∧ op.cond = cond) ops bs

end DG.Spec
