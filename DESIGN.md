# Formal model of dwave-gate: design

The model lives in `lean/Verif/`. Lean 4.33.0, Mathlib, no axioms of our own.

* `Model/*`  - functions of /repo transcribed branch by branch; every definition cites file and lines.
* `Spec/*`   - small specifications that do not mention the model (lists, basis-state indices, sums).
* `Proofs/*` - helper lemmas.
* `Props/*`  - one theorem (or a few) per property, plus an `example` showing that the hypotheses are met
  by a concrete non-trivial case.

Python exceptions are values (`Except Err`); operations on mutable objects return the new state *also when
they raise*, so partial effects are visible. Where the code violates the property, the file contains a
theorem with a concrete witness (`..._violated`) and a `..._partial` theorem with the strongest restriction
we can prove; the full statement is kept in the docstring.

## Plan per property

| id | what is modelled | how it is proved |
|----|------------------|------------------|
| C01-C07 | `cyregister.pyx`: two insertion-ordered dictionaries plus a length; all methods | refinement to `List Lbl` without duplicates, induction over operation histories |
| C08, C09, C11 | `registers.py` `Register`, `SelfIncrementingRegister`, `_frozen` attribute possibly missing | refinement + induction over histories; `_frozen` missing after `+` is a violation |
| C10 | `__getitem__` with slices | equality with list slice on in-range non-negative bounds; violations elsewhere |
| C12 | `idx != v` with value-dependent equality | theorem when no stored value equals the position; violation witness |
| C13-C15 | `counters.py` with `set.pop` an arbitrary choice function | invariant: emitted + pool + remaining combinations is a permutation of all combinations |
| C16, C17 | `primitives.py` | case analysis, induction over histories; violation witness for ints |
| C18-C24, C32, C33 | `circuit.py` as a state machine over a heap of circuits, registers, bits, variables, operations | invariants by induction over histories |
| C25-C31 | contexts, operation constructors, circuit calls, eval | same state machine |
| C34, C51 | `set_state`, `density_matrix` over exact complex numbers | direct proof; violation witnesses |
| C35-C41 | generated C kernels on `BitVec 64` with C `int` shifts | bijection between (loop index, sub-index) and basis states; disjoint-block fold |
| C42-C50, C52 | `simulator.pyx` over exact complex numbers, random numbers as an arbitrary stream | induction over circuits using kernel theorems |
| C53-C57 | `unitary.py`, `create_operation` | equality of matrix entries; lru cache as explicit state |
| C58-C60 | gate matrices over the complex numbers | matrix algebra with cos/sin |
| C78 | gate matrices | matrix exponentials of Pauli matrices |
| C61 | class-level lazily initialised arity | state machine over class attribute |
| C62, C63, C79, C80 | QASM text as strings | the text equals a small printer of declarations and statements; injectivity of that printer by separators |
| C81 | program state and simulator state together | the simulator gets exactly the qubits and operations that the API shows (invariants of C01-C40), then the theorems about the simulator; the effect on the program state is that of a program of `readQubits` and `setBit` calls |
| C82 | samples as functions of a point in the unit cube | every row of outcomes is selected by a box in the cube whose volume is the joint Born probability; Lebesgue measure gives independence, integration gives the expected values |
| C83 | program state and simulator state together | C28 gives the copies; every gate of the library commutes with the embedding of the template's qubits into the circuit's; induction on the operations |
| C84 | `Spec/QasmMeaning.lean`: U, CX, the bodies in `qelib1.inc`, gate definitions, programs and their texts | every gate of the library equals its body in `qelib1.inc` up to a phase (products of 2x2 matrices that depend on the controls; permutations of basis states); induction on the operations; C62 gives the text, C81 the state |
| C85 | `Spec/QirMeaning.lean`: functions of the quantum instruction set as matrices, calls as steps on a state and results | C64 gives the calls, C81 the state; induction on the operations (a measurement is one call for each qubit) |
| C86 | as C85 | loading is a program of API calls, so invariants hold after it; C68 gives the circuit, C81 the state; a measurement commutes with gates on other qubits, so calls can be sorted |
| C87 | `Model/Qir.lean` (`loadInto` for any circuit), `Spec/Qir.lean` (`LoadedInto`) | the invariant of C68, with the operations, qubits and bits that were there before |
| C88, C89 | `Model/QirModule.lean`: the state of a `BaseModule` and its methods; `Spec/QirModule.lean`: which function belongs to given instructions (`MainOf`), histories | invariant of the module's state by induction on the history; simulation between a reset and a new module |
| C90 | `Model/Rounding.lean`: the simulation of gates with any addition, multiplication, matrices and norm; the kernels of `Model/Kernel.lean` are generic in the arithmetic; `Spec/Rounding.lean`: accuracy, rounding to doubles | error of one amplitude, of one gate in the Euclidean norm, then induction over the operations (exact gates are isometries); the rounding function has relative error 2^-53 |
| C91 | `Model/IdThreads.lean`: `IDCounter` with any number of threads that can be interrupted between any two accesses of class attributes or calls of built-in functions | invariant over all schedules: returned, stored, held and not yet drawn ids are all different, generators have different lengths |
| C92 | `Model/Threads.lean`: threads that make API calls, and enter contexts in two steps | invariant over all schedules: at most one thread is inside, and its context is the active one |
| C93 | `Model/Interrupt.lean`: every API call as a sequence of steps between which an interrupt can happen, programs with any number of interrupts | each sequence of steps equals the call (`execSteps_run`); invariants hold between the steps; operations only grow; violations for all blocks and qubits |
| C94 | `Model/Eval.lean`: `ParametricCircuit.eval`, on a deep copy and in place, as one of the calls of programs | induction over the loop: what has been evaluated up to position i (`Mid`, `EvaluatedUpTo`); existing objects are prefixes; C81 for the result since histories contain `eval` |
| C95 | `Model/World.lean`: `opEq`, equality of operations; `SameOp` in `Spec/Program.lean` | exact result in all cases, then properties of the relation; the names of the library determine the gates; induction over the sequence of operations |
| C96 | `Model/LockedAttr.lean`: the metaclass of operations, on top of `Model/MixedProperty.lean` | invariant over all histories: no class has its own `locked_attributes`, and the first `matrix` in the method resolution order stays |
| C97 | `Model/QirEq.lean`: `Instruction.__eq__` | the function that is called fixes the types of the arguments; induction over the arguments |
| C98 | the model of C18-C33: `Model/World.lean`, `Model/Eval.lean` | invariant of all calls; `Spec/OpShape.lean`: what a well-formed operation is |
| C99 | `Model/Simulator.lean`, `Model/Sampling.lean`, `Model/Run.lean`, `Model/World.lean` | `Spec/Branches.lean`: the branches of a circuit as a relation (projections, conditions decided by earlier results) and the sum of squared norms; induction over the operations: the random numbers that lead to a branch are a box, whose volume is the branch's squared norm; `C83_measured`: the same induction for the copies of a template |
| C100 | `Model/Qir.lean`, `Spec/Loads.lean`: programs with loads | every load acts on the state like a program of calls that build circuits (by induction on the QIR program, for every outcome), so that reachable states stay reachable; invariant of the load for what is kept; violated for the circuit itself if the load fails |
| C101 | `Model/Session.lean`: `simulate` operation by operation, with what is left after an exception; programs with simulations and states of circuits | every simulation acts on the objects like a program that reads qubits and sets bits; frame invariant of the loops; invariant of the states over all histories; simulation of the loop by that of `Model/Simulator.lean`; violated for bits after an exception and for circuits that get more qubits |
| C102 | `Model/Kernel.lean` with `sparse_gate_mask`, `Model/Generator.lean`: `generate_op` and the names the C code declares | the kernels are proved for any numbers of targets and controls by the geometry of the index computation; the matrix on several qubits is specified as a sum over the basis states that agree elsewhere; the names are different up to three targets (table of single digits), violated from four on |
| C103 | `Model/Generator.lean`: `generate_op_set` with its check, operator sets with several targets and controls | norm kernels block by block, quadratic form of the sum of E^dagger E, Cauchy-Schwarz for the tolerance; violated for controls |
| C104 | `Model/Session.lean` with `mixed_state` and `little_endian` | the loop over gates agrees with that of `Model/Simulator.lean` step by step (`density_prefix`), then C50; violated for measurements |
| C105 | `Model/Custom.lean`: `apply_instruction` and both simulation loops with operations of classes made by `create_operation` | the product of 2x2 matrices acts like the gates one after the other; gates on a qubit and on the corresponding virtual qubit commute; the vector determines the memory, so the two programs agree step by step; violated for several qubits, empty, conditional or changed circuits |
| C106 | `Model/Simulator.lean`, `Model/Unitary.lean` | gates are linear maps given by matrices; a part of a circuit acts on the memory as the composition of its gates, which determines the new memory; for density matrices the maps agree on product states, hence everywhere; a global phase commutes with gates and measurements of the semantics |
| C107 | `Model/Decomposition.lean`: `Operation.decomposition` and the lists it returns | C59 for the matrices, C106 for the circuits; violated for programs that change the list |
| C108 | `Model/Simulator.lean` | C76 for both circuits; every step of the semantics commutes with the embedding of states (`merge`: amplitude of the old qubits times a function of the others), probabilities factor |
| C109 | `Model/Simulator.lean` | the embedding of C108 twice: first part with the rest in state 0, then second part with the state of the first part as the function of the other qubits |
| C110 | `Model/SimThreads.lean`: `simulate` in steps, threads and schedules | the steps on their own equal `simulate` (`alone_simulate`); a step reads and writes only what belongs to the simulation; induction over the schedule; violated for threads that simulate the same circuit |
| C111 | `Model/SimThreads.lean` | invariant over the steps; the simulation does not depend on the bits before if it sets those it tests (C49); violated: bits are set before the state is |
| C112 | `Model/Simulator.lean` | a gate commutes with everything that does not depend on its qubits (restrictions to values of other qubits, projections), then induction over the operations; probabilities by exchanging sums over the branches of C99 |
| C113 | `Model/Gates.lean`, `Model/Simulator.lean` | identities between 2x2 matrices, which carry over to controlled gates, and between permutations of basis states; then C106 |
| C114 | `Model/Gates.lean`, `Model/Simulator.lean` | the undoing gates of `Spec/Identities.lean`, induction over the gates; then C106 |
| C115 | `Model/Simulator.lean` | the state is a multiple of a basis state all the time: induction over the semantics of C76, against the evaluation of `Spec/Classical.lean` |
| C116 | `Model/Repr.lean` | circuits: corollary of C18; other objects: the text is taken apart from the left or from the right at signs that the parts do not contain, so it determines the parts; violated for circuits with set bits, variables with value 0, conditional measurements |
| C117 | `Model/Unitary.lean` | a matrix is determined by its action (`acts_unique`), the action of a sequence is the composition (C54), the identities are those of C113 and C114 |
| C118 | `Model/Simulator.lean` (density loop) | the array is the outer product of the state vector with its conjugate (C50) and the state is normalised (C43) |
| C119 | `Model/Simulator.lean` | for every classical gate the amplitude at the computed values is that at the old values times a phase; composition along the semantics of C76; bijectivity follows; the distribution by C82 and reindexing of the sum |
| C120 | `Model/IdCalls.lean` | states with natural numbers embed into those with integers and the embedding commutes with the calls; the invariant of C13/C14 then by induction over the calls; violations for all states and choices |
| C121 | `Model/DirectRegs.lean` | invariant over careful histories: the cache is empty or represents a sublist of the items, and has no attribute `_frozen`; stale reads for all such histories; the double qubit by a witness |
| C122 | `Model/DirectOps.lean` | the invariant of C24 over flat histories with calls on lists; the effect of each call; lock and membership are not checked, for all circuits |
| C123 | `Model/World.lean`, `Model/Program.lean`, `Model/Eval.lean` | every call keeps what a user sees of a circuit that it is not about, and all operations, bits, variables and qubits that it is not about (`Spec/Frame.lean`), by preservation through all methods; exact effects of the setters |
| C124 | `Model/World.lean`, `Model/Program.lean` | a call that raises keeps what a user sees of every circuit (`Spec/Refused.lean` lists the calls), by composition of steps that keep it and last steps that cannot fail; counterexamples for the other calls, and for these exactly what a failing call leaves behind (`Props/RefusedItems.lean`, `RefusedTemplates.lean`, `RefusedReset.lean`) |
| C64-C68 | QIR as lists of calls | structural induction |
| C69 | descriptor protocol | case analysis |

## Trusted base

* Lean's kernel and the axioms `propext`, `Classical.choice`, `Quot.sound`.
* The transcription of Python / Cython / C to Lean (each definition cites its source lines).
* Exact arithmetic instead of IEEE doubles in the simulator, unitaries and gate matrices, except in C90, which bounds the rounding errors for circuits of gates.
* For the meaning of exported programs: the gates of `qelib1.inc` as transcribed in `Spec/QasmMeaning.lean`, and the functions of the quantum
  instruction set as given in `Spec/QirMeaning.lean`.

Every theorem depends on at most these three axioms (check with `#print axioms`); no `native_decide`, no
`bv_decide`, no `sorry`.

## What is modelled, module by module

| model file | code | simplifications |
|---|---|---|
| `Model/Py.lean` | Python dict / list / exceptions | dictionaries are association lists in insertion order; exceptions are an enumeration without messages |
| `Model/CyRegister.lean` | `registers/cyregister.pyx` (all) | labels are integers or opaque hashables; C integer widths are unbounded |
| `Model/Register.lean` | `registers/registers.py` (all classes) | `repr`/`str` are in `Model/Repr.lean` |
| `Model/IdCounter.lean` | `tools/counters.py` | `set.pop` is an arbitrary choice; negative lengths and batch sizes are in `Model/IdCalls.lean` |
| `Model/IdCalls.lean` | `tools/counters.py` | all three methods in any order, integer arguments of `reset`; arguments of other types are not modelled |
| `Model/IdThreads.lean` | `IDCounter.next`, `refresh` in several threads | calls of built-in functions (`next` of a generator, `set.add`, `set.pop`) are atomic, as with CPython's global lock; `reset` is not called by threads |
| `Model/Primitives.lean` | `primitives.py` | hash values of ids are an arbitrary injective-free function; formatting not modelled |
| `Model/Kernel.lean` | `simulator/operation_generation.py` (the C code it generates) | `BitVec 64` basis indices, C `int` shifts with undefined behaviour as an error; any type of amplitudes with addition and multiplication (exact complex numbers, or doubles for C90); OpenMP as an arbitrary iteration order |
| `Model/Generator.lean` | `simulator/operation_generation.py` (`generate_op`, `generate_op_set`) | for all arguments; a C compiler that rejects a name declared twice in a block; numbers of precompiled matrices exact; matrices of a wrong shape not modelled |
| `Model/Gates.lean` | matrices in `operations/operations.py` | exact complex numbers; rounding of `cmath` not modelled |
| `Model/Rounding.lean` | `simulator/simulator.pyx` (state vectors, gates), `Circuit._assert_state` | the same code as `Model/Simulator.lean` with rounded arithmetic; no measurements, no infinities or NaN |
| `Model/Simulator.lean` | `simulator/simulator.pyx`, `Measurement.sample`, `Circuit.density_matrix`, `is_blocked` | random generator = arbitrary stream in [0,1)|
| `Model/Sampling.lean` | `Measurement.sample` with all arguments, `Measurement.expval` (base.py 701-761) | averages are exact real numbers |
| `Model/Run.lean` | how `simulate` (simulator.pyx 133-173) reads circuits, operations and their classes, and sets bits | classes are recognised by their names; if `simulate` raises, bits keep their values; the state is returned and not stored (without these simplifications: `Model/Session.lean`) |
| `Model/Session.lean` | `simulate`, `_measure`, the two loops of `simulator.pyx` with all effects on objects; `Circuit.set_state`, `state`, `density_matrix` in programs | arrays are values (a caller that changes an array that they set or read changes the state of the circuit) |
| `Model/Unitary.lean` | `tools/unitary.py`, `ControlledOperation.matrix`, `ParametricControlledOperation.matrix`, `create_operation` | arrays are a dimension and an entry function; exact arithmetic; the `lru_cache` is explicit state with object identity as key |
| `Model/Custom.lean` | `simulator.pyx` for operations made by `create_operation` | as in `Model/Simulator.lean`; the result of `mat @ state` is taken to be C-ordered |
| `Model/Decomposition.lean` | `base.py` `Operation.decomposition` | classes made by users are not modelled |
| `Model/SimThreads.lean` | `simulator.pyx` `simulate`, `apply_instruction`, `_measure` in steps | state vectors; the circuit does not change during the simulation; `is_blocked` is one step |
| `Model/Arity.lean` | `Operation.__init__`, `_check_qubits`, `num_qubits`, `ControlledOperation.__init__` | only numbers of qubits; one class at a time, without inheritance between concrete classes |
| `Model/Bank.lean` | registers of a circuit: `qubits`, `bits`, `add_*`, `get_*`, `find_*` (`circuit.py` 225-583) | labels are strings or integers; direct use of its registers is in `Model/DirectRegs.lean`, changes of the dictionary itself are not modelled |
| `Model/DirectRegs.lean` | `circuit.qregisters[l].add/freeze`, `circuit.qubits.add` (`circuit.py` 157-164, 225-232; `registers.py` 70-109) | assignments to the dictionary are not modelled |
| `Model/DirectOps.lean` | methods of the list `circuit.circuit` (`circuit.py` 175-178) | `sort`, slices and `extend` of the list are not modelled |
| `Model/World.lean`, `Model/Program.lean` | `circuit.py` (rest), `operations/base.py` constructors, calls, `eval`, contexts | objects are numbers in a global state; programs are sequences of API calls with `with` and `try`; see the head of the file |
| `Model/Threads.lean` | contexts and API calls in several threads | `__enter__` can be interrupted between test and assignment; all other API calls are single steps |
| `Model/Interrupt.lean` | the API calls in steps, `__enter__`, `__exit__`, `freeze`, interrupted programs | a step contains at most one change of the state that others can see (an assignment, a change of a dictionary, list or register); methods of registers and changes of parameters of one variable are single steps; new objects that nobody can get at are left out |
| `Model/Eval.lean` | `copy.deepcopy` of circuits, `ParametricCircuit.eval` | all bits, variables and operations are copied instead of those that can be reached; a copy of a qubit is the qubit; a bit and its copy are different objects that are not equal |
| `Model/LockedAttr.lean` | `ABCLockedAttr` (`operations/base.py` 158-171), assignment and deletion of class attributes, class statements | all classes have this metaclass; `attr in value` is a parameter |
| `Model/QirEq.lean` | `Instruction.__eq__` (`qir/instructions.py`) | the other value is an instruction; integers and floats are not distinguished |
| `Model/CircuitState.lean` | `state`, `density_matrix`, `set_state` (`circuit.py` 243-292) | exact complex numbers; arrays are values |
| `Model/Qasm.lean` | `to_qasm` of circuits, registers, operations and operations of `create_operation` | numbers are printed by a given function; `str.strip` for Lean's whitespace characters |
| `Model/Qir.lean` | `qir/instructions.py`, `qir/compiler.py`, `qir/loader.py`, `Circuit.to_qir`, `from_qir` | a QIR module is a list of functions, these are lists of blocks of calls and returns; how LLVM makes names unique is a given function; bitcode and text forms are the same value; pyqir refuses calls whose arguments do not have the declared types |
| `Model/QirModule.lean` | `BaseModule` of `qir/compiler.py` as an object with a history | of pyqir it is assumed that: verifying a module fails exactly if a function has no return or returns a value although it is declared `void`; using an erased return instruction is undefined; a function that could not be finished stays in the module |
| `Model/Repr.lean` | `__repr__`/`__str__` of circuits, registers, qubits, bits, variables, operations, measurements; `Operation.name` | texts of labels and numbers are given functions; conditions are tuples; classes derive directly from a class of `base.py` |
| `Model/MixedProperty.lean` | `mixedproperty.py`, Python attribute access to classes and instances | decorated functions only read; no other descriptors, no metaclass attributes; copied function attributes dropped |

Not modelled: the Cython/C build, `numpy` internals, IEEE rounding except for C90, docs and packaging.

## Disagreements between the code and the properties

Each is a theorem `..._violated` (for all inputs of the stated shape, or a concrete witness):

* C08 sums of registers lack `_frozen` and cannot be used; C10 slices outside the plain range; C12 bits whose value equals their position are lost.
* C16 equality of primitives is not transitive and not hash-consistent when numbers take part.
* C40 for 31 or more qubits the generated code shifts a C `int` out of range.
* C47 a second simulation appends to the measurement's recorded qubits, samples then have too many columns.
* C49 bit values left by the first run change the second run.
* C50 `little_endian` is ignored by the density simulation; C51 `density_matrix` lacks the conjugate.
* C71 a Fortran-ordered matrix acts as its transpose; C72 controlled operations with 0 or more than 2 controls are silently skipped;
  C73 circuits with barriers cannot be simulated; C74 repeated operands are accepted.
* C53 negative indices are accepted; C54 parametric controlled gates make `build_unitary` raise `TypeError`; C56 `lru_cache` returns stale
  matrices; C57 parameters are assigned by occurrence, not by variable; C60 `matrix` read inside a context depends on the circuit;
  C61 controlled operations accept any number of qubits until `num_qubits` is first read.
* C18 `reset(keep_registers=False)` leaves `circuit.qubits` stale, set bits can turn into integers in `circuit.bits`; C20 falsy register labels
  are ignored; C21 `add_qubit` adds to the first register and so moves the qubits of later ones; C22 `add_bit` of a bit with value 0 adds
  another bit; C24 assigning to `op.qubits`, or a stale `circuit.qubits`, puts foreign qubits into a circuit.
* C25 entering a context whose circuit's bits cannot be read raises after the context became active, and then no context can be entered any more;
  C27 leaving an inner freeze also ends the outer one.
* C28 a call does not copy conditions, and a call that fails midway leaves the copies made so far (`C28_fails` says exactly which; `Spec/Call.lean` has the list of reasons); C29 the parameter 0 counts as no value (`C29_exact`: exactly then the call raises), and
  controlled parametric operations cannot be called; C30 after a call with too few parameters the variables stay set; C31 a variable with value
  0 cannot be evaluated, an empty list of parameters is ignored; C32 `remove` of an operation without parameters raises `AttributeError` when it is
  compared with one that has some; C33 `reset()` raises if a bit was set before `circuit.bits` was first read, `reset(keep_registers=False)`
  leaves `circuit.qubits` as it was; C34 `set_state` rejects mixed states and accepts matrices that are no density matrices.
* C62 with `reg_labels=True` a falsy label is declared as `q0` but referenced by the label, labels such as `1` and `"1"` clash, a quantum and a
  classical register of the same label are both declared; C63 conditions, and parameters of operations of `create_operation`, are not exported;
  C79 a gate that is used several times is defined several times (and the definition of `rot` mentions `q[0]`, that of `crot` is a comment);
  C84 so circuits with `Rotation` or `CRotation` are exported as programs with undefined gates.
* C64 the number of a QIR qubit is the qubit's index in its register, so qubits of different registers are identified; external gates with
  parameters are declared with the parameters last and called with them first (`TypeError`), `Identity` is in the table but refused;
  C66 every use of an external gate declares its function again, LLVM renames it, and the new name is not read back.
* C65 the round trip through QIR joins all measurements, loses qubits and bits after the last used ones, loses conditions, and raises `IndexError` if
  a measured qubit comes after the last qubit that a gate acts on; C68, C86 measurements are moved to the end of the loaded circuit, so that
  a program that flips a qubit after measuring it gives another result; C87 loading into a circuit with several quantum registers adds qubits to
  the first one, which changes the indices of the others while the program is loaded; C89 `compile(force=True)` drops calls of external functions,
  `reset()` of a module that is not compiled raises, and a second `reset()` erases an instruction twice.
* C69 a mixed property can be assigned to on the class, which replaces it.
* C91 two threads that find at the same time that all ids of a length have been drawn return the same ids; if a thread takes the last id while another one
  is between test and `pop`, `KeyError` is raised. C92 two threads that enter contexts at the same time can both be inside, and all threads share the active
  context, so that operations are appended to the circuit of another thread.
* C93 an interrupt in `__enter__` or `__exit__` leaves the context active for the rest of the process, so that no circuit can be opened any more; in `freeze` (which has no
  `try`) it leaves the context frozen; in `add_qubit` it leaves `circuit.qubits` without the new qubit, and the qubit can then be added a second time.
* C94 `circuit.eval()` copies the bits of conditions once more for every operation with parameters, so its condition does not see what the new circuit measures; an exception in place
  leaves the circuit half evaluated; a circuit that was evaluated while its context was frozen has a frozen context for ever.
* C95 `RX(1) == X` raises `AttributeError` (`X == RX(1)` is false); with variables `==` is not transitive, since a variable equals its value but not another
  variable with this value; variables of different circuits with the same name are equal; conditions and measured bits are ignored, so that
  `circuit.remove` may remove an operation with another condition. C96 `del X.matrix` works, and assigning to `X.locked_attributes` unlocks `X.matrix`.
  C97 equal instructions may call different external functions.
* C85 a circuit with two registers that flips qubit 1 is compiled to a program that flips qubit 0; the condition of a measurement is lost.
* C98 after an assignment to `op.qubits`, `num_qubits`, `control`, `target` and the measured bits are still the old ones; for controlled operations
  without a declared number of control qubits, all qubits are control and target qubits.
* C100 a load that fails leaves the gates before the failing call in the circuit, without the measurements.
* C101 a simulation that raises keeps the bits measured before the exception; `add_qubit` after a simulation leaves a state of the wrong size.
* C102 `generate_op` with four or more targets and no precompiled matrix generates C code that declares `gate_value111` twice (never used by the module).
* C103 `generate_op_set` with controls: the norm functions count only the basis states whose controls are 1, so that the state is not normalised afterwards (never used by the module).
* C104 `simulate(circuit, mixed_state=True)` passes the circuit instead of the measured qubits to `_measure`, so that every measurement raises `TypeError` after the array of the density matrix has been stored as `measurement.state`.
* C105 an operation made by `create_operation` from a circuit with several qubits cannot be simulated (`op.label` does not exist: `AttributeError`); one made from an empty circuit has a matrix of floats, which the kernel refuses; conditions inside of the circuit are dropped; the class keeps a reference to the circuit, so that after `circuit.add_qubit()` the matrix is 4x4 while `num_qubits` is still 1, and the kernel reads its first row as if it were a 2x2 matrix (RY becomes a matrix that is not unitary, without an error).
* C107 `Operation.decomposition` returns the list that is the class attribute: `Z.decomposition.append(...)` changes the decomposition of `Z` for the rest of the program, and `Z.decomposition.clear()` makes later accesses raise `NotImplementedError`.
* C110 two threads that simulate the same circuit (or circuits with a common bit) set the bits of each other between a measurement and the test of a condition, so that the resulting state can be one that no simulation gives.
* C111 an interrupted simulation leaves the bits measured so far although `circuit.state` is still the old one, and conditions of the next simulation on bits that it has not set yet see these values.
* C116 `repr` of a circuit with set bits can raise `ValueError`, and after `reset(keep_registers=False)` it counts qubits that are no longer there; a variable whose value is 0 prints like one without value; making a measurement conditional does not change its text.
* C120 ids repeat after `IDCounter.reset`; a reset with negative length raises `ValueError` but has already changed length and batch size, and a used-up counter then returns the empty id; a negative batch size is accepted, and every later `next` raises `KeyError`.
* C121 after `circuit.qubits` was read, a qubit added by `circuit.qregisters[l].add` does not appear in it until the next `add_qubit` or `add_qregister`; `add_qubit` accepts the same qubit for another register, and then `circuit.qubits` always raises `ValueError`; on a circuit without registers `circuit.qubits.add` adds a qubit that is in no register.
* C122 `circuit.circuit` is the list itself: operations can be put in and removed although the circuit is locked, and operations on qubits that are not in the circuit are accepted.
* C124 `add_qubit(q, label)` with a qubit that is in the circuit raises `ValueError` but leaves a new empty register; `extend` keeps the operations before the failing one; a failing `reset()` has
  removed the operations already; `append` of an operation on foreign qubits raises `ValueError` but has replaced the variables of the operation by their values.
* C81 in an open context, controlled gates with parameters cannot be simulated; C82 `expval` with a single index, as in its signature, raises `TypeError`.
