#!/usr/bin/env python3
"""Writes /verif/properties.jsonl (one property per line)."""
import json, os
CY="dwave/gate/registers/cyregister.pyx"; RG="dwave/gate/registers/registers.py"; PR="dwave/gate/primitives.py"
CT="dwave/gate/tools/counters.py"; CI="dwave/gate/circuit.py"; OB="dwave/gate/operations/base.py"
OO="dwave/gate/operations/operations.py"; SI="dwave/gate/simulator/simulator.pyx"; OG="dwave/gate/simulator/operation_generation.py"
UN="dwave/gate/tools/unitary.py"; QC="dwave/gate/qir/compiler.py"; QL="dwave/gate/qir/loader.py"; QI="dwave/gate/qir/instructions.py"
MP="dwave/gate/mixedproperty.py"
P=[]
def p(title, statement, quantifier, why, anchors):
    P.append(dict(id=f"C{len(P)+1:02d}", title=title, statement=statement, quantifier=quantifier, why_tests_cant=why, anchors=anchors))

# ---- registers
p("A register is an insertion-ordered, duplicate-free sequence",
  "After any history of register operations (append, extend, pop, remove, clear, relabel, relabel-as-integers, copy) every observation of the register - len, iteration, reg[i], reg.index(x), reg.count(x), x in reg - is the one a plain Python list without duplicates would give after the same operations, whatever mix of integer and non-integer items is stored.",
  "all finite histories of register operations, all items (integers and other hashables), all register sizes",
  "The register stores only the positions whose item differs from the position number in two dictionaries; the encoding is right only if a two-way invariant survives every interleaving of operations, and tests use a handful of short histories of non-integer items.",
  [f"{CY}: cyRegister._append/_pop/_remove/_relabel/_clear/at/index/count", f"{RG}: Register"])
p("Position lookup and item lookup are mutually inverse",
  "For every item x in a register reg[reg.index(x)] == x; for every valid position i (also negative, counted from the end) reg.index(reg[i]) is that position; out-of-range positions raise IndexError and absent items raise ValueError.",
  "all reachable registers, all items, all integer positions",
  "Needs every register content reachable through any history, including integer items stored away from their own position.",
  [f"{CY}: at, index, count, __getitem__"])
p("Adding a present item fails and never duplicates it",
  "reg.add(items) on an unfrozen register appends the items in order; if one of them is already present (or repeated) it raises ValueError, exactly the items before the first repeated one have been appended, and everything that was in the register is untouched.",
  "all registers, all item sequences",
  "The partial effect at the failure point depends on where the first duplicate is; tests check one or two cases.",
  [f"{RG}: Register.add", f"{CY}: _extend, _append"])
p("Relabelling is simultaneous substitution",
  "Relabelling with a mapping whose keys are present and whose new labels are distinct and not otherwise in use replaces every item at once (swaps, cycles and chains through integer labels included) and changes no position; mappings that send two items to one label, or an item to an existing unmapped label, raise ValueError and change nothing.",
  "all registers, all mappings (any size, any cycle structure), integer and non-integer labels",
  "Conflicting mappings are resolved through generated integer labels, which must avoid every label in use; the number of cycle shapes is unbounded.",
  [f"{CY}: _relabel, _iter_safe_relabels, _resolve_label_conflict"])
p("Relabel-as-integers round-trips",
  "_relabel_as_integers makes the register hold 0..n-1 and returns a mapping that, passed to _relabel, restores the original items at their original positions.",
  "all reachable registers",
  "The documented round-trip must work for arbitrary mixtures of integer and non-integer items, where the restoring mapping conflicts with itself.",
  [f"{CY}: _relabel_as_integers, _relabel"])
p("Removing an item deletes exactly that item",
  "Removing x deletes x only; all other items stay, in the same order, and every later item moves one position down; removing an absent item raises ValueError and changes nothing.",
  "all reachable registers, all items",
  "Removal is implemented as pop plus a chain relabelling x_i -> x_{i+1}, so its correctness depends on the general relabelling algorithm for chains of unbounded length.",
  [f"{CY}: _remove"])
p("Automatic labels are fresh and minimal",
  "Appending without a label adds exactly one item: the position number if it is unused, otherwise the least unused non-negative integer; the call always terminates and never collides.",
  "all reachable registers",
  "Termination and freshness of the search loop depend on arbitrary register contents.",
  [f"{CY}: _append"])
p("Register addition concatenates without side effects",
  "a + b yields the items of a followed by those of b, leaves a and b unchanged, raises ValueError if they share an item, and the result is itself a fully usable register (its frozen flag can be read and items can be added).",
  "all pairs of registers",
  "Aliasing between the operands and the sum and overlap at any position cannot be covered by examples.",
  [f"{RG}: Register.__add__, Register.add, Register.frozen", f"{CY}: copy"])
p("A frozen register never changes",
  "Once frozen, no sequence of add calls or out-of-range parameter accesses changes a register's content; each such attempt raises.",
  "all registers, all sequences of attempted additions after freeze",
  "Quantifies over all histories after the freeze.",
  [f"{RG}: Register.freeze, Register.add, SelfIncrementingRegister.__getitem__"])
p("Slices are sub-sequences",
  "reg[i:j] returns the items at positions i..j-1 in order, as a list slice would, for all slice bounds a Python sequence accepts.",
  "all registers, all slice bounds and steps",
  "Bounds range over all integers; tests use one or two slices.",
  [f"{CY}: __getitem__"])
p("Parameter registers grow on demand and are stable",
  "Indexing an unfrozen parameter register at i >= len adds exactly the variables named len..i and returns the last; indexing inside the range changes nothing; the variable at a position never changes afterwards; a frozen one raises IndexError instead of growing.",
  "all sequences of index accesses and freezes",
  "Stability of earlier variables under any later access sequence.",
  [f"{RG}: SelfIncrementingRegister.__getitem__"])
p("Classical registers hold their bits whatever the bit values",
  "A bit added to a register (or carried over into circuit.bits when registers are combined) is the item found at its position, independently of any measurement value stored in the bit at that moment.",
  "all registers, all bits, all stored bit values",
  "Depends on comparing an int position with a bit object whose equality depends on its run-time value; only measured bits at positions 0 and 1 reveal it.",
  [f"{CY}: _append (idx != v)", f"{PR}: Bit.__eq__", f"{CI}: Circuit.bits"])
# ---- ids / primitives
p("Identifiers are never reused",
  "No two primitives created by a program (without resetting the counter) ever receive the same id, however many are created, whatever the batch size, and in whatever order the internal set yields ids.",
  "all numbers of created primitives, all batch sizes, all set iteration orders, across id-length increases",
  "There are about 6.9e10 ids; uniqueness across batch and length boundaries and set-pop orders cannot be enumerated.",
  [f"{CT}: IDCounter.next, IDCounter.refresh"])
p("Every identifier is eventually handed out, then creation fails cleanly",
  "Starting from length L, exactly sum_{k=L}^{36} C(36,k) ids can be drawn; every one of them is drawn exactly once before next() raises ValueError, and it raises on every later call.",
  "all draw sequences up to and past exhaustion, all batch sizes",
  "Exhaustion happens after 68 719 468 929 draws with default settings.",
  [f"{CT}: IDCounter.next, IDCounter.refresh"])
p("Identifier shape and monotone length",
  "Every id consists of distinct characters of the alphabet in alphabet order, has at least the configured length, and ids of a batch refill are never shorter than ids of earlier refills.",
  "all draw sequences, batch sizes and set orders",
  "Ranges over every refill, including those where the length grows in mid-batch.",
  [f"{CT}: IDCounter.refresh"])
p("Equality of primitives is an equivalence consistent with hashing",
  "Qubit, Bit and Variable equality is reflexive, symmetric and transitive, and equal objects have equal hashes, so dictionaries and sets of them behave.",
  "all primitives, all stored values, and comparisons with numbers",
  "Transitivity and hash consistency range over all triples of objects and values.",
  [f"{PR}: Qubit.__eq__/__hash__, Bit.__eq__/__hash__, Variable.__eq__/__hash__"])
p("Bits hold only 0, 1 or nothing and are not overwritten silently",
  "After any history of set/reset calls a bit's value is None, 0 or 1; set without force on a valued bit raises ValueError and keeps the old value; truthiness is False exactly when the value is 0.",
  "all histories of set/reset calls with arbitrary arguments",
  "All histories.",
  [f"{PR}: Bit.set, Bit.reset, Bit.__bool__"])
# ---- circuit structure
p("circuit.qubits and circuit.bits always reflect the registers",
  "At every moment circuit.qubits (circuit.bits) is the concatenation of the circuit's quantum (classical) registers in insertion order and num_qubits (num_bits) their total size.",
  "all histories of circuit method calls",
  "The concatenation is cached and must be invalidated by every mutating method; a stale cache only shows after particular call orders.",
  [f"{CI}: Circuit.qubits, add_qubit, add_qregister, add_bit, add_cregister, reset"])
p("A qubit lives in at most one register of a circuit",
  "No history of add_qubit/add_qregister calls makes a circuit contain the same qubit twice, within or across registers; attempts raise ValueError.",
  "all histories",
  "All call orders, including failing calls that leave partial effects.",
  [f"{CI}: add_qubit, add_qregister"])
p("find_qubit / get_qubit locate qubits correctly",
  "find_qubit(q) returns the register (index or label) and position at which q is actually stored and raises ValueError iff q is in no register; get_qubit(label) returns the first stored qubit with that label in register order.",
  "all reachable circuits, all qubits and labels",
  "All register layouts.",
  [f"{CI}: find_qubit, get_qubit, find_bit, get_bit"])
p("Adding qubits does not renumber existing ones",
  "Adding a qubit or a register to a circuit leaves the index of every existing qubit in circuit.qubits unchanged, so state-vector positions keep their meaning.",
  "all reachable circuits and additions",
  "Depends on register layout and on which register receives the qubit.",
  [f"{CI}: add_qubit, add_qregister, qubits"])
p("add_bit adds the bit it is given",
  "After circuit.add_bit(b) succeeds, b is in circuit.bits; after add_qubit(q) succeeds, q is in circuit.qubits; exactly one item was added.",
  "all circuits, all bits (with or without a stored value)",
  "Depends on the truthiness of the bit, i.e. its run-time value.",
  [f"{CI}: add_bit, add_qubit", f"{PR}: Bit.__bool__"])
p("append refuses locked circuits and foreign qubits and otherwise appends exactly one operation",
  "circuit.append(op) raises CircuitError if locked, ValueError if any qubit of op is not in the circuit or if op has a variable without value and the circuit is not parametric, in which cases the operation list is unchanged; otherwise the list grows by exactly op at the end. extend is the iteration of append.",
  "all circuits, all operations",
  "All circuit states and operations.",
  [f"{CI}: append, extend"])
p("Operations in a circuit only act on the circuit's qubits",
  "In every reachable circuit every operation's qubits belong to circuit.qubits, so simulation and unitary building never meet an unknown qubit.",
  "all histories of circuit construction",
  "Invariant over all histories.",
  [f"{CI}: append, add_qubit, reset, __call__", f"{OB}: Operation.__init__"])
p("At most one circuit context is active and leaving it locks the circuit",
  "Entering a context fails if another is active or the circuit is locked and then changes nothing; leaving a context (normally or by exception) deactivates it, locks its circuit and runs and clears the exit functions; so a second entry needs unlock().",
  "all sequences of context entries, exits, locks and unlocks over any number of circuits",
  "All interleavings over several circuits.",
  [f"{CI}: CircuitContext.__enter__/__exit__, lock, unlock"])
p("Constructing an operation inside a context appends it exactly once",
  "Inside an active unfrozen context each successful operation construction appends exactly that operation at the end of the active circuit; constructions that raise append nothing; outside a context, or in a frozen one, nothing is appended to any circuit.",
  "all operation classes and arguments, all context states",
  "All classes times all argument errors times all context states.",
  [f"{OB}: Operation.__init__, ParametricOperation.__init__, ControlledOperation.__init__, ParametricControlledOperation.__init__"])
p("Freezing is properly scoped",
  "Within `with context.freeze` no operation is appended, however the scopes are nested; after leaving the outermost freeze appending works again.",
  "all nestings of freeze scopes",
  "Nesting depth is unbounded and tests use depth one.",
  [f"{CI}: CircuitContext.freeze"])
p("Applying a circuit as a template renames qubits and bits position-wise",
  "Calling circuit A with qubits (and bits) in the context of B appends to B, in order, one operation per operation of A, of the same class and parameters, acting on the given qubits that correspond by position, with measurement bits mapped the same way and conditions preserved; A is not modified.",
  "all circuits A, all qubit/bit sequences of the right length",
  "All templates.",
  [f"{CI}: Circuit.__call__"])
p("Calling a parametric circuit substitutes the given parameter values",
  "After calling a parametric circuit with a parameter list in the context of an ordinary circuit, the appended operations carry those numbers, each variable replaced by the value at its index, for all values including 0.",
  "all parametric circuits, all parameter lists",
  "All parameter values and gate kinds; special value 0 and controlled gates.",
  [f"{CI}: ParametricCircuit.__call__, append", f"{OB}: ParametricOperation.eval, ParametricControlledOperation.__init__"])
p("Template variables are reset on context exit",
  "After the context in which parametric circuits were called is left, every variable of those circuits is unset again and the list of exit functions is empty.",
  "all sequences of calls within a context",
  "All call sequences.",
  [f"{CI}: ParametricCircuit.__call__, reset_variables, CircuitContext.__exit__"])
p("eval replaces variables and nothing else",
  "op.eval(params) replaces exactly the variable parameters, by the explicit value at the same position if given, else by the variable's stored value; numeric parameters, qubits, and (unless inplace) the original operation are untouched; it raises ValueError iff a variable has no value and no parameters are given.",
  "all parametric operations, parameter lists and variable values",
  "All values, including 0.",
  [f"{OB}: ParametricOperation.eval", f"{CI}: ParametricCircuit.eval"])
p("remove deletes the first equal operation",
  "circuit.remove(op) deletes exactly the first operation equal to op, keeps the order of the rest, and raises ValueError without change if there is none.",
  "all circuits and operations",
  "All mixtures of operation classes in the list.",
  [f"{CI}: remove", f"{OB}: Operation.__eq__, ParametricOperation.__eq__"])
p("reset returns the circuit to a reusable state",
  "reset() empties the operation list, unlocks the circuit, resets all bits and keeps registers; with keep_registers=False the circuit afterwards has no qubits and no bits, as if newly created.",
  "all reachable circuits",
  "Depends on cached properties populated by earlier calls.",
  [f"{CI}: reset"])
p("set_state accepts exactly the valid states",
  "set_state accepts a state vector of size 2^n with norm 1 or a 2^n x 2^n density matrix (trace 1, positive) and rejects everything else; without force it never overwrites; state and density_matrix never disagree.",
  "all states, shapes and circuits",
  "All states.",
  [f"{CI}: set_state, _assert_state, state, density_matrix"])
# ---- simulator
p("Single-qubit gates act on exactly the addressed qubit",
  "Applying a single-qubit gate with matrix G to qubit t of an n-qubit state vector yields the state (I x .. x G x .. x I)|psi>, for big- and little-endian indexing.",
  "all n up to 30 (for more qubits see C40), all targets, all matrices, all states, both endiannesses",
  "The kernel enumerates basis states with bit masks; correctness for every n, target and state needs a proof about the bit arithmetic.",
  [f"{OG}: generate_op_c_code, compile_gate", f"{SI}: apply_instruction"])
p("Controlled gates act only where the control is set",
  "Applying a controlled gate leaves all amplitudes with control bit 0 unchanged and applies G to the target on those with control bit 1.",
  "all n up to 30 (for more qubits see C40), all distinct control/target pairs in any order, all matrices and states, both endiannesses",
  "As above, with control above or below target.",
  [f"{OG}: generate_op_c_code", f"{SI}: apply_instruction"])
p("Doubly-controlled gates (CCX) act only where both controls are set",
  "CCX permutes exactly the amplitude pairs whose two control bits are 1, in every qubit order.",
  "all n up to 30 (for more qubits see C40), all distinct qubit triples, all states, both endiannesses",
  "Six relative qubit orders times all n.",
  [f"{OG}: generate_op_c_code", f"{SI}: apply_instruction"])
p("SWAP exchanges two qubits",
  "After SWAP(a,b) the amplitude of a basis state equals the previous amplitude of the basis state with bits a and b exchanged.",
  "all n up to 30 (for more qubits see C40), all distinct pairs, all states, both endiannesses",
  "All n and pairs; the kernel skips identity rows.",
  [f"{OG}: generate_op_c_code, compile_gate", f"{SI}: apply_instruction"])
p("CSWAP exchanges two qubits iff the control is set",
  "After CSWAP(c,a,b) amplitudes with control bit 0 are unchanged and those with control bit 1 have bits a and b exchanged.",
  "all n up to 30 (for more qubits see C40), all distinct triples, all states, both endiannesses",
  "All n and triples.",
  [f"{OG}: generate_op_c_code", f"{SI}: apply_instruction"])
p("The simulator never accesses memory outside the state vector",
  "For every gate and every number of qubits the state indices computed by the generated C kernels are below 2^n, and the C integer arithmetic (shifts of int and uint64) does not overflow.",
  "all n, all targets/controls, all loop iterations",
  "Out-of-range n needs tens of GB of memory to test; C undefined behaviour is invisible to Python tests.",
  [f"{OG}: generate_op_c_code (1 << num_qubits, masks)"])
p("The gate loop is order-independent",
  "The iterations of a gate kernel touch pairwise disjoint amplitudes, so running them in any order (as the prepared OpenMP pragma would) gives the same state.",
  "all n up to 30 (for more qubits see C40), all gates, all permutations of the iterations",
  "Factorially many schedules.",
  [f"{OG}: generate_op_c_code (loop over partial_basis)"])
p("Endianness only permutes the state vector",
  "Simulating with little_endian=True gives the big-endian state with the bits of every basis index reversed.",
  "all measurement-free circuits of library gates on distinct qubits, 1..30 qubits (15 for density matrices; the index arithmetic is 32/64-bit)",
  "All circuits.",
  [f"{SI}: simulate, apply_instruction", f"{OG}: qubit_index"])
p("Gates preserve the norm and simulated states are normalised",
  "Every gate of the library preserves the norm of every state, so after simulating any circuit of library gates circuit.state has norm 1 (exact arithmetic).",
  "all circuits, all gate parameters, all n",
  "All circuits and angles.",
  [f"{SI}: simulate", f"{OO}: all gates"])
p("Simulation with measurements succeeds and stays normalised",
  "Simulating any circuit of library gates, measurements and conditional gates in big-endian order never fails with a zero-probability outcome and ends in a normalised state, for every sequence of random numbers in [0,1).",
  "all circuits, all random streams",
  "All circuits and random outcomes, including probability-zero branches.",
  [f"{SI}: simulate, _measure", f"{OG}: generate_op_set"])
p("Measurement follows the Born rule and collapses the state",
  "Sampling qubit t of a normalised state returns 0 exactly when u < P(t=0), where P is the total squared amplitude with bit t = 0, and 1 otherwise; the collapsed state is the normalised projection onto the returned outcome.",
  "all states, qubits and random numbers",
  "All states; boundary values of u.",
  [f"{OG}: generate_op_set", f"{SI}: sample_qubit"])
p("Repeated measurement gives the same result",
  "Measuring a qubit twice in succession yields the same bit both times and the second measurement does not change the state; measuring commutes with no hidden change of other measured qubits (outcomes of a multi-qubit measurement are the bits of a basis state in the support).",
  "all states, qubits and random numbers",
  "All states and random numbers.",
  [f"{SI}: _measure, sample_qubit"])
p("Sampling a measurement does not disturb it",
  "measurement.sample leaves the recorded state unchanged and returns exactly num_samples samples with one bit per measured qubit (or per requested qubit), for any number of previous simulations and samplings.",
  "all measurements, all sample calls, any number of repeated simulations",
  "History dependence (number of earlier simulations).",
  [f"{OB}: Measurement.sample", f"{SI}: _measure"])
p("Conditional operations run exactly when no condition bit is 0",
  "A conditional operation changes the state only if none of its condition bits has value 0 at the moment it is reached; otherwise it has no effect at all.",
  "all operations, condition bits, bit values and states",
  "All combinations.",
  [f"{OB}: is_blocked, conditional", f"{SI}: apply_instruction"])
p("Simulation is reproducible from the seed",
  "Simulating the same circuit twice with the same rng_seed gives the same final state and the same bit values.",
  "all circuits and seeds",
  "Depends on state left in bits by an earlier simulation.",
  [f"{SI}: simulate, _measure", f"{PR}: Bit"])
p("Density-matrix simulation agrees with state-vector simulation",
  "For every measurement-free circuit the density matrix from mixed_state=True is |psi><psi| with psi the state-vector result, for both endianness settings.",
  "all measurement-free circuits of library gates on distinct qubits, 1..15 qubits",
  "All circuits.",
  [f"{SI}: _simulate_circuit_density_matrix"])
p("circuit.density_matrix of a pure state is |psi><psi|",
  "After a state-vector simulation circuit.density_matrix[i,j] == state[i]*conj(state[j]) (Hermitian, trace 1).",
  "all pure states",
  "Complex amplitudes in every position.",
  [f"{CI}: density_matrix"])
p("Operations on disjoint qubits commute",
  "Exchanging two adjacent operations of a circuit that act on disjoint qubits does not change the simulated state.",
  "all circuits, all pairs of gates on disjoint qubits",
  "All circuits.",
  [f"{SI}: simulate"])
# ---- unitary
p("build_controlled_unitary builds the controlled unitary",
  "For all distinct controls and a single target within range the result maps basis states with all controls 1 by U on the target and fixes the others; it raises ValueError when control and target overlap or are out of range.",
  "all numbers of qubits and controls, all index orders, all 2x2 matrices",
  "All control sets and orders.",
  [f"{UN}: build_controlled_unitary"])
p("build_unitary is the ordered product of the gate matrices",
  "build_unitary(circuit) equals U_k ... U_1 where U_i is the i-th operation's matrix extended to all qubits.",
  "all circuits of single-qubit and controlled gates",
  "All circuits.",
  [f"{UN}: build_unitary, _apply_single_qubit_gate, _apply_controlled_gate"])
p("The simulator and build_unitary agree",
  "For every circuit of single-qubit and (non-parametric) controlled gates simulate(circuit) yields the first column of build_unitary(circuit).",
  "all such circuits",
  "All circuits.",
  [f"{UN}: build_unitary", f"{SI}: simulate"])
p("build_unitary reflects the circuit at the time of the call",
  "build_unitary(circuit) depends only on the circuit's current content, not on earlier calls.",
  "all interleavings of calls and circuit modifications",
  "The function is memoised; staleness needs call-modify-call histories.",
  [f"{UN}: build_unitary (lru_cache)"])
p("A custom operation has the matrix of its circuit",
  "create_operation(circuit)(params).matrix is the unitary of the circuit with each parameter variable replaced by the parameter of its index.",
  "all circuits, all parameter usages (repeated, out of order)",
  "All usages of variables.",
  [f"{OB}: create_operation"])
# ---- gates
p("All gate matrices are unitary",
  "The matrix of every library operation is unitary for all real parameters.",
  "all operations, all real parameters",
  "All real parameters.",
  [f"{OO}: matrix of every class", f"{OB}: ControlledOperation.matrix"])
p("Documented decompositions and gate definitions are equivalences",
  "Z = H X H; Rotation(b,g,d) = RZ(d) RY(g) RZ(b); the QASM definitions of rot, swap and cswap equal the matrices of Rotation, SWAP and CSWAP.",
  "all real parameters",
  "All real parameters.",
  [f"{OO}: _decomposition, _qasm_decl"])
p("op.matrix describes what the simulator does",
  "For SWAP, CSWAP, CCX, and the controlled gates the matrix property, read with the first qubit as most significant bit, is the linear map the simulator applies.",
  "all states",
  "All states.",
  [f"{OO}: matrix", f"{SI}: apply_instruction"])
p("Operations accept exactly the declared number of qubits",
  "Constructing an operation with a number of qubits (controls, targets) different from the declared one raises ValueError, whatever happened before.",
  "all operation classes, all argument lists, all histories",
  "The check reads lazily-initialised class state, so it depends on history.",
  [f"{OB}: _check_qubits, ControlledOperation.num_qubits/__init__"])
# ---- qasm
p("OpenQASM output only references declared registers and valid indices",
  "Every qubit reference in circuit.to_qasm() names a declared register with an index below its declared size, and different qubits get different references (also with reg_labels=True).",
  "all circuits, register layouts and labels",
  "All layouts and labels.",
  [f"{CI}: to_qasm", f"{RG}: to_qasm", f"{OB}: _map_qubits"])
p("OpenQASM output determines the circuit",
  "Two circuits with the same register sizes and the same OpenQASM text have the same sequence of gates, parameters and qubits.",
  "all pairs of circuits of QASM-exportable gates",
  "Injectivity over all circuits.",
  [f"{CI}: to_qasm", f"{OO}: to_qasm"])
# ---- qir
p("QIR compilation preserves operations and operands",
  "to_qir emits, in order, one QIS call per gate with the QIR name, the parameters, and the QIR qubits whose numbers are the qubits' indices in the circuit; measurements likewise.",
  "all circuits of supported gates, all register layouts",
  "All register layouts.",
  [f"{QC}: qir_module", f"{QI}: Operations"])
p("QIR round trip",
  "Circuit.from_qir(circuit.to_qir()) has the same operations on the same qubit indices and the same measurements.",
  "all circuits of base-profile gates with final measurements",
  "All circuits.",
  [f"{QC}: qir_module", f"{QL}: _module_to_circuit, _add_measurements"])
p("QIR name tables are inverse",
  "For every supported operation the loader maps the QIS function name emitted by the compiler back to that operation, and no two operations share a name.",
  "all operations in the table",
  "Interaction of two tables and a special case.",
  [f"{QI}: Operations.to_qir/from_qis_operation"])
p("Mid-circuit measurements are rejected by QIR compilation",
  "qir_module raises ValueError iff some gate instruction follows a measurement (for circuits of compilable operations).",
  "all circuits",
  "All positions.",
  [f"{QC}: qir_module"])
p("The QIR loader preserves program order",
  "Operations of the loaded circuit appear in the order of the QIS calls of the QIR program, including measurements, up to the first return.",
  "all QIR programs",
  "All programs.",
  [f"{QL}: _module_to_circuit"])
p("mixedproperty dispatches on class and instance",
  "A mixed property called on a class passes no instance, returns None if the instance is required, and can never be assigned.",
  "all callables of one or two parameters, class and instance access",
  "All property functions.",
  [f"{MP}: mixedproperty.__get__/__set__"])
p("Noise and measurement operator sets follow their probabilities",
  "For each generated operator set (measurement, dephasing, amplitude damping) operator i is chosen exactly when the random number lies in the i-th consecutive interval of length |E_i psi|^2, and the state becomes E_i psi normalised; without applying, the state is unchanged.",
  "all states of 1..30 qubits, qubits, random numbers in [0,1)",
  "Continuum of states and random numbers.",
  [f"{OG}: generate_op_set, op_sets"])
p("A user-defined gate acts as its matrix",
  "Simulating a user-defined single-qubit (or controlled) operation applies exactly the matrix that its matrix property returns, whatever the memory layout of that array.",
  "all matrices, memory orders, dtypes and states",
  "Memory layout is invisible in the usual comparisons.",
  [f"{SI}: apply_instruction", f"{OG}: generate_op"])
p("A controlled operation is applied whatever its number of controls",
  "Simulating a ControlledOperation with k controls applies the target gate exactly on the basis states where all k controls are 1.",
  "all numbers of controls, states and target gates",
  "All numbers of controls.",
  [f"{SI}: apply_instruction"])
p("Barriers do not affect simulation",
  "A circuit with barriers simulates to the same state as the circuit without them.",
  "all circuits",
  "All circuits.",
  [f"{SI}: apply_instruction", f"{OB}: Barrier"])
p("Operations with a repeated qubit are rejected",
  "An operation whose qubits are not all different is refused, at construction or at simulation.",
  "all multi-qubit operations and operand lists",
  "All operand lists.",
  [f"{SI}: apply_instruction", f"{OB}: Operation._check_qubits"])
p("Simulation is the ordered composition of gate maps",
  "Simulating a circuit of library gates succeeds and yields, from |0...0>, the composition in circuit order of the textbook linear maps of the gates on their qubits (conditions on bits respected), in either endianness; bits are unchanged.",
  "all circuits of library gates on distinct qubits, 1..30 qubits, all parameters, conditions and bit values",
  "All circuits.",
  [f"{SI}: simulate, apply_instruction"])
p("Simulation with measurements refines textbook semantics",
  "Simulating any circuit of library gates and measurements (with or without conditions) yields exactly the state, bit values and consumption of random numbers given by the step semantics: unitary gates, Born-rule measurement with collapse, outcomes written to the measurement's bits in order, conditions read at the moment of execution.",
  "all circuits, random streams in [0,1), initial bit values",
  "All circuits and random streams.",
  [f"{SI}: simulate, apply_instruction, _measure, sample_qubit"])
p("Unsupported simulations fail instead of returning a wrong state",
  "A little-endian simulation of a circuit with an (unconditional) measurement, a density-matrix simulation of a circuit with a measurement, and a simulation of a circuit with an operation on a foreign qubit all raise.",
  "all such circuits",
  "All circuits.",
  [f"{SI}: simulate, apply_instruction, _simulate_circuit_density_matrix"])
p("Gate matrices are the textbook gates",
  "X, Y, Z are the Pauli matrices, Hadamard is (X+Z)/sqrt 2, S and T are phases by pi/2 and pi/4, RX, RY, RZ are exp(-i theta/2 P) for the Pauli P, Rotation(b,g,d) is RZ(d) RY(g) RZ(b).",
  "all real parameters",
  "All real parameters.",
  [f"{OO}: matrix of the single-qubit operations"])
p("OpenQASM gate definitions",
  "With gate_definitions=True the OpenQASM text contains exactly one definition for every used gate that comes with a definition, and no other; without it there are no definitions.",
  "all circuits of exportable gates, any number of uses of each gate",
  "All circuits.",
  ["dwave/gate/circuit.py: to_qasm", "dwave/gate/operations/operations.py: _qasm_decl"])
p("Exporting a single operation to OpenQASM",
  "op.to_qasm() without a mapping returns the OpenQASM name of the gate, its parameters in order, and, if the operation has qubits, references q[0], q[1], ... in order, as many as the gate has; operations without an OpenQASM form, with too few parameters or with fewer qubits than printed raise an exception. Nothing is changed.",
  "all operations of all worlds, library gates and created operations, all parameters and qubits",
  "All operations and parameters.",
  ["dwave/gate/operations/base.py: _map_qubits, create_operation.to_qasm, Operation.to_qasm", "dwave/gate/operations/operations.py: to_qasm"])
p("From the program to the simulated state",
  "For every circuit of library gates and measurements built by any program through the API, with between 1 and 30 qubits, simulate(circuit) returns the state that the textbook semantics gives for the operations in the circuit, on the qubits in the order of circuit.qubits; the bits get the measured values, and nothing else in the program changes, so that a simulation is to the rest of the program the same as reading circuit.qubits and setting bits.",
  "all programs (except those that assign to op.qubits or reset registers), all circuits in them, all random numbers",
  "All programs.",
  [f"{SI}: simulate", "dwave/gate/circuit.py: Circuit", "dwave/gate/operations/operations.py", "dwave/gate/operations/base.py: Operation, Measurement"])
p("Samples are independent and follow the Born rule",
  "The samples returned by sample(qubits, num_samples) are independent, and each is distributed as the Born rule says for measuring the qubits in the state of the measurement: the probability of given rows is the product of their probabilities. as_bitstring=True returns the same rows as strings. expval(qubits, num_samples) returns the fractions of ones, and their expected values are the probabilities of 1. The bits stored by simulating a circuit with a measurement at its end are distributed by the Born rule. A single index can be given to expval, as its signature says.",
  "all states of up to 30 qubits, all sequences of qubits, all numbers of samples, all circuits of gates with a final measurement",
  "A statement about probabilities, for all states; tests with samples can only give evidence.",
  ["dwave/gate/operations/base.py: Measurement.sample, Measurement.expval", f"{SI}: simulate, sample_qubit"])
p("A template applies its unitary to the given qubits",
  "If a circuit of library gates without conditions is called inside the context of another circuit, with as many different qubits of that circuit as it has itself, then the operations that are appended transform every state by the template's own linear map, applied to the given qubits in the given order, and leave the other qubits alone; so simulating the outer circuit after the call gives the state before the call, transformed in this way. If the template has measurements as well, the branches of the copy (see C99) are those of the template, applied to the given qubits, with the results written to the given bits.",
  "all programs (except those that assign to op.qubits or reset registers), all templates of library gates, all calls that succeed, both qubit orders",
  "All programs and templates, and a statement about all states.",
  ["dwave/gate/circuit.py: Circuit.__call__", f"{SI}: simulate"])
p("The exported OpenQASM program means what the circuit means",
  "For every circuit of library gates, the text returned by circuit.to_qasm() is an OpenQASM 2.0 program whose meaning, given by the primitive gates U and CX, the definitions in qelib1.inc and those in the text, is the linear map of the circuit up to a global phase: the state that simulate(circuit) returns is the state that the program makes of |0...0>, up to a global phase.",
  "all programs (except those that assign to op.qubits or reset registers), all circuits of library gates in them, all real parameters that are read as they are printed, both values of reg_labels and gate_definitions",
  "All circuits and parameters, and a statement about the meaning of texts.",
  ["dwave/gate/circuit.py: Circuit.to_qasm", "dwave/gate/operations/operations.py: to_qasm, matrix, _qasm_decl", f"{SI}: simulate"])
p("The compiled QIR program means what the circuit means",
  "If a circuit can be compiled with circuit.to_qir(), then executing the calls of the program on qubits in state |0...0>, with the meaning of the functions of the quantum instruction set, gives the state that simulate(circuit) returns for the same random numbers, and the result with number j is the value that bit j of the circuit gets.",
  "all programs (except those that assign to op.qubits, reset registers or set bits), all circuits in them that can be compiled, all real parameters, all random numbers",
  "All circuits and parameters, and a statement about the meaning of programs.",
  ["dwave/gate/qir/compiler.py: qir_module", "dwave/gate/qir/instructions.py: Instruction, Operations", f"{SI}: simulate"])
p("The circuit loaded from a QIR program means what the program means",
  "Every QIR program of the base profile is loaded, and simulating the circuit gives, for the same random numbers, the state and the results that executing the program gives.",
  "all programs of calls of base profile functions with valid arguments, in all worlds that contain the library, all random numbers",
  "All programs, and a statement about the meaning of programs.",
  ["dwave/gate/qir/loader.py: load_qir_string, _module_to_circuit", f"{SI}: simulate"])
p("Loading QIR into a circuit appends to it",
  "load_qir_string(qir, circuit) and load_qir_bitcode(qir, circuit) append the gates of the program, in order and on the qubits with the given indices in the circuit, to the operations that the circuit has; the qubits and bits that are there keep their indices, and missing ones are added.",
  "all programs, all QIR programs, all circuits (whatever operations, qubits and bits they have)",
  "All circuits and all QIR programs.",
  ["dwave/gate/qir/loader.py: load_qir_string, load_qir_bitcode, _module_to_circuit, _add_measurements"])
p("The program of a QIR module",
  "The QIR and bitcode of a BaseModule are the program of the instructions that had been added to its three blocks when it was compiled, in order; compiling raises an exception exactly if an instruction cannot be executed or a return value is set. After a successful compilation qir and bitcode return the same program until reset() or compile(force=True), and compile() raises CompileError; after a failed one no program is returned until reset(). circuit.to_qir() returns the program of such a module.",
  "all sequences of calls of a module's methods (add_instruction, add_external_function, set_return, compile, reset, qir, bitcode), all circuits",
  "All histories of a module.",
  ["dwave/gate/qir/compiler.py: BaseModule.compile, BaseModule._compile, BaseModule.qir, BaseModule.bitcode, BaseModule.add_instruction, BaseModule.set_return, qir_module", "dwave/gate/qir/instructions.py: Instruction.execute"])
p("Recompiling and resetting a QIR module",
  "compile(force=True) of a module that is compiled compiles the instructions that are in the module now. After reset() a module behaves like one that has just been created, and reset() never fails.",
  "all sequences of calls of a module's methods before and after",
  "All histories of a module.",
  ["dwave/gate/qir/compiler.py: BaseModule.compile, BaseModule.reset, BaseModule._remove_external_instructions"])
p("Rounding errors of the simulation stay small",
  "Simulating a circuit of library gates with double precision arithmetic does not fail, and the state vector that is returned differs from the exact one by at most 1.3e-14 per gate in the Euclidean norm, so that every probability is off by at most 4e-14 per gate.",
  "all circuits of up to 10^8 library gates (with any conditions) on 1 to 30 qubits, all real parameters, both endiannesses, provided that the entries of matrices are computed with errors of at most 2^-48",
  "All circuits; tests compare a few results with a tolerance.",
  [f"{SI}: simulate, apply_instruction", "dwave/gate/simulator/operation_generation.py", f"{CI}: Circuit.set_state"])
p("Identifiers are unique in all threads",
  "However many threads create qubits and bits at the same time, every one of them gets an identifier that no other one has, and creating them does not fail as long as there are identifiers left.",
  "all schedules of all numbers of threads, all batch sizes and lengths",
  "Schedules cannot be enumerated or forced by tests.",
  ["dwave/gate/tools/counters.py: IDCounter.next, IDCounter.refresh", "dwave/gate/primitives.py: Qubit.__init__, Bit.__init__"])
p("Contexts of different threads do not interfere",
  "Whatever other threads do, a thread that is inside `with circuit.context` is the only one inside of a context, the operations it creates there are appended to that circuit and to no other one, and operations that a thread creates outside of contexts are not appended to any circuit.",
  "all schedules of all numbers of threads that make arbitrary API calls and enter and leave contexts",
  "Schedules cannot be enumerated or forced by tests.",
  [f"{CI}: CircuitContext.__enter__, CircuitContext.__exit__, CircuitContext.active_context", "dwave/gate/operations/base.py: Operation.__init__"])
p("Interrupts leave circuits and contexts consistent",
  "If the user interrupts a program (KeyboardInterrupt) at any moment, then afterwards, and whatever is executed next, no context is active outside of with blocks and every unlocked circuit can be opened; a circuit contains no qubit twice and circuit.qubits and circuit.bits show the registers; the operations of a circuit act on its qubits; and an interrupted call has appended the first operations that it would have appended, in order.",
  "all programs of API calls, with blocks and try statements, interrupted any number of times, between or in the middle of any calls",
  "Interrupts can happen at every instruction; tests do not interrupt anything.",
  [f"{CI}: CircuitContext.__enter__, CircuitContext.__exit__, CircuitContext.freeze, Circuit.append, Circuit.extend, Circuit.__call__, Circuit.add_qubit, Circuit.add_bit, Circuit.add_qregister, Circuit.add_cregister, Circuit.reset, ParametricCircuit.__call__", "dwave/gate/operations/base.py: Operation.__init__, ParametricOperation.eval"])
p("Evaluating a parametric circuit",
  "circuit.eval(parameters) returns a new circuit with the same registers and, position by position, the same operations (class, qubits, conditions, measured bits) in which exactly the variables are replaced, by the given numbers or else by their values; conditions refer to the bits that the new circuit measures into, so that simulating it gives what the parametric circuit means with these numbers. Whatever happens, no existing object changes. With inplace=True the operations of the circuit itself are evaluated, or, if an exception is raised, nothing is changed. The exceptions are IndexError for missing numbers and ValueError for missing values.",
  "all parametric circuits, all lists of parameters, all values of variables, operations that occur several times included",
  "All circuits and parameters; and that nothing else changes.",
  [f"{CI}: ParametricCircuit.eval", "dwave/gate/operations/base.py: ParametricOperation.eval"])
p("Equal operations are interchangeable",
  "`==` is an equivalence relation on operations and never raises; equal operations are the same gate on the same qubits, with the same conditions and measured bits, so that replacing operations of a circuit by equal ones does not change what the circuit means.",
  "all operations, in all states; all circuits",
  "Relations between all operations.",
  ["dwave/gate/operations/base.py: Operation.__eq__, ParametricOperation.__eq__", "dwave/gate/primitives.py: Variable.__eq__, Qubit.__eq__", f"{CI}: Circuit.remove"])
p("The matrix of a class of operations cannot be replaced",
  "Whatever is assigned or deleted on classes of operations and their instances, reading `matrix` on a class or an instance gives the matrix that the class declared or inherited; assigning to it raises an exception and changes nothing.",
  "all histories of assignments and deletions of attributes of classes and instances, with exceptions caught, and of new classes and instances",
  "All histories.",
  ["dwave/gate/operations/base.py: ABCLockedAttr.__setattr__", "dwave/gate/mixedproperty.py: mixedproperty.__get__, mixedproperty.__set__"])
p("Equality of QIR instructions",
  "`==` is an equivalence relation on QIR instructions; two instructions are equal exactly if they add the same call to a module, up to which qubits and results it uses.",
  "all instructions",
  "All argument lists.",
  ["dwave/gate/qir/instructions.py: Instruction.__eq__, Instruction.execute"])
p("Operations are well-formed in every history",
  "In every state that a program can reach, every operation has as many parameters as its class declares; its num_qubits is the number of its qubits; a measurement that measures into bits has one bit for each qubit; and the qubits of a controlled operation are its control qubits followed by its target qubits.",
  "all programs, including failed calls, all operations ever constructed, in circuits or not, copied or evaluated",
  "All histories: constructing, applying again, templates, evaluating, copying and measuring all create or change operations.",
  ["dwave/gate/operations/base.py: Operation.__init__, Operation.qubits, ParametricOperation._check_parameters, ParametricOperation.eval, ControlledOperation.__init__, Measurement.__or__", f"{CI}: Circuit.__call__, ParametricCircuit.eval"])
p("The results of a simulation have the right joint distribution",
  "Over uniform random numbers, the joint distribution of all measured bits and of the final state of a simulation is the one of quantum mechanics: it is the sum over the branches of the circuit, in which every measurement is replaced by a projection onto one of its results and every condition is decided by the results before it, of the squared norm of the branch's vector. The branches are determined by the circuit, those of one circuit after another are the compositions of their branches, and their probabilities sum to 1.",
  "all circuits of library gates, measurements in the middle of the circuit and of several qubits included, all conditions, all values of the bits before the simulation, all events of final states and bits, all programs that build the circuit",
  "A probability measure over all sequences of random numbers; histories of measurements that depend on each other.",
  ["dwave/gate/simulator/simulator.pyx: simulate, _measure", "dwave/gate/operations/base.py: Measurement.__or__, Operation.conditional"])
p("A load of QIR that fails does no harm",
  "Loading a QIR program, whether it succeeds or raises, keeps what was there: other circuits, the operations that the circuit had, and all operations, qubits and bits that existed; the active context is the same as before. A load that fails leaves the circuit as it was. Programs that load QIR, and go on after loads that fail, lead to no states but those that the other calls of the API lead to, so that everything that holds for all histories also holds after loads.",
  "all QIR programs, all circuits, all programs that use the API in which loads may fail and be caught",
  "All histories, and every point at which a load can fail.",
  ["dwave/gate/qir/loader.py: load_qir_bitcode, load_qir_string, _module_to_circuit, _add_measurements", f"{CI}: Circuit.from_qir"])
p("Simulations in programs",
  "A simulation that raises leaves no trace: all bits, states and other objects are as before. Whether it raises or not, it changes nothing but the state of its circuit and the bits and records of its measurements, so that everything that holds for all histories also holds in programs that simulate and go on after simulations that fail. In every history, `circuit.state` is missing or a normalised vector for the qubits of the circuit; after a simulation it is the state of the semantics of circuits, whatever happened before.",
  "all programs with simulations of state vectors and density matrices, `set_state` and reading `density_matrix`, in contexts or not, failing or not; all random numbers",
  "All histories, and every operation at which a simulation can fail.",
  ["dwave/gate/simulator/simulator.pyx: simulate, apply_instruction, _measure, _simulate_circuit_density_matrix", f"{CI}: Circuit.state, Circuit.density_matrix, Circuit.set_state, Circuit._assert_state, Circuit.add_qubit"])
p("The code generator is right for every gate shape",
  "The function that `generate_op` generates for any number of targets and controls multiplies the targets with the matrix (the one given to the generator, or the one passed at run time with zeros where the sparse mask has zeros) wherever all controls are 1, and changes nothing else; with `collect_norm` it returns the squared norm of the new amplitudes there and leaves the state as it is.",
  "all numbers of targets and controls, all matrices and masks, all different qubits of up to 30, both index orders, all states",
  "All shapes of gates, not only the five that the module generates.",
  ["dwave/gate/simulator/operation_generation.py: generate_op, generate_op_c_code, compile_gate, binary"])
p("The generator of operator sets is right for every set",
  "`generate_op_set` accepts a set of operators exactly if the sum of E^dagger E is the identity (up to the tolerances of numpy). For every accepted set the generated function selects operator i with the probability given by the norm of its result, and the state becomes the normalised result; for exact sets and normalised states it never fails.",
  "all sets of operators, all numbers of targets and controls, all states, all random numbers",
  "All sets, not only the three that the module generates; a tolerance and intervals of random numbers.",
  ["dwave/gate/simulator/operation_generation.py: generate_op_set, generate_op_c_code"])
p("Little-endian and density-matrix simulations in programs",
  "In every program, `simulate(circuit, little_endian=True)` sets `circuit.state` to the state of the semantics of circuits in little-endian order, and `simulate(circuit, mixed_state=True)` succeeds whenever `simulate(circuit)` does and sets `circuit.density_matrix` to the density matrix of the circuit; for circuits of gates, also conditional ones, this is the matrix with entries psi_x * conj(psi_y). Nothing else is changed.",
  "all circuits in all states that programs with simulations reach",
  "All histories and all circuits.",
  ["dwave/gate/simulator/simulator.pyx: simulate, _simulate_circuit_density_matrix, apply_instruction", f"{CI}: Circuit.set_state, Circuit.density_matrix"])
p("Operations made from circuits in simulations",
  "Using an operation that `create_operation` made from a circuit is the same as applying the operations of the circuit, with the values of the parameters, to the qubits of the operation, one after the other and under its condition: simulations of state vectors and of density matrices give the same state, the same bits and the same random numbers, or the same exception.",
  "all circuits with such operations among any others, at any positions and on any qubits, all circuits the operations are made from, all parameters, both index orders",
  "All circuits around and inside of the operations.",
  ["dwave/gate/simulator/simulator.pyx: apply_instruction, simulate, _simulate_circuit_density_matrix", "dwave/gate/operations/base.py: create_operation", "dwave/gate/tools/unitary.py: build_unitary"])
p("Equivalent parts of circuits can be exchanged",
  "Replacing some consecutive gates of a circuit by others that together do the same, on the same qubits and under the same condition, does not change simulations: same state, bits, random numbers and records, or the same exception. This holds in particular if `build_unitary` gives the same matrix for the two parts. If they only differ by a global phase, density matrices are still the same, and for state vectors the bits are the same and the states differ by a phase.",
  "all circuits, all positions, everything before and after including measurements, conditions and operations that fail, all gates of the library, both index orders, all random numbers",
  "All circuits around the part and all pairs of parts.",
  ["dwave/gate/simulator/simulator.pyx: apply_instruction, simulate, _simulate_circuit_density_matrix", "dwave/gate/tools/unitary.py: build_unitary"])
p("Decompositions",
  "The operations that `Operation.decomposition` names, with the parameters of the operation given to them in order, can take the place of the operation at any position of any circuit without changing simulations. Classes without a decomposition raise NotImplementedError. Decompositions do not change.",
  "all classes of operations, all parameters, all circuits, qubits and conditions, all programs that read decompositions",
  "All parameters and all circuits around the operation; all programs.",
  ["dwave/gate/operations/base.py: Operation.decomposition", "dwave/gate/operations/operations.py: Z._decomposition, Rotation._decomposition", "dwave/gate/simulator/simulator.pyx: simulate"])
p("Unused qubits and the order of qubits",
  "Adding qubits to a circuit that none of its operations uses, or adding the qubits of the circuit in another order, changes nothing that is observable: the simulation gives the same values of the bits and uses the same random numbers, and the amplitudes are the same for the same values of the qubits, with the unused qubits in state 0.",
  "all circuits of gates of the library and measurements, also conditional ones, all additional qubits at all positions, all orders, all random numbers",
  "All circuits, all numbers of qubits and all orders.",
  ["dwave/gate/simulator/simulator.pyx: simulate, apply_instruction, _measure, sample_qubit", f"{CI}: Circuit.add_qubit, Circuit.qubits"])
p("Parts of a circuit on different qubits are independent",
  "If the second part of a circuit uses none of the qubits of the first part, the simulation gives the product of the states of the two parts: the first part simulated on its own, and the second part on its own with the bits that the first part leaves and the random numbers that it did not use. The values of the bits are the same as well.",
  "all circuits of gates of the library and measurements in two parts on different qubits, in any order of the qubits, conditions of the second part on bits of the first part included, all random numbers",
  "All circuits and all divisions of the qubits.",
  ["dwave/gate/simulator/simulator.pyx: simulate, apply_instruction, _measure, sample_qubit"])
p("Simulations in several threads",
  "Simulations that run in different threads do not influence each other: however they are interleaved, each of them ends with the state, the values of the bits and the records of the measurements, or with the exception, that it gives on its own with the same seed, and it changes nothing else.",
  "all numbers of threads, all circuits, all schedules of the steps of the simulations, all random numbers",
  "All schedules.",
  ["dwave/gate/simulator/simulator.pyx: simulate, apply_instruction, _measure", f"{CI}: Circuit.set_state", "dwave/gate/operations/base.py: Operation.is_blocked"])
p("Interrupted simulations",
  "A simulation that is interrupted (by KeyboardInterrupt, at any moment) leaves no trace: the states of all circuits and the values of all bits are as before, and when the simulation is repeated it gives what it would have given without the interrupt.",
  "all circuits, all moments of the interrupt, all random numbers",
  "All moments at which the interrupt can happen.",
  ["dwave/gate/simulator/simulator.pyx: simulate, apply_instruction, _measure", f"{CI}: Circuit.set_state", "dwave/gate/primitives.py: Bit.set"])
p("Measurements can be deferred",
  "A measurement can be moved behind operations on other qubits that do not depend on its bits. Behind gates this changes nothing: same state, same bits, same random numbers. Behind other measurements the state and the bits at the end satisfy every condition with the same probability. What is done to some qubits does not change the probabilities of the results of measuring others.",
  "all circuits of gates of the library and measurements, also conditional ones, all operations before and after, all positions, all random numbers",
  "All circuits and all positions of the measurement; probabilities.",
  ["dwave/gate/simulator/simulator.pyx: simulate, apply_instruction, _measure, sample_qubit", "dwave/gate/operations/base.py: Measurement, Operation.is_blocked"])
p("Identities between gates",
  "The known identities between gates hold in simulations, at every place in a circuit and also under a condition: X, Y, Z, Hadamard, SWAP, CCX and CSWAP undo themselves, two S are a Z, two T are an S, the angles of rotations about the same axis (controlled ones included) add up and can be changed by 4 pi, Hadamard exchanges X and Z and CX and CZ, SWAP is three CX, CSWAP is CX, CCX, CX, Hadamards exchange control and target of CX, CZ, SWAP and the controls of CCX are symmetric, a Rotation is RZ, RY, RZ also if it is controlled. With identities up to a phase (X and RX(pi), S and RZ(pi / 2), angles changed by 2 pi, ...) the bits and the density matrix are the same.",
  "all circuits before and after, all qubits, all angles, all conditions, all random numbers",
  "All angles, all positions in all circuits, all numbers of qubits.",
  ["dwave/gate/operations/operations.py: X, Y, Z, Hadamard, S, T, RX, RY, RZ, Rotation, CX, CZ, SWAP, CSWAP, CCX", "dwave/gate/simulator/simulator.pyx: apply_instruction, single_qubit, apply_swap, apply_cswap, apply_ccx"])
p("Gates can be undone",
  "For every sequence of gates of the library there are gates of the library that undo it: if they follow, the simulation goes on as if none of them were there; at the beginning of a circuit, the state is again the one with all qubits 0, no bit is set and no random number is used. Rotations are undone by the opposite angles, S by S and Z, T by T, S and Z, the other gates by themselves, in the opposite order.",
  "all sequences of gates, controlled ones included, all circuits before and after, all conditions",
  "All sequences of gates of all lengths.",
  ["dwave/gate/operations/operations.py: X, Y, Z, Hadamard, S, T, RX, RY, RZ, Rotation, SWAP, CSWAP, CCX", "dwave/gate/simulator/simulator.pyx: simulate, apply_instruction"])
p("Circuits of classical gates compute",
  "A circuit of gates that send 0 and 1 to 0 or 1 (Identity, X, Y, Z, S, T, RZ, their controlled versions, SWAP, CSWAP, CCX), measurements and conditions computes what these operations compute on values 0 and 1, starting with all qubits 0: the bits have the computed values, whatever the random numbers are, and the state has only the amplitude of the computed values of the qubits, of modulus 1; the amplitude is 1 if only X, CX, CCX, SWAP and CSWAP are used.",
  "all circuits of classical gates and measurements, also conditional ones, of all lengths, all values of the bits before, all random numbers",
  "All circuits, all inputs and all random numbers.",
  ["dwave/gate/simulator/simulator.pyx: simulate, apply_instruction, _measure, sample_qubit", "dwave/gate/operations/operations.py: X, CX, CCX, SWAP, CSWAP"])
p("Printed texts tell what an object is",
  "`repr` of a circuit gives its numbers of qubits, bits and operations, and printing changes neither registers nor operations. The texts of two qubits, bits, registers or operations are equal only if they show the same: the same label and id (and value) for qubits and bits, the same items in the same order for registers, the same class, parameters, qubits, measured bits and condition for operations. A variable prints as its value if it has one and as its name otherwise.",
  "all reachable circuits, all labels, ids, values, all operations with all conditions, all registers",
  "All objects and all pairs of objects.",
  ["dwave/gate/circuit.py: Circuit.__repr__", "dwave/gate/primitives.py: Qubit.__repr__, Bit.__repr__, Variable.__repr__", "dwave/gate/operations/base.py: Operation.__repr__, Operation.name, Measurement.__repr__", "dwave/gate/registers/registers.py: Register.__str__, Register.__repr__"])
p("Unitaries of sequences of operations",
  "`build_unitary` of a circuit that consists of two parts is the product of the unitaries of the parts, the second factor first. Parts with the same meaning can be exchanged anywhere in a circuit, in particular according to the identities between gates: the result is the same matrix (or the same exception; for identities up to a global phase the same matrix up to a factor of modulus 1). Operations followed by the operations that undo them give the identity matrix.",
  "all circuits that build_unitary handles, of all sizes and lengths, all angles, all positions of the exchanged parts",
  "All pairs of circuits of all lengths, all angles.",
  ["dwave/gate/tools/unitary.py: build_unitary, build_controlled_unitary", "dwave/gate/operations/operations.py"])
p("Results of density-matrix simulations are density matrices",
  "The array that a density-matrix simulation stores in the circuit is a density matrix: Hermitian, of trace 1 and positive; and it is the one of a pure state (its square is itself).",
  "all circuits of library gates on at most 15 different qubits, all parameters, conditions and values of bits, both settings of the endianness",
  "All circuits and parameters.",
  ["dwave/gate/simulator/simulator.pyx: _simulate_circuit_density_matrix, simulate", "dwave/gate/circuit.py: Circuit.density_matrix"])
p("Classical gates on superpositions",
  "Gates that map values of qubits to values of qubits (X, Y, CX, CCX, SWAP, CSWAP, and gates that only make phases), at the end of any circuit, permute the amplitudes as they permute the values, up to phases, and exactly if they make no phases. So gates that only make phases do not change the probability of any result, and measuring after classical gates has the same distribution as computing the values classically from the results of measuring before them.",
  "all circuits of library gates and measurements followed by classical gates (with or without conditions), all parameters, random numbers and values of bits",
  "All circuits and all states.",
  ["dwave/gate/simulator/simulator.pyx: simulate, apply_instruction", "dwave/gate/operations/operations.py: matrices of the gates"])
p("All calls of the id counter",
  "Whatever calls of next, refresh and reset were made, the id counter does not return an id again, every id is a string of different characters of at least the length asked for, next returns an id as long as there are unused ones, and a reset that is refused changes nothing. After a reset the counter behaves as if it was new.",
  "all sequences of calls of next, refresh and reset, all lengths and batch sizes (negative ones too), all choices that set.pop makes, all states before",
  "All call sequences and all choices of set.pop.",
  ["dwave/gate/tools/counters.py: IDCounter.next, IDCounter.refresh, IDCounter.reset"])
p("Registers of a circuit that are used directly",
  "A qubit can also be added to a register of a circuit itself (circuit.qregisters[label].add(qubit)), mixed with add_qubit, add_qregister and reads of circuit.qubits in any order. No qubit gets into two registers, circuit.qubits never fails and always shows all qubits of the registers in order; a frozen register takes no qubit; circuit.qubits itself cannot be extended.",
  "all histories of additions by methods of the circuit, additions to its registers and reads, all labels and qubits",
  "All interleavings of both ways to add qubits with reads that fill a cache.",
  ["dwave/gate/circuit.py: Circuit.qregisters, Circuit.qubits, Circuit.add_qubit, Circuit.add_qregister", "dwave/gate/registers/registers.py: Register.add, Register.freeze, Register.__add__"])
p("The list of operations of a circuit that is used directly",
  "The operations of a circuit can also be put in, moved and removed with the methods of the list circuit.circuit, mixed with append, calls of templates and contexts in any order. All operations in the list are on qubits of the circuit, calls on the list change that circuit only and do what they do for Python lists, and a locked circuit takes no operation.",
  "all histories of calls of the API, of contexts that are entered and left, and of calls on the lists; all circuits, operations and positions (also negative ones)",
  "All interleavings of both ways to change the operations.",
  ["dwave/gate/circuit.py: Circuit.circuit, Circuit.append, Circuit.lock, Circuit.remove"])
p("Calls change only the objects that they are about",
  "A method of a circuit changes that circuit only; creating an operation, directly or by calling a template, changes only the circuit of the active context, and none if that context is frozen or there is none; no other call changes any circuit. So a template is not changed when it is applied and a parametric circuit not when it is evaluated into a copy. Locking, unlocking, setting conditions, bits, variables, qubits of operations and bits of measurements change that attribute of that object and nothing else, also when they raise an exception.",
  "all states of a program with any number of circuits, contexts, operations, bits and variables; all calls with all arguments, whether they raise or not",
  "All states and all calls: a test sees the objects that it looks at.",
  ["dwave/gate/circuit.py: Circuit, ParametricCircuit, CircuitContext", "dwave/gate/operations/base.py: Operation.__init__, Operation.conditional, Operation.qubits, Measurement.__or__", "dwave/gate/primitives.py: Bit.set, Bit.reset, Variable.set, Variable.reset"])
p("A call that raises an exception leaves the circuits as they were",
  "If a method of a circuit, the creation of an operation or any other call raises an exception, then all circuits are as before the call: operations, registers with their labels and qubits, lock, and parameter register; and so are the operations given to the call. So a program can catch the exception and go on.",
  "all states of a program, all calls with all arguments, and all exceptions",
  "All states and all ways in which a call can fail.",
  ["dwave/gate/circuit.py: Circuit.append, Circuit.extend, Circuit.add_qubit, Circuit.add_qregister, Circuit.reset, Circuit.remove, Circuit.__call__", "dwave/gate/operations/base.py: Operation.__init__, ParametricOperation.eval"])
out=os.path.join(os.path.dirname(__file__),"..","properties.jsonl")
with open(out,"w") as f:
    for x in P: f.write(json.dumps(x)+"\n")
print(len(P)); 
for x in P: print(x["id"],x["title"])
