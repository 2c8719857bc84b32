def c(p,st,ths,note=""): claims[p]=(st,ths.split(),note)
c("C01","proved","C01_register_is_ordered_set C01_constructors C01_relabel_absent_key_corrupts","All histories; _relabel is required to be called with present keys, and the second theorem shows why.")
c("C02","proved","C02_index_getitem_inverse")
c("C03","proved","C03_add C03_cases_exhaustive")
c("C04","proved","C04_relabel")
c("C05","proved","C05_relabel_as_integers_roundtrip")
c("C06","proved","C06_remove")
c("C07","proved","C07_auto_label")
c("C08","partial","C08_plus_partial C08_distinct_objects C08_sum_unusable_violated","Concatenation, no side effects and ValueError are proved; the code violates usability of the sum (attribute _frozen missing), shown for every sum.")
c("C09","proved","C09_frozen_is_immutable")
c("C10","partial","C10_slice_partial C10_slice_step1_partial C10_slice_violated C10_slice_cases C10_cases_exhaustive","What the code does is proved in all cases (C10_slice_cases). The property is proved for non-negative in-range bounds and positive steps; the code deviates from sequence slicing elsewhere (witnesses).")
c("C11","proved","C11_getitem C11_history")
c("C12","partial","C12_bits_stored_partial C12_valued_bit_lost_violated C12_cases","What the register holds is proved for all values (C12_cases). Holds when no bit's value equals its position; the code loses every other bit (shown for all bits with value 0 at position 0).")
c("C13","proved","C13_ids_never_reused alphanum_nodup","For draws after class creation or a reset; calling reset restarts the sequence and is excluded. Non-positive batch sizes are not modelled.")
c("C14","proved","C14_exhaustive_then_valueError C14_default_count")
c("C15","proved","C15_id_shape_and_monotone")
c("C16","partial","C16_eq_refl_symm_partial C16_eq_trans_hash_partial C16_same_class C16_value_irrelevant C16_transitivity_violated C16_hash_violated","Reflexive and symmetric on all objects; transitive and hash-consistent on primitives whose variables have no value; false (proved for all valued bits) when numbers are involved.")
c("C17","proved","C17_bit_values")
c("C28","partial","C28_call_partial C28_raises C28_succeeds C28_fails C28_fails_bits C28_ordinary C28_condition_violated C28_raises_violated","Calls that succeed append copies with mapped qubits and bits, for all reachable states; conditions of the template are not copied (violation), and a failing call can leave a part of the copies behind (violation). Which calls succeed, the exception of the others and what they leave is characterised exactly (histories that keep registers, classes that act on at least one qubit).")
c("C29","partial","C29_partial C29_exact C29_exact_parametric C29_zero_violated C29_controlled_violated","Calls in a circuit that is not parametric succeed exactly if all variables used get nonzero values, otherwise ValueError (C29_exact); in a parametric circuit they always succeed. The value 0 is a violation. Controlled parametric operations keep their variables, which lose their values with the context (violation).")
c("C30","partial","C30_partial C30_violated C30_short C30_short_violated","Calls with too few parameters are characterised in all states (C30_short). Proved for calls with enough parameters; with too few the variables set so far stay set (violation).")
c("C31","partial","C31_given_partial C31_values_partial C31_inplace C31_zero_violated C31_empty_violated","Proved except for variables with value 0 and the empty list of parameters (violations).")
c("C32","partial","C32_partial C32_violated C32_cases","What remove does is proved in all cases (C32_cases). The property is proved if op has parameters or no operation in the circuit has; otherwise AttributeError (violation).")
c("C33","partial","C33_keep_partial C33_keep_shown C33_keep_read C33_keep_violated C33_drop_partial C33_drop_violated","reset() proved if circuit.bits shows the bits; bits set before circuit.bits is first read make it raise (violation); keep_registers=False leaves circuit.qubits stale (violation).")
c("C34","partial","C34_vector C34_rejects C34_no_overwrite C34_normalize C34_matrix_partial C34_mixed_violated C34_trace_violated C34_agree_partial C34_agree_violated","State vectors proved in full; matrices are accepted by their Frobenius norm, which rejects mixed states and accepts matrices of trace 0 (violations); the density matrix of a complex vector lacks the conjugate (violation).")
c("C35","proved","C35_single_qubit","For n <= 30 qubits; beyond that C40's overflow occurs.")
c("C36","proved","C36_controlled","For n <= 30 qubits.")
c("C37","proved","C37_ccx C37_two_controls","For n <= 30 qubits.")
c("C38","proved","C38_swap","For n <= 30 qubits.")
c("C39","proved","C39_cswap","For n <= 30 qubits.")
c("C40","partial","C40_memory_safe_partial C40_int_overflow_violated","Safe for n <= 30 with arbitrary (also repeated) operands; undefined behaviour proved for every n >= 31 (int shifts).")
c("C41","proved","C41_any_order","For n <= 30 qubits and distinct operands.")
c("C42","proved","C42_endianness","Exact arithmetic; 1..30 qubits.")
c("C43","proved","C43_normalised C43_gate_norm C43_checked C43_refused","Exact arithmetic; 1..30 qubits.")
c("C44","proved","C44_measurements","Exact arithmetic; 1..30 qubits; random numbers any stream in [0,1).")
c("C45","proved","C45_born C45_total")
c("C46","proved","C46_repeat C46_operation","The multi-qubit statement has bits distinct within the measurement.")
c("C47","partial","C47_sample_partial C47_resimulation_violated","Proved for a measurement simulated once; after a second simulation the recorded state is stale (violation).")
c("C48","proved","C48_conditional")
c("C49","partial","C49_reproducible_partial C49_stale_bit_violated","Proved when condition bits are written by an earlier unconditional measurement; otherwise bit values left by the first run change the second (violation).")
c("C50","partial","C50_density_partial C50_little_endian_violated C50_big_endian","What the code does is proved for both endiannesses (C50_big_endian). Big-endian, up to 15 qubits; little_endian is ignored by the density simulation (violation).")
c("C51","partial","C51_real_partial C51_conjugate_violated C51_iff C51_trace","The exact condition is proved (C51_iff; C51_trace: the trace is 1, and the matrix a density matrix, exactly if all amplitudes are real). Proved for real amplitudes; the conjugate is missing (violation).")
c("C52","proved","C52_disjoint_commute")
c("C53","partial","C53_controlled_partial C53_default_partial C53_overlap C53_too_large C53_targets C53_negative_violated","All non-negative indices; negative indices are not refused (violation).")
c("C54","partial","C54_exact C54_product_partial C54_unitary C54_parametric_violated C54_swap C54_measurement C54_barrier","Single-qubit and non-parametric controlled gates with any number of controls; parametric controlled gates raise TypeError (violation). C54_exact: which operations are supported, and the exception otherwise.")
c("C55","proved","C55_simulator","Exact arithmetic; 1..30 qubits; no conditions.")
c("C56","partial","C56_cache_partial C56_content C56_stale_violated","Circuits not changed after their first build; otherwise the cached matrix is stale (violation).")
c("C57","partial","C57_exact C57_plain C57_parametric_partial C57_always_repeated_violated C57_repeated_violated C57_order_violated","Parameter variables used once each and in order; repeated or reordered variables go wrong (violations). C57_exact: the result for every circuit and every list of values.")
c("C58","proved","C58_single_unitary C58_swap_unitary C58_cswap_unitary C58_ccx_unitary C58_controlled_unitary C58_variable_no_matrix","Matrices read outside a context; exact arithmetic.")
c("C59","proved","C59_z C59_rotation C59_swap C59_cswap")
c("C70","proved","C70_operator_sets C70_operators C70_probabilities")
c("C71","partial","C71_user_matrix_partial C71_fortran_order_violated C71_real_array_refused","C-contiguous complex arrays; Fortran order acts as the transpose (violation); real arrays are refused.")
c("C72","partial","C72_controls_partial C72_many_controls_violated","One or two controls; with any other number of controls the operation is silently skipped (violation).")
c("C73","partial","C73_exact C73_blocked_partial C73_barrier_violated","Every circuit with a barrier without a condition fails to simulate (violation); C73_exact says with which exception. Only barriers that are blocked by a condition have no effect (C73_blocked_partial).")
c("C74","partial","C74_exact C74_repeated_qubit_violated C74_ignored_violated C74_accepted_violated C74_swap_ignored_violated","CX(q,q)-like operations are silently simulated (violation); C74_exact says what they do to the amplitudes, and CX(q,q), SWAP(q,q) and CSWAP(c,q,q) are ignored in every circuit. C74_accepted_violated: no library gate is refused because of a repeated qubit, in any circuit; only the check of the norm at the end can fail.")
c("C75","proved","C75_gates","Exact arithmetic; 1..30 qubits.")
c("C76","proved","C76_refines C76_semantics_unique","Exact arithmetic; 1..30 qubits; big-endian.")
c("C77","proved","C77_little_endian_measurement C77_mixed_measurement C77_foreign_qubit")
c("C60","partial","C60_matrix_is_simulated C60_context_violated C60_context_parametric_violated","Matrices read outside a context; inside a context the property raises for some qubits (violation).")
c("C61","partial","C61_plain C61_controlled_partial C61_split_partial C61_controlled_violated C61_history_violated C61_split_violated C61_keyword_partial C61_keyword_violated","Plain operations always; the split of the keyword argument qubits into controls and targets; controlled operations only after num_qubits was first read (violation before).")
c("C78","proved","C78_pauli C78_hadamard C78_phases C78_rotations C78_rotation","Exact arithmetic.")
c("C18","partial","C18_qubits_partial C18_bits_partial C18_reads C18_qubits_violated C18_bits_violated","All histories without reset(keep_registers=False), and all circuits with at least one register; bits as long as none is set. The full statement is violated.")
c("C19","proved","C19_unique C19_raises C19_register")
c("C20","proved","C20_find C20_get C20_get_in C20_find_bit C20_get_bit C20_get_bit_in C20_falsy_violated","For qubits in every reachable state; a falsy register label argument is ignored by get_qubit (noted as a violation of the optional argument).")
c("C21","partial","C21_partial C21_violated C21_cases","Where the new qubit goes, and when the others keep their indices, is proved in all cases (C21_cases). Registers, and qubits added to the last or to a new register; other additions move qubits (violation).")
c("C22","partial","C22_qubits C22_bits_partial C22_bits_violated","Qubits always, bits as long as none is set; a bit with value 0 is replaced by a new bit (violation).")
c("C23","proved","C23_locked C23_append C23_extend")
c("C24","partial","C24_partial C24_assign_violated C24_reset_violated","All histories without assignment to op.qubits and without reset(keep_registers=False); both break it (violations).")
c("C25","partial","C25_refused C25_enter_partial C25_inside C25_leave C25_again C25_violated","Proved for circuits whose bits can be read (always the case while no bit is set); otherwise __enter__ raises after the context has become active (violation).")
c("C26","proved","C26_construct C26_reapply")
c("C27","partial","C27_freeze_partial C27_after C27_outside C27_violated","Proved for bodies without a nested freeze; leaving an inner freeze ends the outer one (violation). Circuits that are created in the body by eval are not claimed to be empty.")
c("C62","partial","C62_text C62_partial C62_total C62_parametric C62_falsy_violated C62_clash_violated C62_twice_violated C62_undeclared_violated","The exact text is characterised in all cases (C62_text); references are valid and unambiguous with default names, and with reg_labels=True if the labels are truthy and print differently. Other labels and circuits without qubits violate it.")
c("C63","partial","C63_partial C63_custom_violated C63_condition_violated","Proved on the text itself for library gates with numbers as parameters and default register names; parameters of operations made by create_operation and conditions are not exported (violations).")
c("C79","partial","C79_partial C79_repeated_violated","A gate is defined iff it is used; it is defined once per use (violation).")
c("C64","partial","C64_program C64_partial C64_violated C64_rotation_violated C64_identity_violated","The program is characterised in all cases (C64_program) with numbers in the register; these are the indices in the circuit if there is at most one register of each kind. With several registers qubits share numbers; external gates with parameters and Identity are refused (violations).")
c("C65","partial","C65_partial C65_violated C65_untouched_violated C65_conditional_violated C65_swaps_violated","For circuits of base-profile gates and measurements with at most one register of each kind: loading succeeds exactly if every measured qubit is below a qubit that a gate acts on (otherwise IndexError), and then gates, indices, parameters and measured pairs are the same, in order. Violated: measurements are joined into one, trailing qubits and bits are lost, conditions are lost, a second use of an external gate cannot be loaded.")
c("C66","partial","C66_base C66_measurement C66_external C66_distinct C66_converse C66_violated","The tables are inverse; but LLVM renames the external function of a gate that is used again, and that name is not read back (violation).")
c("C67","proved","C67_measurements_last")
c("C68","partial","C68_partial C68_base C68_unknown C68_violated","Gates are in the order of the calls, up to the first return; measurements come last, joined in order. Programs of the base profile are loaded exactly if every measured qubit is below one that a gate acts on. Violated: a measurement before a gate is moved behind it.")
c("C69","partial","C69_class C69_instance C69_readonly C69_partial C69_decorate C69_undecorated C69_violated","Reads on classes and instances, and assignments and deletions on instances, in all heaps and after all histories. Violated: assigning on the class replaces the property.")
c("C80","proved","C80_alone C80_qubits")
c("C81","partial","C81_simulate C81_gates C81_effect C81_context_violated","All programs except those that assign to the qubits of operations or call reset(keep_registers=False); gates with big-endian or little-endian order, measurements with big-endian order (they are refused for little-endian order). Violated in open contexts: controlled gates with parameters cannot be simulated there.")
c("C82","partial","C82_independent C82_marginal C82_bitstrings C82_expval C82_expected C82_simulated C82_errors C82_index_violated","The random generator is taken to give independent uniform numbers; averages are exact. Violated: with a single index, as in the signature of expval, TypeError is raised.")
c("C83","proved","C83_call C83_succeeds C83_simulated C83_measured","C83_measured: templates with measurements (and no conditions: those are lost, see C28). The simulation is in the open context, where controlled gates with parameters are refused (see C81); C83_call has no such restriction.")
c("C84","partial","C84_partial C84_unique C84_rot C84_undefined_violated C84_definition_violated","All library gates except Rotation and CRotation, without measurements and conditions; register labels that are identifiers if they are used. Violated: rot and crot are not defined in qelib1.inc, the exported definition of rot has no arguments, and there is none for crot. (For conditions see C63.)")
c("C85","partial","C85_partial C85_registers_violated C85_condition_violated","Circuits of base profile gates and measurements with at most one register of each kind, compiled without external functions, in which no measurement has a condition (conditions of gates never matter, since gates come first). Violated for several registers (qubits of different registers are identified) and for measurements with conditions (the condition is dropped).")
c("C86","partial","C86_partial C86_order C86_violated","Programs in which no gate acts on a qubit after it was measured and some gate acts on the last qubit. C86_order says what happens in general: all gates come before all measurements. Violated: a qubit that is measured and then flipped gives another result.")
c("C87","partial","C87_partial C87_base C87_registers_violated","Circuits (not parametric ones) with at most one register of each kind, outside of contexts; base-profile programs are loaded exactly if every measured qubit is in the circuit or below one that a gate acts on. Violated for circuits with two quantum registers: qubits are added to the first one, so the indices of the others change while the program is loaded.")
c("C88","proved","C88_add C88_block C88_refused C88_program C88_frozen C88_failed C88_circuit","Histories in which no return instruction is erased twice (see C89_twice_violated).")
c("C89","partial","C89_recompile C89_recompile_partial C89_externals C89_reset C89_reset_partial C89_external_violated C89_uncompiled_violated C89_twice_violated","C89_recompile says what is compiled in all cases; this is what the property says if there are no calls of external functions. After reset() all calls but reset() itself return what they return for a new module. Violated: compile(force=True) drops the calls of external functions; reset() of a module that was not compiled raises AttributeError after removing them; reset() twice erases the return instruction twice.")
c("C90","proved","C90_error C90_double C90_best C90_exact","C90_error is for any arithmetic with bounds on its errors, C90_double for doubles (multiplication of complex numbers by the usual formula, no overflow in the model since all numbers are small), C90_best in addition for matrices and norms that are the nearest doubles. That the functions of cmath reach 2^-48 is an assumption.")
c("C91","partial","C91_unique_partial C91_before_exhaustion_partial C91_duplicate_violated C91_keyError_violated C91_skipped_violated","Unique in all schedules in which no two threads make the ids longer at the same time; otherwise two threads can return the same id (violation). KeyError is raised if another thread takes the last id between the test and pop (violation).")
c("C92","partial","C92_partial C92_enter C92_race_violated C92_outside_violated","All schedules in which no thread is interrupted between the test and the assignment in __enter__; otherwise two threads can be inside at once (violation). Operations that a thread creates outside of contexts go to the circuit of another thread's context (violation).")
c("C93","partial","C93_contexts_partial C93_block C93_qubits_partial C93_bits_partial C93_operations_partial C93_progress C93_exit_violated C93_enter_violated C93_freeze_violated C93_stale_violated C93_twice_violated","Interrupts anywhere but in the middle of __enter__, __exit__ and of calls that add qubits, bits or registers; there the property is violated: an interrupted __enter__ or __exit__ leaves the context active for ever, an interrupted freeze leaves it frozen, an interrupted add_qubit leaves circuit.qubits without the qubit, after which the qubit can be added twice. C93_block and C93_progress hold for interrupts in all calls. As in C25, set bits are excluded where contexts are entered.")
c("C94","partial","C94_copy_untouched C94_copy_partial C94_copy_exception C94_attribute C94_inplace C94_simulate_partial C94_inplace_violated C94_half_violated C94_condition_violated C94_frozen_violated","Results and exceptions are characterised in all cases. Violated: conditions of evaluated operations refer to copies of bits that are not those of the new circuit; an exception in place leaves the first operations evaluated; a circuit evaluated in a freeze block has a frozen context for ever; as in C31 the value 0 and empty lists count as missing.")
c("C95","partial","C95_exact C95_refl C95_symm C95_trans_partial C95_meaning_partial C95_interchange_partial C95_symm_violated C95_trans_violated C95_variables_violated C95_condition_violated","What == does is proved for all operations (C95_exact). Interchangeable: circuits of library gates with numbers as parameters and without conditions. Violations: AttributeError if only the left one has parameters; not transitive with variables; variables are compared by name only; conditions and the bits of measurements are ignored.")
c("C96","partial","C96_assign C96_partial C96_delete_violated C96_list_violated","All histories without deletions of the class attribute and without own lists of locked attributes, both of which replace the matrix (violations, for all classes).")
c("C97","partial","C97_equivalence C97_call_partial C97_violated","Equivalence relation for all instructions; same call for instructions of the base set and measurements that can be executed. Violations: the order of numbers and qubits, and the functions of external instructions, are ignored.")
c("C98","partial","C98_filled C98_partial C98_measured C98_assigned_violated C98_undeclared_violated C98_violated","Parameters, and bits against num_qubits: all histories (C98_filled). num_qubits against qubits, and control and target: histories without assignments to op.qubits, classes that declare the number of control qubits. Both restrictions are needed (violations, the first for all assignments of other qubits to controlled operations).")
c("C99","proved","C99_distribution C99_unique C99_append C99_total C99_program","Uniform random numbers in [0, 1), independent (the volume of the set of random numbers); C99_program is for circuits built by programs, with the restrictions of C81 on open contexts and at most 30 qubits.")
c("C100","partial","C100_reach C100_kept_partial C100_new C100_context C100_violated","All QIR programs and all outcomes. The active context: programs that set no bits (assigning a bit can make entering a context fail half-way, C25). Violated: a load that fails leaves the gates and qubits that were loaded before the failing call in the circuit.")
c("C101","partial","C101_reach C101_kept C101_set C101_failed_partial C101_valid_partial C101_size C101_simulate C101_violated C101_stale_violated","All programs and all outcomes. Violated: a simulation that raises keeps the bits that were measured before the exception (for all circuits with an operation without qubits), and after `add_qubit` the state is still that of the former qubits. The norm is proved to be close to 1 (the tolerance of the code); state vectors for C101_simulate.")
c("C102","partial","C102_gate C102_precompiled C102_norm C102_compiles C102_names_violated","All shapes with at most three targets, or with a precompiled matrix. Violated: with four or more targets and the matrix passed at run time the generated C code declares the variables of the entries (1, 11) and (11, 1) under the same name and does not compile.")
c("C103","partial","C103_total C103_accepts C103_rejects C103_select_partial C103_exact C103_used C103_controls_violated","All sets, states and random numbers, without controls. Violated for operator sets with controls: the probabilities do not sum to 1, the resulting state is never normalised unless the controls are 1 with certainty, and the function raises if they are never 1. Sets within the tolerance: the probabilities sum to 1 up to 10^-5 + 2^k 10^-8.")
c("C104","partial","C104_endian C104_density_partial C104_measured_violated","Circuits of gates, also with conditions, in all histories (density matrices: up to 15 qubits, big-endian; for the other order see C50). Violated: the density-matrix simulation raises TypeError at the first measurement, for all circuits with a measurement after gates, and leaves the array of twice as many qubits in the measurement.")
c("C105","partial","C105_inline_partial C105_density_partial C105_conditions_violated C105_several_violated C105_several_error C105_empty_violated C105_grown_violated","Operations made from circuits with one qubit and at least one gate, each variable used once and in order; anything else in the circuit around them. Violated: operations on several qubits raise (AttributeError instead of the intended ValueError), for all circuits; so do operations made from empty circuits; conditions inside of the circuit are ignored, for all circuits; if the circuit gets another qubit after the operation was made, the kernel silently takes the first row of the larger matrix for the whole matrix.")
c("C106","proved","C106_replace C106_density C106_phase C106_unitary","Exact arithmetic; up to 30 qubits (density matrices: 15). C106_phase: the rest of the circuit consists of gates and measurements.")
c("C107","partial","C107_decomposition C107_none C107_exists C107_reads_partial C107_alias_violated C107_emptied_violated","Exact arithmetic; up to 30 qubits (density matrices: 15). Violated: `decomposition` returns the list of the class itself, so that a program that changes the list it got changes the decomposition of the class; proved for programs that only read.")
c("C108","proved","C108_unused C108_density","Exact arithmetic; state vectors in big-endian order; 1 to 30 qubits (density matrices of circuits without measurements: 1 to 15).")
c("C109","proved","C109_independent C109_density","Exact arithmetic; state vectors in big-endian order; 1 to 30 qubits (density matrices of circuits without measurements: 1 to 15).")
c("C110","partial","C110_independent C110_ends C110_frame C110_same_violated","All schedules of simulations of different circuits that share no measurement, and no bit that one of them sets. Violated if threads simulate the same circuit: the simulation can end with a state that no simulation of the circuit gives on its own, whatever the random numbers are.")
c("C111","partial","C111_state C111_again_partial C111_torn_violated C111_again_violated","Proved: at every moment the states of all circuits are unchanged, only bits and records of the measurements of the circuit have changed, and a repeated simulation gives the same state and sets bits to the same values if conditions depend only on bits set before. Violated: the bits of measurements are set although the state is not (for every circuit), and conditions on bits that were not set before see them.")
c("C112","proved","C112_defer C112_chance C112_no_signal","Exact arithmetic; state vectors in big-endian order; 1 to 30 qubits. C112_defer: behind gates, for every stream of random numbers. C112_chance: behind gates and measurements, probabilities (independent uniform random numbers); the operations must not set bits that the measurement sets or depends on.")
c("C113","proved","C113_same C113_phase C113_phase_density","Exact arithmetic; qubits of the circuit without repetition, at most 30 (state vectors) or 15 (density matrices).")
c("C114","proved","C114_undo C114_zero C114_exists","Exact arithmetic; qubits of the circuit without repetition, at most 30 (state vectors) or 15 (density matrices).")
c("C115","proved","C115_classical C115_random C115_density","Exact arithmetic; state vectors in big-endian order; 1 to 30 qubits (density matrices of circuits without measurements: 1 to 15).")
c("C116","partial","C116_circuit_partial C116_circuit_reads C116_circuit_violated C116_qubit C116_bit C116_ids C116_variable_partial C116_variable_violated C116_operation C116_register C116_measurement_partial C116_measurement_violated","What Python prints for labels and numbers is given; labels without >, parameters without comma and equals sign. Violated: circuits with set bits may not be printable and circuits after reset(keep_registers=False) count old qubits; a variable with value 0 prints like one without value; conditions of measurements are not shown.")
c("C117","proved","C117_compose C117_exchange C117_same C117_phase C117_undo","Exact arithmetic; qubits without repetition; operations that build_unitary handles (single-qubit gates and non-parametric controlled gates; C117_exchange also says what happens with other operations around).")
c("C118","proved","C118_density","The matrix is read from the row-major array by rows; Hermitian, trace 1, positive and idempotent.")
c("C119","proved","C119_amplitudes C119_phases C119_measured","Exact arithmetic; big-endian order; 1 to 30 qubits. C119_measured: gates, classical gates and one final measurement of any qubits; independent uniform random numbers.")
c("C120","partial","C120_calls_partial C120_reset C120_reuse_violated C120_negative_length_violated C120_empty_id_violated C120_negative_batch_violated","Proved for any calls of next and refresh after a reset with non-negative arguments in any state. Violated: ids repeat after a reset; a refused reset with negative length changes length and batch size, after which the empty id can be returned; a negative batch size is accepted and every next raises KeyError.")
c("C121","partial","C121_direct_partial C121_additions C121_freeze C121_flat_add C121_stale_violated C121_twice_violated C121_flat_add_violated","For qubits; histories in which no qubit is added that is in a register already. Violated: after a read circuit.qubits does not show a qubit added to a register itself; add_qubit then accepts it for a second register, after which circuit.qubits always raises ValueError; circuit.qubits.add works on a circuit without registers.")
c("C122","partial","C122_direct_partial C122_effect C122_lists C122_locked_violated C122_foreign_violated","Histories in which only operations on qubits of the circuit are put in directly. Violated: the list of a locked circuit can be changed, and operations on other qubits are accepted, for all circuits and operations.")
c("C123","proved","C123_frame C123_program C123_operations C123_bits C123_variables C123_qubits C123_template C123_eval C123_conditional C123_lock C123_unlock C123_variable C123_bit C123_measure C123_set_qubits","Every call in every state, and whole programs with contexts, for what a user sees of each circuit (all attributes but the caches), and for all attributes of operations, bits, variables and qubits; exact effects of the small setters.")
c("C124","partial","C124_refused_partial C124_add_qubit_partial C124_add_bit_partial C124_extend_partial C124_add_qubit_any_partial C124_add_bit_any_partial C124_reset_partial C124_template_partial C124_parametric_template_partial C124_template_violated C124_add_qubit_violated C124_extend_violated C124_reset_violated C124_append_violated","All circuits, in all states, for all calls but add_qubit and add_bit without the label of an existing register, extend, calls of templates and reset(keep_registers=True); a failing extend or template call changes the operations only, and only by appending; a failing add_qubit or add_bit leaves at most one empty register, and a failing reset has removed the operations and nothing else. Violated: add_qubit with a qubit that is there already creates the register first, extend keeps the operations before the failing one (as do templates, C28), reset has removed the operations when it raises, and append evaluates the operation that it then refuses.")
