{
 "claims": [
  {
   "property": "C01",
   "status": "proved",
   "theorems": [
    "DG.Props.C01_register_is_ordered_set",
    "DG.Props.C01_constructors",
    "DG.Props.C01_relabel_absent_key_corrupts"
   ],
   "note": "All histories; _relabel is required to be called with present keys, and the second theorem shows why."
  },
  {
   "property": "C02",
   "status": "proved",
   "theorems": [
    "DG.Props.C02_index_getitem_inverse"
   ],
   "note": ""
  },
  {
   "property": "C03",
   "status": "proved",
   "theorems": [
    "DG.Props.C03_add",
    "DG.Props.C03_cases_exhaustive"
   ],
   "note": ""
  },
  {
   "property": "C04",
   "status": "proved",
   "theorems": [
    "DG.Props.C04_relabel"
   ],
   "note": ""
  },
  {
   "property": "C05",
   "status": "proved",
   "theorems": [
    "DG.Props.C05_relabel_as_integers_roundtrip"
   ],
   "note": ""
  },
  {
   "property": "C06",
   "status": "proved",
   "theorems": [
    "DG.Props.C06_remove"
   ],
   "note": ""
  },
  {
   "property": "C07",
   "status": "proved",
   "theorems": [
    "DG.Props.C07_auto_label"
   ],
   "note": ""
  },
  {
   "property": "C08",
   "status": "partial",
   "theorems": [
    "DG.Props.C08_plus_partial",
    "DG.Props.C08_distinct_objects",
    "DG.Props.C08_sum_unusable_violated"
   ],
   "note": "Concatenation, no side effects and ValueError are proved; the code violates usability of the sum (attribute _frozen missing), shown for every sum."
  },
  {
   "property": "C09",
   "status": "proved",
   "theorems": [
    "DG.Props.C09_frozen_is_immutable"
   ],
   "note": ""
  },
  {
   "property": "C10",
   "status": "partial",
   "theorems": [
    "DG.Props.C10_slice_partial",
    "DG.Props.C10_slice_step1_partial",
    "DG.Props.C10_slice_violated",
    "DG.Props.C10_slice_cases",
    "DG.Props.C10_cases_exhaustive"
   ],
   "note": "What the code does is proved in all cases (C10_slice_cases). The property is proved for non-negative in-range bounds and positive steps; the code deviates from sequence slicing elsewhere (witnesses)."
  },
  {
   "property": "C11",
   "status": "proved",
   "theorems": [
    "DG.Props.C11_getitem",
    "DG.Props.C11_history"
   ],
   "note": ""
  },
  {
   "property": "C12",
   "status": "partial",
   "theorems": [
    "DG.Props.C12_bits_stored_partial",
    "DG.Props.C12_valued_bit_lost_violated",
    "DG.Props.C12_cases"
   ],
   "note": "What the register holds is proved for all values (C12_cases). Holds when no bit's value equals its position; the code loses every other bit (shown for all bits with value 0 at position 0)."
  },
  {
   "property": "C13",
   "status": "proved",
   "theorems": [
    "DG.Props.C13_ids_never_reused",
    "DG.Props.alphanum_nodup"
   ],
   "note": "For draws after class creation or a reset; calling reset restarts the sequence and is excluded. Non-positive batch sizes are not modelled."
  },
  {
   "property": "C14",
   "status": "proved",
   "theorems": [
    "DG.Props.C14_exhaustive_then_valueError",
    "DG.Props.C14_default_count"
   ],
   "note": ""
  },
  {
   "property": "C15",
   "status": "proved",
   "theorems": [
    "DG.Props.C15_id_shape_and_monotone"
   ],
   "note": ""
  },
  {
   "property": "C16",
   "status": "partial",
   "theorems": [
    "DG.Props.C16_eq_refl_symm_partial",
    "DG.Props.C16_eq_trans_hash_partial",
    "DG.Props.C16_same_class",
    "DG.Props.C16_value_irrelevant",
    "DG.Props.C16_transitivity_violated",
    "DG.Props.C16_hash_violated"
   ],
   "note": "Reflexive and symmetric on all objects; transitive and hash-consistent on primitives whose variables have no value; false (proved for all valued bits) when numbers are involved."
  },
  {
   "property": "C17",
   "status": "proved",
   "theorems": [
    "DG.Props.C17_bit_values"
   ],
   "note": ""
  },
  {
   "property": "C18",
   "status": "partial",
   "theorems": [
    "DG.Props.C18_qubits_partial",
    "DG.Props.C18_bits_partial",
    "DG.Props.C18_reads",
    "DG.Props.C18_qubits_violated",
    "DG.Props.C18_bits_violated"
   ],
   "note": "All histories without reset(keep_registers=False), and all circuits with at least one register; bits as long as none is set. The full statement is violated."
  },
  {
   "property": "C19",
   "status": "proved",
   "theorems": [
    "DG.Props.C19_unique",
    "DG.Props.C19_raises",
    "DG.Props.C19_register"
   ],
   "note": ""
  },
  {
   "property": "C20",
   "status": "proved",
   "theorems": [
    "DG.Props.C20_find",
    "DG.Props.C20_get",
    "DG.Props.C20_get_in",
    "DG.Props.C20_find_bit",
    "DG.Props.C20_get_bit",
    "DG.Props.C20_get_bit_in",
    "DG.Props.C20_falsy_violated"
   ],
   "note": "For qubits in every reachable state; a falsy register label argument is ignored by get_qubit (noted as a violation of the optional argument)."
  },
  {
   "property": "C21",
   "status": "partial",
   "theorems": [
    "DG.Props.C21_partial",
    "DG.Props.C21_violated",
    "DG.Props.C21_cases"
   ],
   "note": "Where the new qubit goes, and when the others keep their indices, is proved in all cases (C21_cases). Registers, and qubits added to the last or to a new register; other additions move qubits (violation)."
  },
  {
   "property": "C22",
   "status": "partial",
   "theorems": [
    "DG.Props.C22_qubits",
    "DG.Props.C22_bits_partial",
    "DG.Props.C22_bits_violated"
   ],
   "note": "Qubits always, bits as long as none is set; a bit with value 0 is replaced by a new bit (violation)."
  },
  {
   "property": "C23",
   "status": "proved",
   "theorems": [
    "DG.Props.C23_locked",
    "DG.Props.C23_append",
    "DG.Props.C23_extend"
   ],
   "note": ""
  },
  {
   "property": "C24",
   "status": "partial",
   "theorems": [
    "DG.Props.C24_partial",
    "DG.Props.C24_assign_violated",
    "DG.Props.C24_reset_violated"
   ],
   "note": "All histories without assignment to op.qubits and without reset(keep_registers=False); both break it (violations)."
  },
  {
   "property": "C25",
   "status": "partial",
   "theorems": [
    "DG.Props.C25_refused",
    "DG.Props.C25_enter_partial",
    "DG.Props.C25_inside",
    "DG.Props.C25_leave",
    "DG.Props.C25_again",
    "DG.Props.C25_violated"
   ],
   "note": "Proved for circuits whose bits can be read (always the case while no bit is set); otherwise __enter__ raises after the context has become active (violation)."
  },
  {
   "property": "C26",
   "status": "proved",
   "theorems": [
    "DG.Props.C26_construct",
    "DG.Props.C26_reapply"
   ],
   "note": ""
  },
  {
   "property": "C27",
   "status": "partial",
   "theorems": [
    "DG.Props.C27_freeze_partial",
    "DG.Props.C27_after",
    "DG.Props.C27_outside",
    "DG.Props.C27_violated"
   ],
   "note": "Proved for bodies without a nested freeze; leaving an inner freeze ends the outer one (violation). Circuits that are created in the body by eval are not claimed to be empty."
  },
  {
   "property": "C28",
   "status": "partial",
   "theorems": [
    "DG.Props.C28_call_partial",
    "DG.Props.C28_raises",
    "DG.Props.C28_succeeds",
    "DG.Props.C28_fails",
    "DG.Props.C28_fails_bits",
    "DG.Props.C28_ordinary",
    "DG.Props.C28_condition_violated",
    "DG.Props.C28_raises_violated"
   ],
   "note": "Calls that succeed append copies with mapped qubits and bits, for all reachable states; conditions of the template are not copied (violation), and a failing call can leave a part of the copies behind (violation). Which calls succeed, the exception of the others and what they leave is characterised exactly (histories that keep registers, classes that act on at least one qubit)."
  },
  {
   "property": "C29",
   "status": "partial",
   "theorems": [
    "DG.Props.C29_partial",
    "DG.Props.C29_exact",
    "DG.Props.C29_exact_parametric",
    "DG.Props.C29_zero_violated",
    "DG.Props.C29_controlled_violated"
   ],
   "note": "Calls in a circuit that is not parametric succeed exactly if all variables used get nonzero values, otherwise ValueError (C29_exact); in a parametric circuit they always succeed. The value 0 is a violation. Controlled parametric operations keep their variables, which lose their values with the context (violation)."
  },
  {
   "property": "C30",
   "status": "partial",
   "theorems": [
    "DG.Props.C30_partial",
    "DG.Props.C30_violated",
    "DG.Props.C30_short",
    "DG.Props.C30_short_violated"
   ],
   "note": "Calls with too few parameters are characterised in all states (C30_short). Proved for calls with enough parameters; with too few the variables set so far stay set (violation)."
  },
  {
   "property": "C31",
   "status": "partial",
   "theorems": [
    "DG.Props.C31_given_partial",
    "DG.Props.C31_values_partial",
    "DG.Props.C31_inplace",
    "DG.Props.C31_zero_violated",
    "DG.Props.C31_empty_violated"
   ],
   "note": "Proved except for variables with value 0 and the empty list of parameters (violations)."
  },
  {
   "property": "C32",
   "status": "partial",
   "theorems": [
    "DG.Props.C32_partial",
    "DG.Props.C32_violated",
    "DG.Props.C32_cases"
   ],
   "note": "What remove does is proved in all cases (C32_cases). The property is proved if op has parameters or no operation in the circuit has; otherwise AttributeError (violation)."
  },
  {
   "property": "C33",
   "status": "partial",
   "theorems": [
    "DG.Props.C33_keep_partial",
    "DG.Props.C33_keep_shown",
    "DG.Props.C33_keep_read",
    "DG.Props.C33_keep_violated",
    "DG.Props.C33_drop_partial",
    "DG.Props.C33_drop_violated"
   ],
   "note": "reset() proved if circuit.bits shows the bits; bits set before circuit.bits is first read make it raise (violation); keep_registers=False leaves circuit.qubits stale (violation)."
  },
  {
   "property": "C34",
   "status": "partial",
   "theorems": [
    "DG.Props.C34_vector",
    "DG.Props.C34_rejects",
    "DG.Props.C34_no_overwrite",
    "DG.Props.C34_normalize",
    "DG.Props.C34_matrix_partial",
    "DG.Props.C34_mixed_violated",
    "DG.Props.C34_trace_violated",
    "DG.Props.C34_agree_partial",
    "DG.Props.C34_agree_violated"
   ],
   "note": "State vectors proved in full; matrices are accepted by their Frobenius norm, which rejects mixed states and accepts matrices of trace 0 (violations); the density matrix of a complex vector lacks the conjugate (violation)."
  },
  {
   "property": "C35",
   "status": "proved",
   "theorems": [
    "DG.Props.C35_single_qubit"
   ],
   "note": "For n <= 30 qubits; beyond that C40's overflow occurs."
  },
  {
   "property": "C36",
   "status": "proved",
   "theorems": [
    "DG.Props.C36_controlled"
   ],
   "note": "For n <= 30 qubits."
  },
  {
   "property": "C37",
   "status": "proved",
   "theorems": [
    "DG.Props.C37_ccx",
    "DG.Props.C37_two_controls"
   ],
   "note": "For n <= 30 qubits."
  },
  {
   "property": "C38",
   "status": "proved",
   "theorems": [
    "DG.Props.C38_swap"
   ],
   "note": "For n <= 30 qubits."
  },
  {
   "property": "C39",
   "status": "proved",
   "theorems": [
    "DG.Props.C39_cswap"
   ],
   "note": "For n <= 30 qubits."
  },
  {
   "property": "C40",
   "status": "partial",
   "theorems": [
    "DG.Props.C40_memory_safe_partial",
    "DG.Props.C40_int_overflow_violated"
   ],
   "note": "Safe for n <= 30 with arbitrary (also repeated) operands; undefined behaviour proved for every n >= 31 (int shifts)."
  },
  {
   "property": "C41",
   "status": "proved",
   "theorems": [
    "DG.Props.C41_any_order"
   ],
   "note": "For n <= 30 qubits and distinct operands."
  },
  {
   "property": "C42",
   "status": "proved",
   "theorems": [
    "DG.Props.C42_endianness"
   ],
   "note": "Exact arithmetic; 1..30 qubits."
  },
  {
   "property": "C43",
   "status": "proved",
   "theorems": [
    "DG.Props.C43_normalised",
    "DG.Props.C43_gate_norm",
    "DG.Props.C43_checked",
    "DG.Props.C43_refused"
   ],
   "note": "Exact arithmetic; 1..30 qubits."
  },
  {
   "property": "C44",
   "status": "proved",
   "theorems": [
    "DG.Props.C44_measurements"
   ],
   "note": "Exact arithmetic; 1..30 qubits; random numbers any stream in [0,1)."
  },
  {
   "property": "C45",
   "status": "proved",
   "theorems": [
    "DG.Props.C45_born",
    "DG.Props.C45_total"
   ],
   "note": ""
  },
  {
   "property": "C46",
   "status": "proved",
   "theorems": [
    "DG.Props.C46_repeat",
    "DG.Props.C46_operation"
   ],
   "note": "The multi-qubit statement has bits distinct within the measurement."
  },
  {
   "property": "C47",
   "status": "partial",
   "theorems": [
    "DG.Props.C47_sample_partial",
    "DG.Props.C47_resimulation_violated"
   ],
   "note": "Proved for a measurement simulated once; after a second simulation the recorded state is stale (violation)."
  },
  {
   "property": "C48",
   "status": "proved",
   "theorems": [
    "DG.Props.C48_conditional"
   ],
   "note": ""
  },
  {
   "property": "C49",
   "status": "partial",
   "theorems": [
    "DG.Props.C49_reproducible_partial",
    "DG.Props.C49_stale_bit_violated"
   ],
   "note": "Proved when condition bits are written by an earlier unconditional measurement; otherwise bit values left by the first run change the second (violation)."
  },
  {
   "property": "C50",
   "status": "partial",
   "theorems": [
    "DG.Props.C50_density_partial",
    "DG.Props.C50_little_endian_violated",
    "DG.Props.C50_big_endian"
   ],
   "note": "What the code does is proved for both endiannesses (C50_big_endian). Big-endian, up to 15 qubits; little_endian is ignored by the density simulation (violation)."
  },
  {
   "property": "C51",
   "status": "partial",
   "theorems": [
    "DG.Props.C51_real_partial",
    "DG.Props.C51_conjugate_violated",
    "DG.Props.C51_iff",
    "DG.Props.C51_trace"
   ],
   "note": "The exact condition is proved (C51_iff; C51_trace: the trace is 1, and the matrix a density matrix, exactly if all amplitudes are real). Proved for real amplitudes; the conjugate is missing (violation)."
  },
  {
   "property": "C52",
   "status": "proved",
   "theorems": [
    "DG.Props.C52_disjoint_commute"
   ],
   "note": ""
  },
  {
   "property": "C53",
   "status": "partial",
   "theorems": [
    "DG.Props.C53_controlled_partial",
    "DG.Props.C53_default_partial",
    "DG.Props.C53_overlap",
    "DG.Props.C53_too_large",
    "DG.Props.C53_targets",
    "DG.Props.C53_negative_violated"
   ],
   "note": "All non-negative indices; negative indices are not refused (violation)."
  },
  {
   "property": "C54",
   "status": "partial",
   "theorems": [
    "DG.Props.C54_exact",
    "DG.Props.C54_product_partial",
    "DG.Props.C54_unitary",
    "DG.Props.C54_parametric_violated",
    "DG.Props.C54_swap",
    "DG.Props.C54_measurement",
    "DG.Props.C54_barrier"
   ],
   "note": "Single-qubit and non-parametric controlled gates with any number of controls; parametric controlled gates raise TypeError (violation). C54_exact: which operations are supported, and the exception otherwise."
  },
  {
   "property": "C55",
   "status": "proved",
   "theorems": [
    "DG.Props.C55_simulator"
   ],
   "note": "Exact arithmetic; 1..30 qubits; no conditions."
  },
  {
   "property": "C56",
   "status": "partial",
   "theorems": [
    "DG.Props.C56_cache_partial",
    "DG.Props.C56_content",
    "DG.Props.C56_stale_violated"
   ],
   "note": "Circuits not changed after their first build; otherwise the cached matrix is stale (violation)."
  },
  {
   "property": "C57",
   "status": "partial",
   "theorems": [
    "DG.Props.C57_exact",
    "DG.Props.C57_plain",
    "DG.Props.C57_parametric_partial",
    "DG.Props.C57_always_repeated_violated",
    "DG.Props.C57_repeated_violated",
    "DG.Props.C57_order_violated"
   ],
   "note": "Parameter variables used once each and in order; repeated or reordered variables go wrong (violations). C57_exact: the result for every circuit and every list of values."
  },
  {
   "property": "C58",
   "status": "proved",
   "theorems": [
    "DG.Props.C58_single_unitary",
    "DG.Props.C58_swap_unitary",
    "DG.Props.C58_cswap_unitary",
    "DG.Props.C58_ccx_unitary",
    "DG.Props.C58_controlled_unitary",
    "DG.Props.C58_variable_no_matrix"
   ],
   "note": "Matrices read outside a context; exact arithmetic."
  },
  {
   "property": "C59",
   "status": "proved",
   "theorems": [
    "DG.Props.C59_z",
    "DG.Props.C59_rotation",
    "DG.Props.C59_swap",
    "DG.Props.C59_cswap"
   ],
   "note": ""
  },
  {
   "property": "C60",
   "status": "partial",
   "theorems": [
    "DG.Props.C60_matrix_is_simulated",
    "DG.Props.C60_context_violated",
    "DG.Props.C60_context_parametric_violated"
   ],
   "note": "Matrices read outside a context; inside a context the property raises for some qubits (violation)."
  },
  {
   "property": "C61",
   "status": "partial",
   "theorems": [
    "DG.Props.C61_plain",
    "DG.Props.C61_controlled_partial",
    "DG.Props.C61_split_partial",
    "DG.Props.C61_controlled_violated",
    "DG.Props.C61_history_violated",
    "DG.Props.C61_split_violated",
    "DG.Props.C61_keyword_partial",
    "DG.Props.C61_keyword_violated"
   ],
   "note": "Plain operations always; the split of the keyword argument qubits into controls and targets; controlled operations only after num_qubits was first read (violation before)."
  },
  {
   "property": "C62",
   "status": "partial",
   "theorems": [
    "DG.Props.C62_text",
    "DG.Props.C62_partial",
    "DG.Props.C62_total",
    "DG.Props.C62_parametric",
    "DG.Props.C62_falsy_violated",
    "DG.Props.C62_clash_violated",
    "DG.Props.C62_twice_violated",
    "DG.Props.C62_undeclared_violated"
   ],
   "note": "The exact text is characterised in all cases (C62_text); references are valid and unambiguous with default names, and with reg_labels=True if the labels are truthy and print differently. Other labels and circuits without qubits violate it."
  },
  {
   "property": "C63",
   "status": "partial",
   "theorems": [
    "DG.Props.C63_partial",
    "DG.Props.C63_custom_violated",
    "DG.Props.C63_condition_violated"
   ],
   "note": "Proved on the text itself for library gates with numbers as parameters and default register names; parameters of operations made by create_operation and conditions are not exported (violations)."
  },
  {
   "property": "C64",
   "status": "partial",
   "theorems": [
    "DG.Props.C64_program",
    "DG.Props.C64_partial",
    "DG.Props.C64_violated",
    "DG.Props.C64_rotation_violated",
    "DG.Props.C64_identity_violated"
   ],
   "note": "The program is characterised in all cases (C64_program) with numbers in the register; these are the indices in the circuit if there is at most one register of each kind. With several registers qubits share numbers; external gates with parameters and Identity are refused (violations)."
  },
  {
   "property": "C65",
   "status": "partial",
   "theorems": [
    "DG.Props.C65_partial",
    "DG.Props.C65_violated",
    "DG.Props.C65_untouched_violated",
    "DG.Props.C65_conditional_violated",
    "DG.Props.C65_swaps_violated"
   ],
   "note": "For circuits of base-profile gates and measurements with at most one register of each kind: loading succeeds exactly if every measured qubit is below a qubit that a gate acts on (otherwise IndexError), and then gates, indices, parameters and measured pairs are the same, in order. Violated: measurements are joined into one, trailing qubits and bits are lost, conditions are lost, a second use of an external gate cannot be loaded."
  },
  {
   "property": "C66",
   "status": "partial",
   "theorems": [
    "DG.Props.C66_base",
    "DG.Props.C66_measurement",
    "DG.Props.C66_external",
    "DG.Props.C66_distinct",
    "DG.Props.C66_converse",
    "DG.Props.C66_violated"
   ],
   "note": "The tables are inverse; but LLVM renames the external function of a gate that is used again, and that name is not read back (violation)."
  },
  {
   "property": "C67",
   "status": "proved",
   "theorems": [
    "DG.Props.C67_measurements_last"
   ],
   "note": ""
  },
  {
   "property": "C68",
   "status": "partial",
   "theorems": [
    "DG.Props.C68_partial",
    "DG.Props.C68_base",
    "DG.Props.C68_unknown",
    "DG.Props.C68_violated"
   ],
   "note": "Gates are in the order of the calls, up to the first return; measurements come last, joined in order. Programs of the base profile are loaded exactly if every measured qubit is below one that a gate acts on. Violated: a measurement before a gate is moved behind it."
  },
  {
   "property": "C69",
   "status": "partial",
   "theorems": [
    "DG.Props.C69_class",
    "DG.Props.C69_instance",
    "DG.Props.C69_readonly",
    "DG.Props.C69_partial",
    "DG.Props.C69_decorate",
    "DG.Props.C69_undecorated",
    "DG.Props.C69_violated"
   ],
   "note": "Reads on classes and instances, and assignments and deletions on instances, in all heaps and after all histories. Violated: assigning on the class replaces the property."
  },
  {
   "property": "C70",
   "status": "proved",
   "theorems": [
    "DG.Props.C70_operator_sets",
    "DG.Props.C70_operators",
    "DG.Props.C70_probabilities"
   ],
   "note": ""
  },
  {
   "property": "C71",
   "status": "partial",
   "theorems": [
    "DG.Props.C71_user_matrix_partial",
    "DG.Props.C71_fortran_order_violated",
    "DG.Props.C71_real_array_refused"
   ],
   "note": "C-contiguous complex arrays; Fortran order acts as the transpose (violation); real arrays are refused."
  },
  {
   "property": "C72",
   "status": "partial",
   "theorems": [
    "DG.Props.C72_controls_partial",
    "DG.Props.C72_many_controls_violated"
   ],
   "note": "One or two controls; with any other number of controls the operation is silently skipped (violation)."
  },
  {
   "property": "C73",
   "status": "partial",
   "theorems": [
    "DG.Props.C73_exact",
    "DG.Props.C73_blocked_partial",
    "DG.Props.C73_barrier_violated"
   ],
   "note": "Every circuit with a barrier without a condition fails to simulate (violation); C73_exact says with which exception. Only barriers that are blocked by a condition have no effect (C73_blocked_partial)."
  },
  {
   "property": "C74",
   "status": "partial",
   "theorems": [
    "DG.Props.C74_exact",
    "DG.Props.C74_repeated_qubit_violated",
    "DG.Props.C74_ignored_violated",
    "DG.Props.C74_accepted_violated",
    "DG.Props.C74_swap_ignored_violated"
   ],
   "note": "CX(q,q)-like operations are silently simulated (violation); C74_exact says what they do to the amplitudes, and CX(q,q), SWAP(q,q) and CSWAP(c,q,q) are ignored in every circuit. C74_accepted_violated: no library gate is refused because of a repeated qubit, in any circuit; only the check of the norm at the end can fail."
  },
  {
   "property": "C75",
   "status": "proved",
   "theorems": [
    "DG.Props.C75_gates"
   ],
   "note": "Exact arithmetic; 1..30 qubits."
  },
  {
   "property": "C76",
   "status": "proved",
   "theorems": [
    "DG.Props.C76_refines",
    "DG.Props.C76_semantics_unique"
   ],
   "note": "Exact arithmetic; 1..30 qubits; big-endian."
  },
  {
   "property": "C77",
   "status": "proved",
   "theorems": [
    "DG.Props.C77_little_endian_measurement",
    "DG.Props.C77_mixed_measurement",
    "DG.Props.C77_foreign_qubit"
   ],
   "note": ""
  },
  {
   "property": "C78",
   "status": "proved",
   "theorems": [
    "DG.Props.C78_pauli",
    "DG.Props.C78_hadamard",
    "DG.Props.C78_phases",
    "DG.Props.C78_rotations",
    "DG.Props.C78_rotation"
   ],
   "note": "Exact arithmetic."
  },
  {
   "property": "C79",
   "status": "partial",
   "theorems": [
    "DG.Props.C79_partial",
    "DG.Props.C79_repeated_violated"
   ],
   "note": "A gate is defined iff it is used; it is defined once per use (violation)."
  },
  {
   "property": "C80",
   "status": "proved",
   "theorems": [
    "DG.Props.C80_alone",
    "DG.Props.C80_qubits"
   ],
   "note": ""
  },
  {
   "property": "C81",
   "status": "partial",
   "theorems": [
    "DG.Props.C81_simulate",
    "DG.Props.C81_gates",
    "DG.Props.C81_effect",
    "DG.Props.C81_context_violated"
   ],
   "note": "All programs except those that assign to the qubits of operations or call reset(keep_registers=False); gates with big-endian or little-endian order, measurements with big-endian order (they are refused for little-endian order). Violated in open contexts: controlled gates with parameters cannot be simulated there."
  },
  {
   "property": "C82",
   "status": "partial",
   "theorems": [
    "DG.Props.C82_independent",
    "DG.Props.C82_marginal",
    "DG.Props.C82_bitstrings",
    "DG.Props.C82_expval",
    "DG.Props.C82_expected",
    "DG.Props.C82_simulated",
    "DG.Props.C82_errors",
    "DG.Props.C82_index_violated"
   ],
   "note": "The random generator is taken to give independent uniform numbers; averages are exact. Violated: with a single index, as in the signature of expval, TypeError is raised."
  },
  {
   "property": "C83",
   "status": "proved",
   "theorems": [
    "DG.Props.C83_call",
    "DG.Props.C83_succeeds",
    "DG.Props.C83_simulated",
    "DG.Props.C83_measured"
   ],
   "note": "C83_measured: templates with measurements (and no conditions: those are lost, see C28). The simulation is in the open context, where controlled gates with parameters are refused (see C81); C83_call has no such restriction."
  },
  {
   "property": "C84",
   "status": "partial",
   "theorems": [
    "DG.Props.C84_partial",
    "DG.Props.C84_unique",
    "DG.Props.C84_rot",
    "DG.Props.C84_undefined_violated",
    "DG.Props.C84_definition_violated"
   ],
   "note": "All library gates except Rotation and CRotation, without measurements and conditions; register labels that are identifiers if they are used. Violated: rot and crot are not defined in qelib1.inc, the exported definition of rot has no arguments, and there is none for crot. (For conditions see C63.)"
  },
  {
   "property": "C85",
   "status": "partial",
   "theorems": [
    "DG.Props.C85_partial",
    "DG.Props.C85_registers_violated",
    "DG.Props.C85_condition_violated"
   ],
   "note": "Circuits of base profile gates and measurements with at most one register of each kind, compiled without external functions, in which no measurement has a condition (conditions of gates never matter, since gates come first). Violated for several registers (qubits of different registers are identified) and for measurements with conditions (the condition is dropped)."
  },
  {
   "property": "C86",
   "status": "partial",
   "theorems": [
    "DG.Props.C86_partial",
    "DG.Props.C86_order",
    "DG.Props.C86_violated"
   ],
   "note": "Programs in which no gate acts on a qubit after it was measured and some gate acts on the last qubit. C86_order says what happens in general: all gates come before all measurements. Violated: a qubit that is measured and then flipped gives another result."
  },
  {
   "property": "C87",
   "status": "partial",
   "theorems": [
    "DG.Props.C87_partial",
    "DG.Props.C87_base",
    "DG.Props.C87_registers_violated"
   ],
   "note": "Circuits (not parametric ones) with at most one register of each kind, outside of contexts; base-profile programs are loaded exactly if every measured qubit is in the circuit or below one that a gate acts on. Violated for circuits with two quantum registers: qubits are added to the first one, so the indices of the others change while the program is loaded."
  },
  {
   "property": "C88",
   "status": "proved",
   "theorems": [
    "DG.Props.C88_add",
    "DG.Props.C88_block",
    "DG.Props.C88_refused",
    "DG.Props.C88_program",
    "DG.Props.C88_frozen",
    "DG.Props.C88_failed",
    "DG.Props.C88_circuit"
   ],
   "note": "Histories in which no return instruction is erased twice (see C89_twice_violated)."
  },
  {
   "property": "C89",
   "status": "partial",
   "theorems": [
    "DG.Props.C89_recompile",
    "DG.Props.C89_recompile_partial",
    "DG.Props.C89_externals",
    "DG.Props.C89_reset",
    "DG.Props.C89_reset_partial",
    "DG.Props.C89_external_violated",
    "DG.Props.C89_uncompiled_violated",
    "DG.Props.C89_twice_violated"
   ],
   "note": "C89_recompile says what is compiled in all cases; this is what the property says if there are no calls of external functions. After reset() all calls but reset() itself return what they return for a new module. Violated: compile(force=True) drops the calls of external functions; reset() of a module that was not compiled raises AttributeError after removing them; reset() twice erases the return instruction twice."
  },
  {
   "property": "C90",
   "status": "proved",
   "theorems": [
    "DG.Props.C90_error",
    "DG.Props.C90_double",
    "DG.Props.C90_best",
    "DG.Props.C90_exact"
   ],
   "note": "C90_error is for any arithmetic with bounds on its errors, C90_double for doubles (multiplication of complex numbers by the usual formula, no overflow in the model since all numbers are small), C90_best in addition for matrices and norms that are the nearest doubles. That the functions of cmath reach 2^-48 is an assumption."
  },
  {
   "property": "C91",
   "status": "partial",
   "theorems": [
    "DG.Props.C91_unique_partial",
    "DG.Props.C91_before_exhaustion_partial",
    "DG.Props.C91_duplicate_violated",
    "DG.Props.C91_keyError_violated",
    "DG.Props.C91_skipped_violated"
   ],
   "note": "Unique in all schedules in which no two threads make the ids longer at the same time; otherwise two threads can return the same id (violation). KeyError is raised if another thread takes the last id between the test and pop (violation)."
  },
  {
   "property": "C92",
   "status": "partial",
   "theorems": [
    "DG.Props.C92_partial",
    "DG.Props.C92_enter",
    "DG.Props.C92_race_violated",
    "DG.Props.C92_outside_violated"
   ],
   "note": "All schedules in which no thread is interrupted between the test and the assignment in __enter__; otherwise two threads can be inside at once (violation). Operations that a thread creates outside of contexts go to the circuit of another thread's context (violation)."
  },
  {
   "property": "C93",
   "status": "partial",
   "theorems": [
    "DG.Props.C93_contexts_partial",
    "DG.Props.C93_block",
    "DG.Props.C93_qubits_partial",
    "DG.Props.C93_bits_partial",
    "DG.Props.C93_operations_partial",
    "DG.Props.C93_progress",
    "DG.Props.C93_exit_violated",
    "DG.Props.C93_enter_violated",
    "DG.Props.C93_freeze_violated",
    "DG.Props.C93_stale_violated",
    "DG.Props.C93_twice_violated"
   ],
   "note": "Interrupts anywhere but in the middle of __enter__, __exit__ and of calls that add qubits, bits or registers; there the property is violated: an interrupted __enter__ or __exit__ leaves the context active for ever, an interrupted freeze leaves it frozen, an interrupted add_qubit leaves circuit.qubits without the qubit, after which the qubit can be added twice. C93_block and C93_progress hold for interrupts in all calls. As in C25, set bits are excluded where contexts are entered."
  },
  {
   "property": "C94",
   "status": "partial",
   "theorems": [
    "DG.Props.C94_copy_untouched",
    "DG.Props.C94_copy_partial",
    "DG.Props.C94_copy_exception",
    "DG.Props.C94_attribute",
    "DG.Props.C94_inplace",
    "DG.Props.C94_simulate_partial",
    "DG.Props.C94_inplace_violated",
    "DG.Props.C94_half_violated",
    "DG.Props.C94_condition_violated",
    "DG.Props.C94_frozen_violated"
   ],
   "note": "Results and exceptions are characterised in all cases. Violated: conditions of evaluated operations refer to copies of bits that are not those of the new circuit; an exception in place leaves the first operations evaluated; a circuit evaluated in a freeze block has a frozen context for ever; as in C31 the value 0 and empty lists count as missing."
  },
  {
   "property": "C95",
   "status": "partial",
   "theorems": [
    "DG.Props.C95_exact",
    "DG.Props.C95_refl",
    "DG.Props.C95_symm",
    "DG.Props.C95_trans_partial",
    "DG.Props.C95_meaning_partial",
    "DG.Props.C95_interchange_partial",
    "DG.Props.C95_symm_violated",
    "DG.Props.C95_trans_violated",
    "DG.Props.C95_variables_violated",
    "DG.Props.C95_condition_violated"
   ],
   "note": "What == does is proved for all operations (C95_exact). Interchangeable: circuits of library gates with numbers as parameters and without conditions. Violations: AttributeError if only the left one has parameters; not transitive with variables; variables are compared by name only; conditions and the bits of measurements are ignored."
  },
  {
   "property": "C96",
   "status": "partial",
   "theorems": [
    "DG.Props.C96_assign",
    "DG.Props.C96_partial",
    "DG.Props.C96_delete_violated",
    "DG.Props.C96_list_violated"
   ],
   "note": "All histories without deletions of the class attribute and without own lists of locked attributes, both of which replace the matrix (violations, for all classes)."
  },
  {
   "property": "C97",
   "status": "partial",
   "theorems": [
    "DG.Props.C97_equivalence",
    "DG.Props.C97_call_partial",
    "DG.Props.C97_violated"
   ],
   "note": "Equivalence relation for all instructions; same call for instructions of the base set and measurements that can be executed. Violations: the order of numbers and qubits, and the functions of external instructions, are ignored."
  },
  {
   "property": "C98",
   "status": "partial",
   "theorems": [
    "DG.Props.C98_filled",
    "DG.Props.C98_partial",
    "DG.Props.C98_measured",
    "DG.Props.C98_assigned_violated",
    "DG.Props.C98_undeclared_violated",
    "DG.Props.C98_violated"
   ],
   "note": "Parameters, and bits against num_qubits: all histories (C98_filled). num_qubits against qubits, and control and target: histories without assignments to op.qubits, classes that declare the number of control qubits. Both restrictions are needed (violations, the first for all assignments of other qubits to controlled operations)."
  },
  {
   "property": "C99",
   "status": "proved",
   "theorems": [
    "DG.Props.C99_distribution",
    "DG.Props.C99_unique",
    "DG.Props.C99_append",
    "DG.Props.C99_total",
    "DG.Props.C99_program"
   ],
   "note": "Uniform random numbers in [0, 1), independent (the volume of the set of random numbers); C99_program is for circuits built by programs, with the restrictions of C81 on open contexts and at most 30 qubits."
  },
  {
   "property": "C100",
   "status": "partial",
   "theorems": [
    "DG.Props.C100_reach",
    "DG.Props.C100_kept_partial",
    "DG.Props.C100_new",
    "DG.Props.C100_context",
    "DG.Props.C100_violated"
   ],
   "note": "All QIR programs and all outcomes. The active context: programs that set no bits (assigning a bit can make entering a context fail half-way, C25). Violated: a load that fails leaves the gates and qubits that were loaded before the failing call in the circuit."
  },
  {
   "property": "C101",
   "status": "partial",
   "theorems": [
    "DG.Props.C101_reach",
    "DG.Props.C101_kept",
    "DG.Props.C101_set",
    "DG.Props.C101_failed_partial",
    "DG.Props.C101_valid_partial",
    "DG.Props.C101_size",
    "DG.Props.C101_simulate",
    "DG.Props.C101_violated",
    "DG.Props.C101_stale_violated"
   ],
   "note": "All programs and all outcomes. Violated: a simulation that raises keeps the bits that were measured before the exception (for all circuits with an operation without qubits), and after `add_qubit` the state is still that of the former qubits. The norm is proved to be close to 1 (the tolerance of the code); state vectors for C101_simulate."
  },
  {
   "property": "C102",
   "status": "partial",
   "theorems": [
    "DG.Props.C102_gate",
    "DG.Props.C102_precompiled",
    "DG.Props.C102_norm",
    "DG.Props.C102_compiles",
    "DG.Props.C102_names_violated"
   ],
   "note": "All shapes with at most three targets, or with a precompiled matrix. Violated: with four or more targets and the matrix passed at run time the generated C code declares the variables of the entries (1, 11) and (11, 1) under the same name and does not compile."
  },
  {
   "property": "C103",
   "status": "partial",
   "theorems": [
    "DG.Props.C103_total",
    "DG.Props.C103_accepts",
    "DG.Props.C103_rejects",
    "DG.Props.C103_select_partial",
    "DG.Props.C103_exact",
    "DG.Props.C103_used",
    "DG.Props.C103_controls_violated"
   ],
   "note": "All sets, states and random numbers, without controls. Violated for operator sets with controls: the probabilities do not sum to 1, the resulting state is never normalised unless the controls are 1 with certainty, and the function raises if they are never 1. Sets within the tolerance: the probabilities sum to 1 up to 10^-5 + 2^k 10^-8."
  },
  {
   "property": "C104",
   "status": "partial",
   "theorems": [
    "DG.Props.C104_endian",
    "DG.Props.C104_density_partial",
    "DG.Props.C104_measured_violated"
   ],
   "note": "Circuits of gates, also with conditions, in all histories (density matrices: up to 15 qubits, big-endian; for the other order see C50). Violated: the density-matrix simulation raises TypeError at the first measurement, for all circuits with a measurement after gates, and leaves the array of twice as many qubits in the measurement."
  },
  {
   "property": "C105",
   "status": "partial",
   "theorems": [
    "DG.Props.C105_inline_partial",
    "DG.Props.C105_density_partial",
    "DG.Props.C105_conditions_violated",
    "DG.Props.C105_several_violated",
    "DG.Props.C105_several_error",
    "DG.Props.C105_empty_violated",
    "DG.Props.C105_grown_violated"
   ],
   "note": "Operations made from circuits with one qubit and at least one gate, each variable used once and in order; anything else in the circuit around them. Violated: operations on several qubits raise (AttributeError instead of the intended ValueError), for all circuits; so do operations made from empty circuits; conditions inside of the circuit are ignored, for all circuits; if the circuit gets another qubit after the operation was made, the kernel silently takes the first row of the larger matrix for the whole matrix."
  },
  {
   "property": "C106",
   "status": "proved",
   "theorems": [
    "DG.Props.C106_replace",
    "DG.Props.C106_density",
    "DG.Props.C106_phase",
    "DG.Props.C106_unitary"
   ],
   "note": "Exact arithmetic; up to 30 qubits (density matrices: 15). C106_phase: the rest of the circuit consists of gates and measurements."
  },
  {
   "property": "C107",
   "status": "partial",
   "theorems": [
    "DG.Props.C107_decomposition",
    "DG.Props.C107_none",
    "DG.Props.C107_exists",
    "DG.Props.C107_reads_partial",
    "DG.Props.C107_alias_violated",
    "DG.Props.C107_emptied_violated"
   ],
   "note": "Exact arithmetic; up to 30 qubits (density matrices: 15). Violated: `decomposition` returns the list of the class itself, so that a program that changes the list it got changes the decomposition of the class; proved for programs that only read."
  },
  {
   "property": "C108",
   "status": "proved",
   "theorems": [
    "DG.Props.C108_unused",
    "DG.Props.C108_density"
   ],
   "note": "Exact arithmetic; state vectors in big-endian order; 1 to 30 qubits (density matrices of circuits without measurements: 1 to 15)."
  },
  {
   "property": "C109",
   "status": "proved",
   "theorems": [
    "DG.Props.C109_independent",
    "DG.Props.C109_density"
   ],
   "note": "Exact arithmetic; state vectors in big-endian order; 1 to 30 qubits (density matrices of circuits without measurements: 1 to 15)."
  },
  {
   "property": "C110",
   "status": "partial",
   "theorems": [
    "DG.Props.C110_independent",
    "DG.Props.C110_ends",
    "DG.Props.C110_frame",
    "DG.Props.C110_same_violated"
   ],
   "note": "All schedules of simulations of different circuits that share no measurement, and no bit that one of them sets. Violated if threads simulate the same circuit: the simulation can end with a state that no simulation of the circuit gives on its own, whatever the random numbers are."
  },
  {
   "property": "C111",
   "status": "partial",
   "theorems": [
    "DG.Props.C111_state",
    "DG.Props.C111_again_partial",
    "DG.Props.C111_torn_violated",
    "DG.Props.C111_again_violated"
   ],
   "note": "Proved: at every moment the states of all circuits are unchanged, only bits and records of the measurements of the circuit have changed, and a repeated simulation gives the same state and sets bits to the same values if conditions depend only on bits set before. Violated: the bits of measurements are set although the state is not (for every circuit), and conditions on bits that were not set before see them."
  },
  {
   "property": "C112",
   "status": "proved",
   "theorems": [
    "DG.Props.C112_defer",
    "DG.Props.C112_chance",
    "DG.Props.C112_no_signal"
   ],
   "note": "Exact arithmetic; state vectors in big-endian order; 1 to 30 qubits. C112_defer: behind gates, for every stream of random numbers. C112_chance: behind gates and measurements, probabilities (independent uniform random numbers); the operations must not set bits that the measurement sets or depends on."
  },
  {
   "property": "C113",
   "status": "proved",
   "theorems": [
    "DG.Props.C113_same",
    "DG.Props.C113_phase",
    "DG.Props.C113_phase_density"
   ],
   "note": "Exact arithmetic; qubits of the circuit without repetition, at most 30 (state vectors) or 15 (density matrices)."
  },
  {
   "property": "C114",
   "status": "proved",
   "theorems": [
    "DG.Props.C114_undo",
    "DG.Props.C114_zero",
    "DG.Props.C114_exists"
   ],
   "note": "Exact arithmetic; qubits of the circuit without repetition, at most 30 (state vectors) or 15 (density matrices)."
  },
  {
   "property": "C115",
   "status": "proved",
   "theorems": [
    "DG.Props.C115_classical",
    "DG.Props.C115_random",
    "DG.Props.C115_density"
   ],
   "note": "Exact arithmetic; state vectors in big-endian order; 1 to 30 qubits (density matrices of circuits without measurements: 1 to 15)."
  },
  {
   "property": "C116",
   "status": "partial",
   "theorems": [
    "DG.Props.C116_circuit_partial",
    "DG.Props.C116_circuit_reads",
    "DG.Props.C116_circuit_violated",
    "DG.Props.C116_qubit",
    "DG.Props.C116_bit",
    "DG.Props.C116_ids",
    "DG.Props.C116_variable_partial",
    "DG.Props.C116_variable_violated",
    "DG.Props.C116_operation",
    "DG.Props.C116_register",
    "DG.Props.C116_measurement_partial",
    "DG.Props.C116_measurement_violated"
   ],
   "note": "What Python prints for labels and numbers is given; labels without >, parameters without comma and equals sign. Violated: circuits with set bits may not be printable and circuits after reset(keep_registers=False) count old qubits; a variable with value 0 prints like one without value; conditions of measurements are not shown."
  },
  {
   "property": "C117",
   "status": "proved",
   "theorems": [
    "DG.Props.C117_compose",
    "DG.Props.C117_exchange",
    "DG.Props.C117_same",
    "DG.Props.C117_phase",
    "DG.Props.C117_undo"
   ],
   "note": "Exact arithmetic; qubits without repetition; operations that build_unitary handles (single-qubit gates and non-parametric controlled gates; C117_exchange also says what happens with other operations around)."
  },
  {
   "property": "C118",
   "status": "proved",
   "theorems": [
    "DG.Props.C118_density"
   ],
   "note": "The matrix is read from the row-major array by rows; Hermitian, trace 1, positive and idempotent."
  },
  {
   "property": "C119",
   "status": "proved",
   "theorems": [
    "DG.Props.C119_amplitudes",
    "DG.Props.C119_phases",
    "DG.Props.C119_measured"
   ],
   "note": "Exact arithmetic; big-endian order; 1 to 30 qubits. C119_measured: gates, classical gates and one final measurement of any qubits; independent uniform random numbers."
  },
  {
   "property": "C120",
   "status": "partial",
   "theorems": [
    "DG.Props.C120_calls_partial",
    "DG.Props.C120_reset",
    "DG.Props.C120_reuse_violated",
    "DG.Props.C120_negative_length_violated",
    "DG.Props.C120_empty_id_violated",
    "DG.Props.C120_negative_batch_violated"
   ],
   "note": "Proved for any calls of next and refresh after a reset with non-negative arguments in any state. Violated: ids repeat after a reset; a refused reset with negative length changes length and batch size, after which the empty id can be returned; a negative batch size is accepted and every next raises KeyError."
  },
  {
   "property": "C121",
   "status": "partial",
   "theorems": [
    "DG.Props.C121_direct_partial",
    "DG.Props.C121_additions",
    "DG.Props.C121_freeze",
    "DG.Props.C121_flat_add",
    "DG.Props.C121_stale_violated",
    "DG.Props.C121_twice_violated",
    "DG.Props.C121_flat_add_violated"
   ],
   "note": "For qubits; histories in which no qubit is added that is in a register already. Violated: after a read circuit.qubits does not show a qubit added to a register itself; add_qubit then accepts it for a second register, after which circuit.qubits always raises ValueError; circuit.qubits.add works on a circuit without registers."
  },
  {
   "property": "C122",
   "status": "partial",
   "theorems": [
    "DG.Props.C122_direct_partial",
    "DG.Props.C122_effect",
    "DG.Props.C122_lists",
    "DG.Props.C122_locked_violated",
    "DG.Props.C122_foreign_violated"
   ],
   "note": "Histories in which only operations on qubits of the circuit are put in directly. Violated: the list of a locked circuit can be changed, and operations on other qubits are accepted, for all circuits and operations."
  },
  {
   "property": "C123",
   "status": "proved",
   "theorems": [
    "DG.Props.C123_frame",
    "DG.Props.C123_program",
    "DG.Props.C123_operations",
    "DG.Props.C123_bits",
    "DG.Props.C123_variables",
    "DG.Props.C123_qubits",
    "DG.Props.C123_template",
    "DG.Props.C123_eval",
    "DG.Props.C123_conditional",
    "DG.Props.C123_lock",
    "DG.Props.C123_unlock",
    "DG.Props.C123_variable",
    "DG.Props.C123_bit",
    "DG.Props.C123_measure",
    "DG.Props.C123_set_qubits"
   ],
   "note": "Every call in every state, and whole programs with contexts, for what a user sees of each circuit (all attributes but the caches), and for all attributes of operations, bits, variables and qubits; exact effects of the small setters."
  },
  {
   "property": "C124",
   "status": "partial",
   "theorems": [
    "DG.Props.C124_refused_partial",
    "DG.Props.C124_add_qubit_partial",
    "DG.Props.C124_add_bit_partial",
    "DG.Props.C124_extend_partial",
    "DG.Props.C124_add_qubit_any_partial",
    "DG.Props.C124_add_bit_any_partial",
    "DG.Props.C124_reset_partial",
    "DG.Props.C124_template_partial",
    "DG.Props.C124_parametric_template_partial",
    "DG.Props.C124_template_violated",
    "DG.Props.C124_add_qubit_violated",
    "DG.Props.C124_extend_violated",
    "DG.Props.C124_reset_violated",
    "DG.Props.C124_append_violated"
   ],
   "note": "All circuits, in all states, for all calls but add_qubit and add_bit without the label of an existing register, extend, calls of templates and reset(keep_registers=True); a failing extend or template call changes the operations only, and only by appending; a failing add_qubit or add_bit leaves at most one empty register, and a failing reset has removed the operations and nothing else. Violated: add_qubit with a qubit that is there already creates the register first, extend keeps the operations before the failing one (as do templates, C28), reset has removed the operations when it raises, and append evaluates the operation that it then refuses."
  }
 ]
}