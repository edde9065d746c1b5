{"id": "C01", "title": "meas_target resolves to the right measurement record", "statement": "After any history of add_meas calls on a model, meas_target(q, -k) with 1 <= k <= (number of measurements of q) is the rec target whose lookback, counted from the end of the global record, is exactly the k-th most recent measurement of q.", "quantifier": "every qubit set, every finite interleaving of add_meas calls, every qubit q and every valid k", "why_tests_cant": "the number of interleavings is unbounded; a wrong offset can hide for the histories a test happens to use", "anchors": ["surface_sim/models/model.py:Model.add_meas", "surface_sim/models/model.py:Model.meas_target", "surface_sim/models/model.py:Model.new_circuit"]}
{"id": "C02", "title": "meas_target never yields a target of another qubit or outside the record", "statement": "Whenever meas_target(q, i) returns, the returned lookback lies in [-num_meas, -1] and the record entry it points at is a measurement of q; otherwise it raises. In particular -len-1 raises ValueError; +len raises (IndexError rather than ValueError).", "quantifier": "every history of add_meas calls, every label q and every integer i (negative, zero or positive)", "why_tests_cant": "the index argument is an unbounded integer and the history is unbounded", "anchors": ["surface_sim/models/model.py:Model.meas_target"]}
{"id": "C03", "title": "new_circuit isolates consecutive circuits", "statement": "After new_circuit(), Model and Detectors behave exactly as freshly constructed objects: any later sequence of calls returns the same circuits, targets and errors regardless of what was done before, including after an exception in the middle of building.", "quantifier": "every prior history (including aborted ones) and every later sequence of operations", "why_tests_cant": "requires comparing behaviour after all possible histories", "anchors": ["surface_sim/models/model.py:Model.new_circuit", "surface_sim/detectors/detectors.py:Detectors.new_circuit"]}
{"id": "C04", "title": "Setup.param resolution order", "statement": "param(name, *qubits) returns the value given for exactly these qubits if there is one, otherwise the global value, otherwise the global value of the parent parameter, otherwise KeyError; a value that is the name of a variable parameter is replaced by the variable's current value and raises ValueError while unset.", "quantifier": "every setup, every parameter name and every qubit tuple", "why_tests_cant": "number of setups and key combinations is unbounded", "anchors": ["surface_sim/setup/setup.py:Setup.param", "surface_sim/setup/setup.py:Setup._eval_param_val", "surface_sim/setup/setup.py:Setup.PARENTS"]}
{"id": "C05", "title": "Setup.to_dict round trip", "statement": "Setup(s.to_dict()) answers every param/free_params/gate_duration query as s does, for setups whose qubit keys have one or two qubits; variable values set with set_var_param are not stored.", "quantifier": "every setup built through the public API with 1- and 2-qubit keys and every query", "why_tests_cant": "a test can only compare finitely many setups and queries", "anchors": ["surface_sim/setup/setup.py:Setup.to_dict", "surface_sim/setup/setup.py:Setup._load_setup", "surface_sim/setup/setup.py:Setup.__init__"]}
{"id": "C06", "title": "No free parameters means no unset-variable error", "statement": "If free_params is empty then param never raises the 'not specified' ValueError, and after set_var_param(v, x) every parameter referring to v evaluates to x while parameters referring to other variables are unchanged.", "quantifier": "every setup, every sequence of set_var_param/set_param calls and every query", "why_tests_cant": "quantifies over all update histories", "anchors": ["surface_sim/setup/setup.py:Setup.free_params", "surface_sim/setup/setup.py:Setup.set_var_param", "surface_sim/setup/setup.py:Setup.param"]}
{"id": "C07", "title": "A Layout that loads has unique labels and a bijective qubit index", "statement": "If Layout(setup) succeeds then every qubit label occurs once, qubit_inds is injective, either all indices were given or none were (then they are 0..n-1 in order), and logical labels match log_x and log_z; every violation raises ValueError.", "quantifier": "every setup dictionary", "why_tests_cant": "the input space of dictionaries is unbounded", "anchors": ["surface_sim/layouts/layout.py:Layout.__init__", "surface_sim/layouts/layout.py:Layout._load_layout"]}
{"id": "C08", "title": "Layout.to_dict round trip", "statement": "Layout(l.to_dict()) has the same qubits in the same order, the same indices, parameters other than neighbors, edges with the same directions, logical operators and metadata as l, and to_dict is idempotent from then on.", "quantifier": "every layout obtainable from the public constructor and set_param", "why_tests_cant": "round trip for every layout needs an argument over all graphs", "anchors": ["surface_sim/layouts/layout.py:Layout.to_dict", "surface_sim/layouts/layout.py:Layout.__copy__", "surface_sim/layouts/layout.py:Layout._load_layout"]}
{"id": "C09", "title": "get_qubits returns exactly the matching qubits in layout order", "statement": "get_qubits(**conds) is the sublist of all qubits whose attributes equal every condition, in definition order; data and ancilla lists partition the qubits; it raises KeyError when an attribute is missing (before a failing earlier condition).", "quantifier": "every layout and every set of conditions", "why_tests_cant": "unbounded layouts and conditions", "anchors": ["surface_sim/layouts/layout.py:Layout.get_qubits", "surface_sim/layouts/layout.py:valid_attrs"]}
{"id": "C10", "title": "check_overlap_layouts accepts exactly pairwise disjoint layouts", "statement": "check_overlap_layouts(*layouts) returns without error iff every two of the given layouts (by position) share no qubit label, index, coordinate or logical label.", "quantifier": "every finite sequence of layouts", "why_tests_cant": "unbounded number of layouts; a missed pair needs three or more layouts in the right order", "anchors": ["surface_sim/layouts/operations.py:check_overlap_layouts", "surface_sim/layouts/operations.py:check_overlap_layout_pair"]}
{"id": "C11", "title": "Rotated layouts: labels, indices and coordinates are unique and consecutive", "statement": "For every distance pair the layout generator succeeds and returns dx*dz data qubits and dx*dz-1 ancillas with pairwise distinct labels, indices init_ind..init_ind+2*dx*dz-2, and pairwise distinct coordinates.", "quantifier": "all dx, dz >= 1, all initial ids, initial index and initial point", "why_tests_cant": "tests cover a few distances; counting boundary ancillas depends on parity of both distances", "anchors": ["surface_sim/layouts/library/rot_surface_codes.py:rot_surface_code_rectangle", "surface_sim/layouts/library/rot_surface_codes.py:rot_surface_code"]}
{"id": "C12", "title": "Rotated layouts: neighbour relation is symmetric with opposite directions", "statement": "In a generated rotated layout, q has neighbour p in direction d iff p has neighbour q in the opposite direction; edges only connect ancillas with data qubits at diagonal distance one; every ancilla has 2 or 4 neighbours when dx,dz >= 2.", "quantifier": "all dx, dz, all initial ids and all qubit pairs", "why_tests_cant": "must hold at every boundary of every size", "anchors": ["surface_sim/layouts/library/rot_surface_codes.py:rot_surface_code_rectangle", "surface_sim/layouts/library/rot_surface_codes.py:shift_direction"]}
{"id": "C13", "title": "Rotated code: stabilizer generators commute", "statement": "Every X-type and every Z-type ancilla of a generated rotated layout share an even number of data-qubit neighbours.", "quantifier": "all dx, dz >= 1 and every pair of ancillas", "why_tests_cant": "infinitely many sizes", "anchors": ["surface_sim/layouts/library/rot_surface_codes.py:rot_surface_code_rectangle", "surface_sim/layouts/layout.py:Layout.get_neighbors"]}
{"id": "C14", "title": "Rotated code: logical operators are valid", "statement": "log_z overlaps every X-type stabilizer in an even number of data qubits, log_x overlaps every Z-type stabilizer in an even number, and log_x and log_z overlap in an odd number of data qubits; their weights are distance_z and distance_x.", "quantifier": "all dx, dz >= 1", "why_tests_cant": "infinitely many sizes", "anchors": ["surface_sim/layouts/library/rot_surface_codes.py:rot_surface_code_rectangle"]}
{"id": "C15", "title": "Rotated code: distance_z and distance_x are the true code distances", "statement": "Every set of Z operators that commutes with all X-type stabilizers and anticommutes with log_x has at least distance_z elements, and every set of X operators commuting with all Z-type stabilizers and anticommuting with log_z has at least distance_x elements; both bounds are attained.", "quantifier": "all dx, dz >= 1 and every subset of data qubits", "why_tests_cant": "exponentially many operators for each of infinitely many sizes", "anchors": ["surface_sim/layouts/library/rot_surface_codes.py:rot_surface_code_rectangle"]}
{"id": "C16", "title": "Unrotated layouts: labels, indices and coordinates are unique and consecutive", "statement": "For every distance pair the generator succeeds, returning dx*dz+(dx-1)*(dz-1) data qubits and one ancilla less, with pairwise distinct labels, consecutive indices and distinct coordinates.", "quantifier": "all dx, dz >= 1, all initial ids, index and point", "why_tests_cant": "tests cover a few distances", "anchors": ["surface_sim/layouts/library/unrot_surface_codes.py:unrot_surface_code_rectangle", "surface_sim/layouts/library/unrot_surface_codes.py:get_data_index"]}
{"id": "C17", "title": "Unrotated layouts: symmetric neighbours, commuting stabilizers, valid logicals", "statement": "In a generated unrotated layout neighbours are symmetric with opposite directions, X- and Z-type stabilizers overlap evenly, and log_x/log_z commute with the stabilizers and anticommute with each other.", "quantifier": "all dx, dz >= 1 and every pair of ancillas", "why_tests_cant": "infinitely many sizes", "anchors": ["surface_sim/layouts/library/unrot_surface_codes.py:unrot_surface_code_rectangle"]}
{"id": "C18", "title": "Unrotated code: distance_z and distance_x are the true code distances", "statement": "Same as C15 for unrotated layouts.", "quantifier": "all dx, dz >= 1 and every subset of data qubits", "why_tests_cant": "exponentially many operators for each of infinitely many sizes", "anchors": ["surface_sim/layouts/library/unrot_surface_codes.py:unrot_surface_code_rectangle"]}
{"id": "C19", "title": "merge_tick_blocks keeps every block's instructions and their order", "statement": "merge_tick_blocks(*blocks) contains exactly the instructions of all blocks (as a multiset), the instructions of each block keep their relative order, and it raises iff the blocks have different lengths.", "quantifier": "every finite family of blocks", "why_tests_cant": "unbounded number and length of blocks and signatures", "anchors": ["surface_sim/util/circuit_operations.py:merge_tick_blocks"]}
{"id": "C20", "title": "merge_tick_blocks and the measurement record", "statement": "The order of measurements in the merged circuit equals the order in which the model recorded them (block after block), so that meas_target stays valid after merging.", "quantifier": "every finite family of tick blocks produced by a model", "why_tests_cant": "depends on per-qubit noise parameters and on how many instructions each block has", "anchors": ["surface_sim/util/circuit_operations.py:merge_tick_blocks", "surface_sim/util/circuit_operations.py:merge_qec_rounds", "surface_sim/models/model.py:Model.meas_target"]}
{"id": "C21", "title": "merge_circuits keeps TICK structure, instructions and measurement positions", "statement": "merge_circuits returns a circuit with the same number of TICKs whose k-th block is a permutation of the k-th blocks of the inputs; it raises on different TICK numbers, and with check_meas on measurements in more than one block per circuit or in different blocks.", "quantifier": "every finite family of circuits", "why_tests_cant": "unbounded circuits", "anchors": ["surface_sim/util/circuit_operations.py:merge_circuits"]}
{"id": "C22", "title": "remove_pairs preserves the XOR", "statement": "remove_pairs(l) contains an element with the same multiplicity as l if that is odd and not at all if it is even, so the XOR over the list is unchanged for every assignment of bits.", "quantifier": "every list and every bit assignment", "why_tests_cant": "all lists", "anchors": ["surface_sim/detectors/detectors.py:remove_pairs"]}
{"id": "C23", "title": "Detector generators stay invertible", "statement": "After any sequence of new_circuit, activate, deactivate, update, update_from_dict and build calls the current and previous generator matrices are invertible mod 2, and update rejects exactly the matrices singular mod 2 and leaves the state unchanged when it raises.", "quantifier": "every history of calls", "why_tests_cant": "unbounded histories", "anchors": ["surface_sim/detectors/detectors.py:Detectors.update", "surface_sim/detectors/detectors.py:Detectors.update_from_dict", "surface_sim/detectors/detectors.py:Detectors.deactivate_detectors"]}
{"id": "C24", "title": "Detectors are deterministic across logical gates", "statement": "If between consecutive QEC rounds the true syndromes evolve as s' = U s for the declared gate updates, every detector emitted in the 'pre-gate' and 'post-gate' frames from the second round on XORs to 0 without noise, with and without ancilla reset.", "quantifier": "every number of ancillas, every sequence of rounds and gates, every syndrome history", "why_tests_cant": "unbounded sequences of gates; matrices of any size", "anchors": ["surface_sim/detectors/detectors.py:Detectors.build_from_anc", "surface_sim/detectors/detectors.py:_get_ancilla_meas_for_detectors", "surface_sim/detectors/detectors.py:Detectors.update"]}
{"id": "C25", "title": "One detector per ancilla per round with the right coordinates", "statement": "build_from_anc emits exactly one DETECTOR per ancilla label in order, with coordinates (*anc_coords, r) where r counts build_from_anc calls since new_circuit (0-based); build_from_data emits exactly one per reconstructable ancilla at r-1/2 and does not advance r.", "quantifier": "every history of calls and every selection of ancillas", "why_tests_cant": "unbounded histories", "anchors": ["surface_sim/detectors/detectors.py:Detectors.build_from_anc", "surface_sim/detectors/detectors.py:Detectors.build_from_data"]}
{"id": "C26", "title": "Inactive or unselected ancillas give empty detectors", "statement": "A detector of an ancilla that is inactive or not in anc_qubits has no targets, and detectors of other ancillas do not change when the selection changes.", "quantifier": "every history and every selection", "why_tests_cant": "unbounded histories and selections", "anchors": ["surface_sim/detectors/detectors.py:Detectors.build_from_anc", "surface_sim/detectors/detectors.py:Detectors.build_from_data", "surface_sim/detectors/detectors.py:Detectors.activate_detectors"]}
{"id": "C27", "title": "Logical-measurement detectors compare data parity with last syndrome", "statement": "In build_from_data (no gates) the detector of ancilla a consists of the last measurements of the data qubits in its support and the last (with reset) or last two (without reset) measurements of a, if that many rounds exist.", "quantifier": "every number of rounds, every support and every selection", "why_tests_cant": "unbounded rounds/supports", "anchors": ["surface_sim/detectors/detectors.py:Detectors.build_from_data", "surface_sim/detectors/detectors.py:get_support_from_adj_matrix"]}
{"id": "C28", "title": "Every TICK block uses each qubit exactly once", "statement": "In every circuit block yielded by qec_round, init_qubits, log_meas, log_x, log_z, log_trans_*, merge_qec_rounds and merge_log_meas each qubit of the layout(s) appears in exactly one gate/idle/measure/reset operation between TICKs (noise excluded), and so it does in every time step of the whole memory and repeated-gate experiments, apart from the steps between blocks that have no operation.", "quantifier": "all generated layouts of every distance and all blocks, any number of merged layouts, all numbers of rounds and gates", "why_tests_cant": "infinitely many layouts", "anchors": ["surface_sim/circuit_blocks/rot_surface_code_css.py:qec_round_iterator", "surface_sim/circuit_blocks/unrot_surface_code_css.py:qec_round_iterator", "surface_sim/circuit_blocks/rot_surface_code_css_pipelined.py:qec_round_iterator", "surface_sim/circuit_blocks/rot_surface_code_xzzx.py:qec_round_iterator", "surface_sim/circuit_blocks/rot_surface_code_xzzx_google.py:coherent_qec_part", "surface_sim/circuit_blocks/util.py:init_qubits_iterator"]}
{"id": "C29", "title": "The CSS QEC round measures exactly its stabilizers", "statement": "For any Pauli error on the data qubits before a noiseless rotated/unrotated CSS QEC round (including pipelined), the outcome of each ancilla flips iff the error anticommutes with the stabilizer given by its neighbours and type, independently of all other ancillas and of measurement randomness; without reset the flip is added to the ancilla's previous one.", "quantifier": "all distances, all data-qubit errors, all random outcomes, both anc_reset values", "why_tests_cant": "exponentially many errors and infinitely many sizes; wrong interaction order shows up only as randomness", "anchors": ["surface_sim/circuit_blocks/rot_surface_code_css.py:qec_round_iterator", "surface_sim/circuit_blocks/unrot_surface_code_css.py:qec_round_iterator", "surface_sim/circuit_blocks/rot_surface_code_css_pipelined.py:qec_round_iterator"]}
{"id": "C30", "title": "The QEC round leaves the encoded state alone", "statement": "A noiseless QEC round changes the Pauli frame of the data qubits only by products of stabilizers, so all later syndromes and logical outcomes are unaffected.", "quantifier": "all distances, frames and random outcomes", "why_tests_cant": "as C29", "anchors": ["surface_sim/circuit_blocks/rot_surface_code_css.py:qec_round_iterator", "surface_sim/circuit_blocks/unrot_surface_code_css.py:qec_round_iterator", "surface_sim/circuit_blocks/rot_surface_code_css_pipelined.py:qec_round_iterator"]}
{"id": "C31", "title": "The XZZX QEC rounds measure their stabilizers", "statement": "Same as C29 for the xzzx, pipelined xzzx and Google xzzx rounds with the XZZX stabilizers. (The plain xzzx round re-applies the CZ gates of step e in step g and violates this.)", "quantifier": "all distances, errors and random outcomes", "why_tests_cant": "as C29; existing tests only look at instruction names and tick structure", "anchors": ["surface_sim/circuit_blocks/rot_surface_code_xzzx.py:qec_round_iterator", "surface_sim/circuit_blocks/rot_surface_code_xzzx_pipelined.py:qec_round_iterator", "surface_sim/circuit_blocks/rot_surface_code_xzzx_google.py:qec_round"]}
{"id": "C32", "title": "Noiseless memory experiments have deterministic detectors and observables", "statement": "The circuit returned by memory_experiment with gauge_detectors=False has, without noise, the same value for every detector and for the observable in all executions.", "quantifier": "all distances, numbers of rounds, bases, initial bitstrings, frames, anc_reset values, detector selections and all random outcomes", "why_tests_cant": "unbounded circuits; a test runs a few sizes", "anchors": ["surface_sim/experiments/rot_surface_code_css.py:memory_experiment", "surface_sim/experiments/unrot_surface_code_css.py:memory_experiment", "surface_sim/experiments/rot_surface_code_css_pipelined.py:memory_experiment", "surface_sim/experiments/rot_surface_code_xzzx_google.py:memory_experiment", "surface_sim/experiments/rot_surface_code_xzzx.py:memory_experiment"]}
{"id": "C33", "title": "Measurement record layout assumed by sample_memory_experiment", "statement": "A memory experiment with r rounds measures r*num_anc ancilla outcomes followed by num_data data outcomes, and outcome (round i, ancilla j) is the (i*num_anc+j)-th, data j is the (r*num_anc+j)-th, in get_qubits order, so that the reshape in sample_memory_experiment labels every bit correctly.", "quantifier": "all layouts, rounds and models", "why_tests_cant": "unbounded rounds and layouts", "anchors": ["surface_sim/util/data_gen.py:sample_memory_experiment", "surface_sim/experiments/rot_surface_code_css.py:memory_experiment", "surface_sim/circuit_blocks/util.py:log_meas"]}
{"id": "C34", "title": "Gate methods of the noise models implement the named gate", "statement": "Removing noise channels from the circuit returned by any gate, reset or measurement method of any noise model leaves exactly the named stim operation on the given qubits in the given order, and the number of add_meas records equals the number of measurement targets, in the same order.", "quantifier": "all models, methods, qubit lists and parameter setups", "why_tests_cant": "unbounded qubit lists and parameter values", "anchors": ["surface_sim/models/library.py:CircuitNoiseModel", "surface_sim/models/library.py:BiasedCircuitNoiseModel", "surface_sim/models/library.py:DecoherenceNoiseModel", "surface_sim/models/library.py:ExperimentalNoiseModel", "surface_sim/models/library.py:NoiselessModel", "surface_sim/models/library.py:PhenomenologicalNoiseModel"]}
{"id": "C35", "title": "Each noise channel sits on the operated qubits with their own parameters", "statement": "In the circuits of the gate methods every noise channel acts on a qubit (pair) of the gate with the probability param(name, qubit(s)) of that qubit (pair), exactly once per qubit (pair).", "quantifier": "all qubit lists and setups", "why_tests_cant": "unbounded", "anchors": ["surface_sim/models/library.py:CircuitNoiseModel", "surface_sim/models/library.py:ExperimentalNoiseModel"]}
{"id": "C36", "title": "biased_prefactors is a probability distribution with the documented bias", "statement": "biased_prefactors(P, f, n) has 4^n-1 entries that sum to 1, are non-negative for f >= 0, f=1 gives the uniform distribution, f=0 forbids biased operators, each biased entry is f times each unbiased one; the number of biased operators is num_biased_ops(n)=4^n-3^n.", "quantifier": "all n >= 1, all Paulis and all factors for which it is defined", "why_tests_cant": "all n and all real factors", "anchors": ["surface_sim/models/util.py:biased_prefactors", "surface_sim/models/util.py:num_biased_ops"]}
{"id": "C37", "title": "idle_error_probs is a sub-probability triple", "statement": "For T1 > 0, T2 > 0, T2 <= 2*T1 and t > 0 the X, Y, Z probabilities are non-negative with sum at most 3/4; the X and Y probabilities and the total increase with t; non-positive arguments raise ValueError; T2 > 2*T1 gives a negative Z probability for some t.", "quantifier": "all positive real times", "why_tests_cant": "real-valued parameters", "anchors": ["surface_sim/models/util.py:idle_error_probs", "surface_sim/models/library.py:DecoherenceNoiseModel.idle"]}
{"id": "C38", "title": "Transversal CNOT table maps stabilizers correctly", "statement": "After set_trans_cnot, the physical CNOTs form a perfect matching between the data qubits of both layouts and the stored new_stab_gen of every ancilla is the product of old generators that conjugation by these CNOTs gives; the induced update is an involution mod 2.", "quantifier": "all pairs of generated layouts of equal distances whose coordinates differ by less than 99999 (for layouts further apart the relative tolerance of np.allclose also accepts reflections and it is false)", "why_tests_cant": "infinitely many sizes", "anchors": ["surface_sim/log_gates/rot_surface_code_css.py:set_trans_cnot", "surface_sim/log_gates/unrot_surface_code_css.py:set_trans_cnot"]}
{"id": "C39", "title": "Transversal H table (unrotated) maps stabilizers correctly", "statement": "After set_trans_h, the SWAP pairs are a fixed-point-respecting involution of data qubits, and each stabilizer is mapped to the stabilizer of opposite type stored in new_stab_gen; the update is an involution.", "quantifier": "all distances d", "why_tests_cant": "infinitely many sizes", "anchors": ["surface_sim/log_gates/unrot_surface_code_css.py:set_trans_h", "surface_sim/circuit_blocks/util.py:log_trans_h_iterator"]}
{"id": "C40", "title": "Transversal S tables map stabilizers correctly", "statement": "After set_trans_s the CZ pairs form a symmetric partial matching of data qubits, every X stabilizer is mapped by the S/S_DAG/CZ layer to itself times the product of Z stabilizers stored in new_stab_gen, Z stabilizers are unchanged; the update is an involution mod 2.", "quantifier": "all distances d (d_z=d_x for unrotated, d_z=d_x+1 for rotated)", "why_tests_cant": "infinitely many sizes", "anchors": ["surface_sim/log_gates/rot_surface_code_css.py:set_trans_s", "surface_sim/log_gates/unrot_surface_code_css.py:set_trans_s", "surface_sim/circuit_blocks/util.py:log_trans_s_iterator"]}
{"id": "C41", "title": "Logical X/Z gates flip exactly the logical measurement", "statement": "The log_x (log_z) block anticommutes with the Z (X) logical observable, and commutes with all stabilizers, so it flips the final logical Z (X) outcome and no detector.", "quantifier": "all distances and both codes", "why_tests_cant": "infinitely many sizes", "anchors": ["surface_sim/circuit_blocks/util.py:log_x_iterator", "surface_sim/circuit_blocks/util.py:log_z_iterator", "surface_sim/circuit_blocks/util.py:log_x_xzzx_iterator", "surface_sim/circuit_blocks/util.py:log_z_xzzx_iterator"]}
{"id": "C42", "title": "repeated_cnot_experiment alternates the CNOT orientation", "statement": "With cnot_orientation='alternating' consecutive CNOTs swap control and target. (The code swaps only on odd k while keeping the swapped names, so the pattern is CT,TC,TC,CT,CT,...)", "quantifier": "all numbers of gates", "why_tests_cant": "needs at least three gates; unbounded", "anchors": ["surface_sim/experiments/rot_surface_code_css.py:repeated_cnot_experiment", "surface_sim/experiments/unrot_surface_code_css.py:repeated_cnot_experiment"]}
{"id": "C43", "title": "merge_log_meas gives distinct observable indices", "statement": "The observables of all logical qubits of all layouts get pairwise distinct indices 0..n-1. (Holds when all layouts have the same number of logical qubits; otherwise k*num_logs+l collides.)", "quantifier": "every sequence of layouts", "why_tests_cant": "unbounded", "anchors": ["surface_sim/util/circuit_operations.py:merge_log_meas"]}
{"id": "C44", "title": "Any single data error is detected by the next round", "statement": "For dx,dz >= 2, any single-qubit Pauli error on a data qubit flips at least one ancilla outcome in the next noiseless QEC round.", "quantifier": "all distances, all data qubits, all three Paulis", "why_tests_cant": "infinitely many sizes", "anchors": ["surface_sim/layouts/library/rot_surface_codes.py:rot_surface_code_rectangle", "surface_sim/layouts/library/unrot_surface_codes.py:unrot_surface_code_rectangle", "surface_sim/circuit_blocks/rot_surface_code_css.py:qec_round_iterator"]}
{"id": "C45", "title": "String-valued parameters given literally are usable", "statement": "A setup that gives a string parameter such as biased_pauli: 'Z' literally can be used by BiasedCircuitNoiseModel. (The code registers the string as a free variable parameter, so every noisy operation raises ValueError until set_var_param('Z', 'Z') is called.)", "quantifier": "all setups with a literal string value, all qubits and probabilities", "why_tests_cant": "depends on every combination of parameter names and values", "anchors": ["surface_sim/setup/setup.py:Setup._load_setup", "surface_sim/models/library.py:BiasedCircuitNoiseModel"]}
{"id": "C46", "title": "get_neighbors returns exactly the neighbours given in the setup", "statement": "get_neighbors(qubits, direction) returns the pairs (q, q') with q asked for and q' named as neighbour of q in that direction (any direction if None), in the order asked for, dropping repeated and unknown labels; with a direction each qubit has at most one neighbour.", "quantifier": "every loadable setup, every list of labels, every direction", "why_tests_cant": "all graphs and all query lists", "anchors": ["surface_sim/layouts/layout.py:Layout.get_neighbors", "surface_sim/layouts/layout.py:Layout._load_layout"]}
{"id": "C47", "title": "projection_matrix entries are the data-ancilla adjacency", "statement": "projection_matrix(stab_type) has one row per data qubit and one column per ancilla of that type, in layout order, and entry (d, a) is set iff a is a neighbour of d.", "quantifier": "every layout reachable through the API and every stabilizer type", "why_tests_cant": "all graphs", "anchors": ["surface_sim/layouts/layout.py:Layout.projection_matrix", "surface_sim/layouts/layout.py:Layout.adjacency_matrix"]}
{"id": "C48", "title": "expansion_matrix places every ancilla in its own grid cell", "statement": "expansion_matrix gives every ancilla exactly one cell; two ancillas share a row (column) iff they share the row (column) coordinate; no row or column is empty. Whatever the iteration order of sets.", "quantifier": "every layout, every iteration order of python sets", "why_tests_cant": "depends on the hash order of sets", "anchors": ["surface_sim/layouts/layout.py:Layout.expansion_matrix", "surface_sim/layouts/layout.py:index_coords"]}
{"id": "C49", "title": "merge_log_meas measures every layout in its own basis", "statement": "merge_log_meas measures all data qubits of every layout, each layout in the basis given for it by rot_bases, and the targets of the observables and detectors refer to these measurements. (Holds when all bases agree. With different bases the iterators have different lengths and zip drops the end of the longer ones: the call raises, or returns a circuit in which a layout is not measured although its outcomes are referred to.)", "quantifier": "all lists of layouts, all assignments of bases, all noise models", "why_tests_cant": "unbounded number of layouts; depends on the record", "anchors": ["surface_sim/util/circuit_operations.py:merge_log_meas", "surface_sim/circuit_blocks/util.py:log_meas_iterator"]}
{"id": "C50", "title": "Merged QEC rounds measure the stabilizers of every layout", "statement": "Whenever merge_qec_rounds returns for layouts without common qubits, the circuit has on the qubits of every layout the effect of one round of that layout alone: every ancilla measures its own stabilizer, the data qubits change only by stabilizers of their layout, no other qubit changes, and the measurement record lists the ancillas layout after layout, so that the targets of the detectors are right.", "quantifier": "all lists of rotated (or unrotated) surface-code layouts of any sizes, both values of anc_reset, all measurement records, all Pauli frames, all noise models whose measurement layer has the same instructions for all qubits", "why_tests_cant": "unbounded number of layouts and sizes; the interleaving of instructions matters", "anchors": ["surface_sim/util/circuit_operations.py:merge_qec_rounds", "surface_sim/util/circuit_operations.py:merge_tick_blocks", "surface_sim/circuit_blocks/rot_surface_code_css.py:qec_round_iterator"]}
{"id": "C51", "title": "Detectors and observables of memory experiments do not depend on measurement outcomes", "statement": "The circuit returned by a memory experiment, run as a quantum circuit from |0...0> (gates are their unitaries, measurements are projective, resets project and flip), gives in every possible run the same value of every detector and of the observable. The rules by which Pauli frames and signed Pauli operators are propagated in the other properties follow from the matrices of the gates, and the possible results of any circuit are exactly those of the frame simulation added to one reference result.", "quantifier": "every circuit built of the gates of the library; memory experiments of all distances, rounds, bases, initial bits and noise models without noise", "why_tests_cant": "quantifies over all outcomes of exponentially many measurements and over amplitudes", "anchors": ["surface_sim/experiments/rot_surface_code_css.py:memory_experiment", "surface_sim/experiments/rot_surface_code_xzzx_pipelined.py:memory_experiment", "surface_sim/experiments/unrot_surface_code_css.py:memory_experiment"]}
{"id": "C52", "title": "Experiments with repeated logical S or H gates have fixed detectors and observables", "statement": "Without noise, the circuit returned by repeated_s_experiment and repeated_h_experiment (with a pre-gate or post-gate detector frame) gives in every run the same value of every detector and of the observable: the detectors of the first round are the parities of the initial bits of the stabilizers of the basis, all later detectors (across any number of gates and rounds) are zero, and the observable is the parity of the initial bits of the logical operator (of its image under the gate after an odd number of H). The measurement record lists the ancillas once per round and then the data qubits. With gauge_detectors=True only the first-round detectors of the other type vary. With the gate-independent frame the detectors depend on random outcomes.", "quantifier": "all distances of the unrotated code (S and H at every corner) and all rotated codes for which set_trans_s returns, both CSS schedules, any number of gates and of rounds per gate, both bases, both values of anc_reset and gauge_detectors, all initial bits, all selections of detectors, all measurement outcomes, all faithful noise models, any order of sets", "why_tests_cant": "unbounded numbers of gates and rounds, exponentially many outcomes; the detectors combine products of generator matrices with the geometry of the codes", "anchors": ["surface_sim/experiments/unrot_surface_code_css.py:repeated_s_experiment", "surface_sim/experiments/unrot_surface_code_css.py:repeated_h_experiment", "surface_sim/experiments/rot_surface_code_css.py:repeated_s_experiment", "surface_sim/detectors/detectors.py:Detectors.build_from_anc", "surface_sim/detectors/detectors.py:Detectors.build_from_data"]}
{"id": "C53", "title": "Experiments with repeated logical CNOT gates have fixed detectors and observables", "statement": "Without noise, the circuit returned by repeated_cnot_experiment with cnot_orientation=\"constant\" (and a pre-gate or post-gate detector frame) gives in every run the same value of every detector and of both observables: the first-round detectors are the parities of the initial bits of the stabilizers of both codes, all later detectors are zero, and the observables are those of a logical CNOT applied once per gate (in the Z basis the target gets the number of gates times the control, in the X basis the control gets that multiple of the target). The record lists, per round, the ancillas of control and target and at the end the data qubits of both. The same holds with cnot_orientation=\"alternating\" and at least one round per gate: whatever the directions of the gates, the detectors after the first round are zero, and the observables are those of the logical CNOTs in the directions that the code takes (C42). (Without rounds between gates in different directions the detectors are wrong.) If the parameters of the noise model do not differ between qubits, the experiment returns a circuit and never raises.", "quantifier": "all equal distances (distance_z at least 2) of the rotated and the unrotated code, any disjoint placement, any number of gates and of rounds per gate, both bases, both values of anc_reset and gauge_detectors, all initial bits, all selections of detectors, all measurement outcomes, any order of sets and of the matching", "why_tests_cant": "unbounded numbers of gates and rounds and exponentially many outcomes; circuits of two layouts are merged block by block", "anchors": ["surface_sim/experiments/rot_surface_code_css.py:repeated_cnot_experiment", "surface_sim/experiments/unrot_surface_code_css.py:repeated_cnot_experiment", "surface_sim/util/circuit_operations.py:merge_qec_rounds", "surface_sim/detectors/detectors.py:Detectors.build_from_anc"]}
{"id": "C54", "title": "set_coords places every qubit where its neighbours say", "statement": "set_coords terminates and gives every qubit connected to the last one coordinates; if the layout can be drawn in the plane such that every neighbour in a diagonal direction is one step away along both axes, these are the positions of the drawing relative to the last qubit. In particular the coordinates of a rotated code of any size are restored up to a translation. Nothing but the coordinates changes; without override it refuses layouts that have coordinates. (For the unrotated codes, whose directions have one word, the coordinates get a single number and different qubits get the same one.)", "quantifier": "all layouts, all drawings, all sizes of rotated and unrotated codes", "why_tests_cant": "a graph search over layouts of unbounded size; the queue can hold a qubit many times", "anchors": ["surface_sim/layouts/util.py:set_coords"]}
{"id": "C55", "title": "index_chain numbers the qubits of a chain in order", "statement": "On a chain of at least two qubits index_chain, started at one end, gives the qubits the indices 0, 1, 2, ... in their order along the chain, whatever their order in the layout. In general it returns exactly if the initial qubit is in the layout and every qubit that can be reached from it has one or two neighbours; reached qubits get integers and the other ones None; otherwise it raises ValueError. Nothing but chain_ind changes. (The documented errors for unconnected qubits are only raised for qubits that are reached, and on a ring an index is skipped.)", "quantifier": "all layouts, all initial qubits, chains of any length", "why_tests_cant": "a graph search over layouts of unbounded size", "anchors": ["surface_sim/layouts/util.py:index_chain"]}
{"id": "C56", "title": "Circuit-level noise models put one noise channel on every qubit per time step", "statement": "With CircuitNoiseModel and BiasedCircuitNoiseModel, every qubit of the layout has exactly one noise channel (before a measurement, after anything else) between two consecutive TICKs, in every step of QEC rounds, initializations, logical measurements, logical Pauli gates, transversal gates and merged blocks, and from the first to the last step of memory and repeated-CNOT experiments; the incoming-noise step has none. (False for log_x_xzzx and log_z_xzzx, that leave data qubits without noise, and for the round of rot_surface_code_xzzx.py as it is.)", "quantifier": "rotated and unrotated codes of all sizes, all setups (parameters may differ per qubit), any order of sets, all initial bits, both bases", "why_tests_cant": "unbounded layouts and steps; a missing or doubled channel changes error rates without failing any run", "anchors": ["surface_sim/models/library.py:CircuitNoiseModel", "surface_sim/models/library.py:BiasedCircuitNoiseModel", "surface_sim/circuit_blocks/rot_surface_code_css.py:qec_round_iterator", "surface_sim/circuit_blocks/rot_surface_code_css_pipelined.py:qec_round_iterator", "surface_sim/circuit_blocks/util.py:log_meas_iterator"]}
{"id": "C57", "title": "Memory experiments have the distance of the code at the circuit level", "statement": "In the circuit returned by memory_experiment, any number of faults smaller than the distance (distance_x for the Z basis, distance_z for the X basis) either changes a detector or does not change the observable, and some set of as many faults as the distance changes the observable and no detector. A fault is any Pauli error on one qubit at any time, any Pauli error on the two qubits of a two-qubit gate right after it, or a wrong measurement outcome. In particular the order of the two-qubit gates in a round is such that errors spreading from the ancillas (hook errors) do not reduce the distance.", "quantifier": "all sizes of the rotated and unrotated codes, any number of rounds, any placement of any number of faults, both bases, both values of anc_reset and gauge_detectors, all initial bits, all selections of detectors that contain the stabilizers of the basis, all measurement outcomes, all faithful noise models, any order of sets", "why_tests_cant": "the number of sets of faults grows exponentially with distance and rounds; a wrong gate order halves the distance without failing any test of the circuit", "anchors": ["surface_sim/circuit_blocks/rot_surface_code_css.py:qec_round_iterator", "surface_sim/circuit_blocks/rot_surface_code_css_pipelined.py:qec_round_iterator", "surface_sim/circuit_blocks/rot_surface_code_xzzx_pipelined.py:qec_round_iterator", "surface_sim/circuit_blocks/rot_surface_code_xzzx_google.py:qec_round_with_log_meas", "surface_sim/circuit_blocks/unrot_surface_code_css.py:qec_round_iterator", "surface_sim/experiments/rot_surface_code_css.py:memory_experiment", "surface_sim/layouts/library/rot_surface_codes.py:rot_surface_code_rectangle"]}
{"id": "C58", "title": "The noise of a memory experiment needs as many errors as the distance of the code to go unnoticed", "statement": "In the circuit returned by memory_experiment with a noise model of the library, let every noise channel put any Pauli error on any of its qubits (or pairs of qubits), and let any measurement have a wrong outcome. As long as fewer of these errors happen than the distance (distance_x for the Z basis, distance_z for the X basis), a detector changes or the observable does not; some errors of this number change the observable and no detector. The two-qubit channels of the models act only on pairs of qubits that had a two-qubit gate in the same time step.", "quantifier": "all sizes of the rotated and unrotated codes, any number of rounds, all subsets of the errors of all channels, both bases, both values of anc_reset and gauge_detectors, all initial bits, all selections of detectors that contain the stabilizers of the basis, all measurement outcomes, all noise models of the library that the blocks can be called with and all others whose channels follow the gates, all parameters of the models, any order of sets", "why_tests_cant": "tests sample a few error probabilities; a channel on a wrong pair of qubits or in a wrong time step lowers the distance for some combination of errors only", "anchors": ["surface_sim/models/library.py:CircuitNoiseModel", "surface_sim/models/library.py:BiasedCircuitNoiseModel", "surface_sim/models/library.py:PhenomenologicalNoiseModel", "surface_sim/models/library.py:IncomingNoiseModel", "surface_sim/circuit_blocks/rot_surface_code_css.py:qec_round_iterator", "surface_sim/circuit_blocks/rot_surface_code_css_pipelined.py:qec_round_iterator", "surface_sim/experiments/rot_surface_code_css.py:memory_experiment"]}
{"id": "C59", "title": "The objects of the README example fit together for every distance", "statement": "For a generated layout, Detectors(layout.anc_qubits, frame, anc_coords=layout.anc_coords) (or without coordinates), layout.qubit_inds and CircuitNoiseModel(setup, qubit_inds) with setup.set_var_param('prob', p) are returned, and memory_experiment called with them returns a circuit of the distance asked for (C58), whose detectors and observable have fixed values without noise (C32). Detectors(...) returns exactly when the frame is one of the three names, anc_qubits is not empty and anc_coords has these qubits and coordinates of one length; a code of distance 1 has no ancillas and is rejected.", "quantifier": "all sizes of the rotated and unrotated codes except those without ancillas, all labels and initial indices, all probabilities from 0 to 3/4, the three frames, with and without coordinates, all initial bits of data qubits, both bases, both values of anc_reset and gauge_detectors, any number of rounds, any order of sets", "why_tests_cant": "the example is run for one distance and one probability; each class is tested with hand-made arguments", "anchors": ["README.md", "surface_sim/detectors/detectors.py:Detectors.__init__", "surface_sim/layouts/layout.py:Layout.anc_coords", "surface_sim/layouts/layout.py:Layout.qubit_inds", "surface_sim/setup/library.py:CircuitNoiseSetup", "surface_sim/models/library.py:CircuitNoiseModel", "surface_sim/experiments/rot_surface_code_css.py:memory_experiment"]}
{"id": "C60", "title": "Experiments with repeated logical CNOT gates have the distance of the code at the circuit level", "statement": "In the circuit returned by repeated_cnot_experiment with cnot_orientation=\"constant\", or with \"alternating\" and at least one round after each gate (and a pre-gate or post-gate detector frame), any number of faults (as in C57) smaller than the distance (distance_x for the Z basis, distance_z for the X basis) changes a detector or changes neither of the two observables, although the transversal gates copy errors between the two codes; some set of as many faults as the distance changes an observable and no detector.  The same holds for the errors that the noise channels of the returned circuit can cause (as in C58).", "quantifier": "all equal sizes of the rotated and the unrotated code (distance_z at least 2), any number of gates and of rounds after each gate (with the constant orientation also none), any placement of any number of faults, both bases, both values of anc_reset and gauge_detectors, all initial bits, all selections of detectors that contain the stabilizers of the basis of both codes, all measurement outcomes, all faithful noise models that can be merged, any order of sets and of the matching", "why_tests_cant": "the number of sets of faults grows exponentially with distance, gates and rounds; a detector built with a wrong generator matrix or a missing pair of the gate lowers the distance only for faults near the gate", "anchors": ["surface_sim/experiments/rot_surface_code_css.py:repeated_cnot_experiment", "surface_sim/experiments/unrot_surface_code_css.py:repeated_cnot_experiment", "surface_sim/util/circuit_operations.py:merge_qec_rounds", "surface_sim/detectors/detectors.py:Detectors.build_from_anc", "surface_sim/log_gates/unrot_surface_code_css.py:set_trans_cnot"]}
{"id": "C61", "title": "plot draws every qubit, connection and stabilizer of a layout, each stabilizer as the convex polygon of its data qubits", "statement": "If plot returns, it has added to the axes one circle per qubit, and as asked for one label per qubit, one line per neighbour of each ancilla and one polygon per ancilla, at the coordinates of the qubits and with the colour of the stabilizer type, and nothing else; polygons are below lines, lines below circles, circles below labels; every qubit is inside the limits of the axes with pad around it, and the vertical axis points down exactly with stim_orientation.  The corners of a polygon are the neighbours of the ancilla (and the ancilla itself if there are two), and clockwise_sort puts them in clockwise order whenever they are the corners of a convex polygon, so that no polygon crosses itself; for the library codes this is always the case.  plot raises ValueError exactly if there are no qubits, coordinates are not two-dimensional, or a patch has no corners; it returns for all library codes.  Different labels of letters followed by digits are shown differently, for other labels this fails.", "quantifier": "all layouts, stored drawing options, flags, axes and orders np.argsort may choose; all finite sets of points in convex position; the library codes of all sizes (for polygons of the unrotated ones, distances of at least two)", "why_tests_cant": "tests of plots only check that no exception is raised; a wrong argument order of arctan2 or a wrong centre gives crossing polygons only for some shapes and positions", "anchors": ["surface_sim/layouts/plotter.py:plot", "surface_sim/layouts/plotter.py:clockwise_sort", "surface_sim/layouts/plotter.py:patch_artists", "surface_sim/layouts/plotter.py:qubit_artists", "surface_sim/layouts/plotter.py:qubit_connections", "surface_sim/layouts/plotter.py:qubit_labels", "surface_sim/layouts/plotter.py:get_coord_range", "surface_sim/layouts/plotter.py:get_label"]}
{"id": "C62", "title": "Experiments composed of the blocks have fixed detectors and the observable given by the logical operations", "statement": "A user who composes an experiment out of the blocks (qubit_coords and model.new_circuit, init_qubits, a qec_round, then any sequence of qec_round, log_x, log_z and log_trans_s (or, on unrotated codes, log_trans_h), then log_meas) gets a circuit in which all detectors and the observable have fixed values without noise: the detectors after the first round are zero, also those right after a gate, and the observable is the parity of the initial bits of the logical operator, with the sign that the sequence of logical operations gives it (X flips Z, Z flips X, S maps X to XZ, H exchanges X and Z).  With the XZZX blocks the same holds for log_x_xzzx and log_z_xzzx.", "quantifier": "all sizes of the codes for which the gate can be set (all rectangular sizes without a gate), all lists of operations, initial bits, bases (with S: an even number of S in the X basis), values of anc_reset and gauge_detectors, selections of detectors, frames but gate-independent, all measurement outcomes, any order of sets", "why_tests_cant": "the number of sequences grows exponentially with their length; the experiments of the package contain only one pattern of gates and no logical Pauli gates", "anchors": ["surface_sim/circuit_blocks/util.py:log_x", "surface_sim/circuit_blocks/util.py:log_z", "surface_sim/circuit_blocks/util.py:log_trans_s", "surface_sim/circuit_blocks/util.py:log_trans_h", "surface_sim/circuit_blocks/util.py:log_x_xzzx", "surface_sim/circuit_blocks/util.py:log_z_xzzx", "surface_sim/circuit_blocks/unrot_surface_code_css.py:qec_round", "surface_sim/detectors/detectors.py:Detectors.build_from_anc"]}
{"id": "C63", "title": "Programs of logical operations on two codes have fixed detectors and the observables given by the logical operations", "statement": "A user who composes an experiment on two codes out of the blocks (init_qubits of both, merge_circuits, a merge_qec_rounds, then any sequence of merge_qec_rounds with the layouts in either order, log_trans_cnot in either direction, and log_x and log_z of either code, then merge_log_meas) such that all CNOT gates between two rounds have the same direction gets a circuit in which all detectors and both observables have fixed values without noise: the detectors after the first round are zero, also those right after gates, and the observables are the parities of the initial bits of the logical operators with what the sequence of logical gates does to them.  With CNOT gates in opposite directions between two rounds this fails.", "quantifier": "all equal sizes of the rotated and the unrotated code (distance_z at least 2), all lists of operations, both orders of the final measurement, initial bits, bases, values of anc_reset and gauge_detectors, selections of detectors, frames but gate-independent, all measurement outcomes, all faithful noise models that can be merged, any order of sets and of the matching", "why_tests_cant": "the number of sequences grows exponentially with their length; the experiments of the package contain only two patterns of CNOT gates, the same number of rounds after each of them and no logical Pauli gates", "anchors": ["surface_sim/circuit_blocks/util.py:log_trans_cnot", "surface_sim/circuit_blocks/util.py:log_x", "surface_sim/circuit_blocks/util.py:log_z", "surface_sim/util/circuit_operations.py:merge_qec_rounds", "surface_sim/util/circuit_operations.py:merge_log_meas", "surface_sim/detectors/detectors.py:Detectors.build_from_anc", "surface_sim/log_gates/unrot_surface_code_css.py:set_trans_cnot"]}
{"id": "C64", "title": "Programs of logical operations on two codes have the circuit distance of the code", "statement": "In the experiments of C63 (any sequence of merged rounds, transversal CNOT gates in both directions and logical X and Z gates on two codes, with the CNOT gates between two rounds in the same direction) fewer faults than the codes have rows (Z basis) or columns (X basis) change a detector or leave both observables as they are, although the gates copy errors between the codes; a fault is any Pauli error on the qubits of one operation or a wrong outcome, after any operation of the circuit.  This number is exact.  The same holds for the errors that the noise channels and the noisy measurements of such a circuit cause.", "quantifier": "all equal sizes of the rotated and the unrotated code (distance_z at least 2), all lists of operations, all places and kinds of the faults, both orders of the final measurement, bases, values of anc_reset and gauge_detectors, all selections of detectors that contain the stabilizers of the basis, frames but gate-independent, all faithful noise models that can be merged, any order of sets", "why_tests_cant": "the number of sequences grows exponentially with their length and that of sets of faults with the distance", "anchors": ["surface_sim/circuit_blocks/util.py:log_trans_cnot", "surface_sim/circuit_blocks/util.py:log_x", "surface_sim/circuit_blocks/util.py:log_z", "surface_sim/util/circuit_operations.py:merge_qec_rounds", "surface_sim/util/circuit_operations.py:merge_log_meas", "surface_sim/circuit_blocks/rot_surface_code_css.py:qec_round_iterator", "surface_sim/detectors/detectors.py:Detectors.build_from_anc"]}
