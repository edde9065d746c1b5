{
 "claims": [
  {
   "property": "C01",
   "status": "proved",
   "theorems": [
    "SurfaceSim.Props.C01_meas_target_kth_last"
   ],
   "note": "for every history of measurements"
  },
  {
   "property": "C02",
   "status": "proved",
   "theorems": [
    "SurfaceSim.Props.C02_meas_target_sound",
    "SurfaceSim.Props.C02_meas_target_errors",
    "SurfaceSim.Props.C02_off_by_one"
   ],
   "note": "soundness, error conditions, and the off-by-one on the positive side"
  },
  {
   "property": "C03",
   "status": "proved",
   "theorems": [
    "SurfaceSim.Props.C03_detectors_isolated",
    "SurfaceSim.Props.C03_new_circuit_model",
    "SurfaceSim.Props.C03_new_circuit_model_obs"
   ],
   "note": "Model and Detectors parts"
  },
  {
   "property": "C04",
   "status": "proved",
   "theorems": [
    "SurfaceSim.Props.C04_param_resolution",
    "SurfaceSim.Props.C04_eval",
    "SurfaceSim.Props.C04_parent_ignores_qubits"
   ],
   "note": "holds as stated; documented disagreement: qubit-specific parent values are ignored"
  },
  {
   "property": "C05",
   "status": "partial",
   "theorems": [
    "SurfaceSim.Props.C05_to_dict_roundtrip_partial",
    "SurfaceSim.Props.C05_roundtrip_queries_partial",
    "SurfaceSim.Props.C05_empty_setup_not_reloadable",
    "SurfaceSim.Props.C05_three_qubit_keys_become_global",
    "SurfaceSim.Props.C05_variable_values_lost",
    "SurfaceSim.Props.C05_reachable_nodup"
   ],
   "note": "round trip of the tables is proved; the full claim is refuted for variable values, empty setups and keys of three or more qubits"
  },
  {
   "property": "C06",
   "status": "proved",
   "theorems": [
    "SurfaceSim.Props.C06_no_free_params",
    "SurfaceSim.Props.C06_set_var_param",
    "SurfaceSim.Props.C06_unregistered_variable",
    "SurfaceSim.Props.C06_var_param",
    "SurfaceSim.Props.C06_param_after_sets"
   ],
   "note": "all sequences of set_var_param calls (C06_var_param, C06_param_after_sets); plus a counterexample to the reading \"no free params means numeric\""
  },
  {
   "property": "C07",
   "status": "proved",
   "theorems": [
    "SurfaceSim.C07_accepts_iff",
    "SurfaceSim.C07_loaded",
    "SurfaceSim.C07_rejected"
   ],
   "note": "exact acceptance condition, full content of the loaded layout, and the exception raised on rejection; a neighbour outside the layout raises RuntimeError, not ValueError"
  },
  {
   "property": "C08",
   "status": "partial",
   "theorems": [
    "SurfaceSim.C08_round_trip_partial",
    "SurfaceSim.C08_set_ind_wrong"
   ],
   "note": "proved for every layout reachable from the constructor and set_param calls that do not write \"ind\"; with \"ind\" overwritten the claim is false (C08_set_ind_wrong)"
  },
  {
   "property": "C09",
   "status": "proved",
   "theorems": [
    "SurfaceSim.C09_exactly_matching",
    "SurfaceSim.C09_missing_attribute",
    "SurfaceSim.C09_data_anc_partition"
   ],
   "note": "exact sublist, exact error condition, partition"
  },
  {
   "property": "C10",
   "status": "proved",
   "theorems": [
    "SurfaceSim.C10_accepts_iff_disjoint"
   ],
   "note": "exact; layouts without coordinates are rejected"
  },
  {
   "property": "C11",
   "status": "proved",
   "theorems": [
    "SurfaceSim.C11_generated",
    "SurfaceSim.C11_rejected"
   ],
   "note": "exact counts, labels, indices and coordinates for all distances and initial ids; negative distances rejected"
  },
  {
   "property": "C12",
   "status": "proved",
   "theorems": [
    "SurfaceSim.C12_symmetric",
    "SurfaceSim.C12_edges",
    "SurfaceSim.C12_degree"
   ],
   "note": "for all sizes, dx, dz >= 1"
  },
  {
   "property": "C13",
   "status": "proved",
   "theorems": [
    "SurfaceSim.C13_commute"
   ],
   "note": "overlap is 0 or 2"
  },
  {
   "property": "C14",
   "status": "proved",
   "theorems": [
    "SurfaceSim.C14_logicals"
   ],
   "note": ""
  },
  {
   "property": "C15",
   "status": "proved",
   "theorems": [
    "SurfaceSim.C15_distance"
   ],
   "note": "lower bound over all operators, attained"
  },
  {
   "property": "C16",
   "status": "proved",
   "theorems": [
    "SurfaceSim.C16_generated",
    "SurfaceSim.C16_rejected"
   ],
   "note": "exact counts, labels, indices and coordinates"
  },
  {
   "property": "C17",
   "status": "proved",
   "theorems": [
    "SurfaceSim.C17_symmetric",
    "SurfaceSim.C17_edges",
    "SurfaceSim.C17_degree",
    "SurfaceSim.C17_commute",
    "SurfaceSim.C17_logicals"
   ],
   "note": "symmetric directions, edges, degrees, overlaps and logical operators"
  },
  {
   "property": "C18",
   "status": "proved",
   "theorems": [
    "SurfaceSim.C18_distance"
   ],
   "note": "lower bound over all operators, attained"
  },
  {
   "property": "C19",
   "status": "proved",
   "theorems": [
    "SurfaceSim.Props.C19_raises_iff",
    "SurfaceSim.Props.C19_merge_tick_blocks",
    "SurfaceSim.Props.C19_elementary"
   ],
   "note": "Full claim: raises iff no blocks or different lengths; otherwise instruction multiset and per-block order preserved."
  },
  {
   "property": "C20",
   "status": "partial",
   "theorems": [
    "SurfaceSim.Props.C20_measurement_order_partial",
    "SurfaceSim.Props.C20_several_measurements_reordered",
    "SurfaceSim.Props.C20_grouping_reorders"
   ],
   "note": "Proved for blocks with at most one measurement instruction and equal signatures of the measuring blocks; the claim is false otherwise (two counterexample theorems)."
  },
  {
   "property": "C21",
   "status": "proved",
   "theorems": [
    "SurfaceSim.Props.C21_raises_iff",
    "SurfaceSim.Props.C21_merge_circuits",
    "SurfaceSim.Props.C21_sorting_reorders_record",
    "SurfaceSim.Props.C21_sorting_moves_noise"
   ],
   "note": "TICK-block-wise merge, exact error conditions; two theorems record that sorting by name reorders measurements and noise."
  },
  {
   "property": "C22",
   "status": "proved",
   "theorems": [
    "SurfaceSim.Props.C22_multiplicities",
    "SurfaceSim.Props.C22_xor_preserved"
   ],
   "note": "multiplicities and XOR for every list"
  },
  {
   "property": "C23",
   "status": "partial",
   "theorems": [
    "SurfaceSim.Props.C23_update_from_dict_accepts",
    "SurfaceSim.Props.C23_update_from_dict_effect",
    "SurfaceSim.Props.C23_update_rejects",
    "SurfaceSim.Props.C23_update_effect",
    "SurfaceSim.Props.C23_update_from_dict_atomic",
    "SurfaceSim.Props.C23_invertible_partial",
    "SurfaceSim.Props.C23_deactivation_singular"
   ],
   "note": "invertibility proved for histories whose deactivations concern decoupled ancillas (block-triangular generators); the full claim is false and the negation is proved (C23_deactivation_singular). Rejection conditions and atomicity of update are proved in full."
  },
  {
   "property": "C24",
   "status": "partial",
   "theorems": [
    "SurfaceSim.Props.C24_memory_detectors",
    "SurfaceSim.Props.C24_deterministic_partial",
    "SurfaceSim.Props.C24_logical_measurement_partial",
    "SurfaceSim.Props.C24_memory_deterministic",
    "SurfaceSim.Props.C24_same_gate_deterministic",
    "SurfaceSim.Props.C24_two_gates_wrong",
    "SurfaceSim.Props.C24_quotient_wrong"
   ],
   "note": "proved whenever the gates between two rounds multiply to an involution mod 2 and the real quotient has entries 0 or odd, which covers no gates and any pattern of one transversal gate; two counterexample theorems show the claim is false in general"
  },
  {
   "property": "C25",
   "status": "proved",
   "theorems": [
    "SurfaceSim.Props.C25_one_detector_per_ancilla",
    "SurfaceSim.Props.C25_one_detector_per_reconstructable"
   ],
   "note": "all histories in which the calls returned"
  },
  {
   "property": "C26",
   "status": "proved",
   "theorems": [
    "SurfaceSim.Props.C26_selection",
    "SurfaceSim.Props.C26_inactive_empty",
    "SurfaceSim.Props.C26_selection_data"
   ],
   "note": "all histories in which the calls returned"
  },
  {
   "property": "C27",
   "status": "proved",
   "theorems": [
    "SurfaceSim.Props.C27_data_detectors"
   ],
   "note": "exact detectors in all three frames"
  },
  {
   "property": "C28",
   "status": "partial",
   "theorems": [
    "SurfaceSim.Props.C28_repeated_cnot_alternating",
    "SurfaceSim.Props.C28_pair_program",
    "SurfaceSim.Props.C28_explicit_models",
    "SurfaceSim.Props.C28_circuit_models",
    "SurfaceSim.Props.C28_rot_css",
    "SurfaceSim.Props.C28_unrot_css",
    "SurfaceSim.Props.C28_pipelined",
    "SurfaceSim.Props.C28_google",
    "SurfaceSim.Props.C28_rot_init",
    "SurfaceSim.Props.C28_unrot_init",
    "SurfaceSim.Props.C28_rot_meas",
    "SurfaceSim.Props.C28_unrot_meas",
    "SurfaceSim.Props.C28_rot_log",
    "SurfaceSim.Props.C28_unrot_log",
    "SurfaceSim.Props.C28_xzzx_fixed_partial",
    "SurfaceSim.Props.C28_xzzx_wrong",
    "SurfaceSim.Props.C28_log_xzzx_wrong",
    "SurfaceSim.Props.C28_merged_rounds",
    "SurfaceSim.Props.C28_merged_meas",
    "SurfaceSim.Props.C28_rot_memory",
    "SurfaceSim.Props.C28_unrot_memory",
    "SurfaceSim.Props.C28_repeated_s",
    "SurfaceSim.Props.C28_repeated_h",
    "SurfaceSim.Props.C28_repeated_cnot",
    "SurfaceSim.Props.C28_unrot_trans_s",
    "SurfaceSim.Props.C28_rot_trans_s",
    "SurfaceSim.Props.C28_unrot_trans_h",
    "SurfaceSim.Props.C28_trans_cnot"
   ],
   "note": "CSS, pipelined and Google rounds, initialization, logical measurement (also XZZX), log_x/log_z, the transversal S, H and CNOT gates, merged rounds and measurements, and all experiments (memory, Google memory, repeated S, H and CNOT, programs on two codes) from the first to the last step, on all generated layouts: exactly once with models that emit idle gates, at most once with the circuit-level ones. False for rot_surface_code_xzzx.qec_round (C28_xzzx_wrong) and log_x_xzzx/log_z_xzzx (C28_log_xzzx_wrong)."
  },
  {
   "property": "C29",
   "status": "partial",
   "theorems": [
    "SurfaceSim.Props.C29_rot_css",
    "SurfaceSim.Props.C29_rot_css_pipelined",
    "SurfaceSim.Props.C29_unrot_css",
    "SurfaceSim.Props.C29_rot_css_thin_wrong"
   ],
   "note": "proved for the CSS rounds with distance_z >= 2 and for the pipelined round with all distances, every faithful model, every frame and randomness; with distance_z = 1 the plain round is wrong (C29_rot_css_thin_wrong)"
  },
  {
   "property": "C30",
   "status": "proved",
   "theorems": [
    "SurfaceSim.Props.C30_google",
    "SurfaceSim.Props.C30_rot_css",
    "SurfaceSim.Props.C30_rot_css_pipelined",
    "SurfaceSim.Props.C30_unrot_css",
    "SurfaceSim.Props.C30_xzzx_pipelined"
   ],
   "note": "all syndromes and the logical operators are kept by every frame and randomness, for the CSS rounds, the pipelined CSS round, the unrotated round and the pipelined XZZX round; up to fixed flips for the Google round, whose echo pulses flip qubits"
  },
  {
   "property": "C31",
   "status": "partial",
   "theorems": [
    "SurfaceSim.Props.C31_google",
    "SurfaceSim.Props.C31_xzzx_pipelined",
    "SurfaceSim.Props.C31_xzzx_fixed_partial",
    "SurfaceSim.Props.C31_xzzx_wrong"
   ],
   "note": "proved for the pipelined XZZX round and, up to fixed flips, the Google round; the plain XZZX round is shown to be wrong and its corrected version right"
  },
  {
   "property": "C32",
   "status": "partial",
   "theorems": [
    "SurfaceSim.Props.C32_google",
    "SurfaceSim.Props.C32_google_gauge",
    "SurfaceSim.Props.C32_google_raises",
    "SurfaceSim.Props.C32_rot_css",
    "SurfaceSim.Props.C32_rot_css_pipelined",
    "SurfaceSim.Props.C32_unrot_css",
    "SurfaceSim.Props.C32_xzzx_pipelined",
    "SurfaceSim.Props.C32_rot_css_gauge",
    "SurfaceSim.Props.C32_rot_css_pipelined_gauge",
    "SurfaceSim.Props.C32_unrot_css_gauge",
    "SurfaceSim.Props.C32_xzzx_pipelined_gauge",
    "SurfaceSim.Props.C32_gauge_random",
    "SurfaceSim.Props.C32_xzzx_wrong"
   ],
   "note": "Proved for rot_surface_code_css, its pipelined variant, unrot_surface_code_css and rot_surface_code_xzzx_pipelined: all distances, rounds, bases, initial bits, frames, detector selections, reset values and random outcomes; the theorem also gives the values. False for rot_surface_code_xzzx (typo in its round, C32_xzzx_wrong). rot_surface_code_xzzx_google: values fixed and given by the initial bits up to flips that are the same for all initial bits. With gauge_detectors=True all detectors but the first-round ones of the unfixed stabilizers keep these values (C32_*_gauge), and the excepted ones can be random (C32_gauge_random)."
  },
  {
   "property": "C33",
   "status": "proved",
   "theorems": [
    "SurfaceSim.Props.C33_sample",
    "SurfaceSim.Props.C33_sample_wrong_rounds",
    "SurfaceSim.Props.C33_sample_single",
    "SurfaceSim.Props.C33_google",
    "SurfaceSim.Props.C33_rot_css",
    "SurfaceSim.Props.C33_rot_css_pipelined",
    "SurfaceSim.Props.C33_unrot_css",
    "SurfaceSim.Props.C33_xzzx",
    "SurfaceSim.Props.C33_xzzx_pipelined"
   ],
   "note": "All six families, all noise models that implement the ideal operations, all initial bits, frames and detector selections, with gauge detectors; distances at least 1 (Google: 2). sample_memory_experiment: every entry of the dataset is the outcome of the measurement that its labels name, for every sampler; wrong numbers of rounds or no shots raise ValueError; experiments with a single measurement raise IndexError."
  },
  {
   "property": "C34",
   "status": "partial",
   "theorems": [
    "SurfaceSim.Props.C34_circuit_noise",
    "SurfaceSim.Props.C34_biased_noise_partial",
    "SurfaceSim.Props.C34_biased_measure_y_measures_x",
    "SurfaceSim.Props.C34_biased_measure_y_wrong",
    "SurfaceSim.Props.C34_noiseless",
    "SurfaceSim.Props.C34_incoming",
    "SurfaceSim.Props.C34_phenomenological",
    "SurfaceSim.Props.C34_experimental_partial",
    "SurfaceSim.Props.C34_decoherence_partial",
    "SurfaceSim.Props.C34_decoherence_asymmetric_measure_raises",
    "SurfaceSim.Props.C34_circuit_noise_setup_ok",
    "SurfaceSim.Props.C34_biased_setup_ok"
   ],
   "note": "proved for all methods of all models except: BiasedCircuitNoiseModel.measure_y (measures X, proved), DecoherenceNoiseModel.measure with symmetric_noise=False (raises, proved), missing methods of ExperimentalNoiseModel"
  },
  {
   "property": "C35",
   "status": "proved",
   "theorems": [
    "SurfaceSim.Props.C35_circuit_noise",
    "SurfaceSim.Props.C35_biased_noise"
   ],
   "note": "complete content of the circuits for CircuitNoiseModel and BiasedCircuitNoiseModel"
  },
  {
   "property": "C36",
   "status": "proved",
   "theorems": [
    "SurfaceSim.Props.C36_operators",
    "SurfaceSim.Props.C36_num_biased",
    "SurfaceSim.Props.C36_num_biased_ops",
    "SurfaceSim.Props.C36_prefactors",
    "SurfaceSim.Props.C36_prefactors_defined",
    "SurfaceSim.Props.C36_special_factors"
   ],
   "note": "all n, all Paulis, all rational factors"
  },
  {
   "property": "C37",
   "status": "proved",
   "theorems": [
    "SurfaceSim.Props.C37_idle_probs",
    "SurfaceSim.Props.C37_monotone",
    "SurfaceSim.Props.C37_raises",
    "SurfaceSim.Props.C37_condition_necessary",
    "SurfaceSim.Props.C37_z_not_monotone"
   ],
   "note": "over the reals; the Z probability alone is shown not to be monotone"
  },
  {
   "property": "C38",
   "status": "proved",
   "theorems": [
    "SurfaceSim.Props.C38_returns",
    "SurfaceSim.Props.C38_requires",
    "SurfaceSim.Props.C38_only_stores",
    "SurfaceSim.Props.C38_matching",
    "SurfaceSim.Props.C38_involution",
    "SurfaceSim.Props.C38_maps_stabilizers",
    "SurfaceSim.Props.C38_signs",
    "SurfaceSim.Props.C38_maps_logicals",
    "SurfaceSim.Props.C38_frames",
    "SurfaceSim.Props.C38_updates_detectors",
    "SurfaceSim.Props.C38_far_wrong"
   ],
   "note": "Both families, all equal distances, any order in which the matchings are found, any faithful noise model: the call returns iff the distances agree and the layouts have nothing in common; the pairs are a perfect matching, the update is an involution, the block maps every stabilizer to the stored product and acts as a logical CNOT, all with sign +, and the detectors receive the tables of both layouts. Beyond the tolerance of np.allclose it is false (C38_far_wrong)."
  },
  {
   "property": "C39",
   "status": "proved",
   "theorems": [
    "SurfaceSim.Props.C39_returns",
    "SurfaceSim.Props.C39_only_stores",
    "SurfaceSim.Props.C39_pairs",
    "SurfaceSim.Props.C39_involution",
    "SurfaceSim.Props.C39_maps_stabilizers",
    "SurfaceSim.Props.C39_signs",
    "SurfaceSim.Props.C39_maps_logicals",
    "SurfaceSim.Props.C39_updates_detectors"
   ],
   "note": "Unrotated codes of all distances, any corner, any faithful noise model: the call returns at every corner; whenever it returns, pairs symmetric, H everywhere, stored generators are the opposite-type stabilizers, the block maps every stabilizer to the stored one, including the sign, and logical X and Z to each other up to stabilizers, other qubits untouched, the detectors receive the stored table."
  },
  {
   "property": "C40",
   "status": "proved",
   "theorems": [
    "SurfaceSim.Props.C40_returns",
    "SurfaceSim.Props.C40_only_stores",
    "SurfaceSim.Props.C40_pairs",
    "SurfaceSim.Props.C40_involution",
    "SurfaceSim.Props.C40_maps_stabilizers",
    "SurfaceSim.Props.C40_signs",
    "SurfaceSim.Props.C40_maps_logicals",
    "SurfaceSim.Props.C40_logical_signs",
    "SurfaceSim.Props.C40_updates_detectors",
    "SurfaceSim.Props.C40_rot_returns",
    "SurfaceSim.Props.C40_rot_only_stores",
    "SurfaceSim.Props.C40_rot_pairs",
    "SurfaceSim.Props.C40_rot_involution",
    "SurfaceSim.Props.C40_rot_maps_stabilizers",
    "SurfaceSim.Props.C40_rot_signs_partial",
    "SurfaceSim.Props.C40_rot_sign_wrong",
    "SurfaceSim.Props.C40_rot_maps_logicals",
    "SurfaceSim.Props.C40_rot_logical_signs",
    "SurfaceSim.Props.C40_rot_updates_detectors"
   ],
   "note": "Unrotated codes: all distances, any corner, any faithful noise model; returns at every corner, pairs symmetric, every stabilizer mapped to the stored product including the sign, the logical X to i X Z and Z to Z (a logical S), detectors receive the stored table. Rotated codes: returns exactly if d_z = d_x + 1, d_x >= 2 and the data qubit is on both logical operators (the other corners raise, contrary to the docstring); pairs symmetric, every stabilizer mapped to the stored product up to sign, a logical S with its phases, detectors receive the table. With signs (which the property does not mention) all stabilizers but one are right (C40_rot_signs_partial), and one X stabilizer gets the sign - in every rotated code because of the final S_DAG (C40_rot_sign_wrong)."
  },
  {
   "property": "C41",
   "status": "proved",
   "theorems": [
    "SurfaceSim.Props.C41_rot_log_x",
    "SurfaceSim.Props.C41_rot_log_z",
    "SurfaceSim.Props.C41_unrot_log_x",
    "SurfaceSim.Props.C41_unrot_log_z",
    "SurfaceSim.Props.C41_xzzx_log_x",
    "SurfaceSim.Props.C41_xzzx_log_z"
   ],
   "note": "log_x, log_z on rotated and unrotated codes of all distances; the XZZX versions for distances at least 2. Stated for every frame, randomness, faithful noise model and set order: syndromes, ancillas, records unchanged, exactly the opposite logical value flips."
  },
  {
   "property": "C42",
   "status": "partial",
   "theorems": [
    "SurfaceSim.Props.C42_constant",
    "SurfaceSim.Props.C42_alternating_actual",
    "SurfaceSim.Props.C42_alternating_partial",
    "SurfaceSim.Props.C42_alternating_wrong"
   ],
   "note": "Exact orientation of every gate for any number of gates: 'constant' holds, 'alternating' alternates only for at most two gates; false for three (C42_alternating_wrong)."
  },
  {
   "property": "C43",
   "status": "partial",
   "theorems": [
    "SurfaceSim.Props.C43_declared",
    "SurfaceSim.Props.C43_indices_partial",
    "SurfaceSim.Props.C43_distinct_partial",
    "SurfaceSim.Props.C43_indices_wrong"
   ],
   "note": "Exact indices and targets of all declared observables for any layouts; 0..n-1 and distinct when all layouts have the same number of logical qubits; false otherwise (C43_indices_wrong)."
  },
  {
   "property": "C44",
   "status": "proved",
   "theorems": [
    "SurfaceSim.Props.C44_google",
    "SurfaceSim.Props.C44_rot_css",
    "SurfaceSim.Props.C44_rot_css_pipelined",
    "SurfaceSim.Props.C44_xzzx_pipelined",
    "SurfaceSim.Props.C44_unrot_css"
   ],
   "note": "distances at least 2"
  },
  {
   "property": "C45",
   "status": "proved",
   "theorems": [
    "SurfaceSim.Props.C45_literal_biased_pauli_raises"
   ],
   "note": "the negation is proved: the code violates the property"
  },
  {
   "property": "C46",
   "status": "proved",
   "theorems": [
    "SurfaceSim.C46_neighbors_as_given",
    "SurfaceSim.C46_order"
   ],
   "note": "exact characterisation"
  },
  {
   "property": "C47",
   "status": "proved",
   "theorems": [
    "SurfaceSim.C47_projection"
   ],
   "note": "exact entries"
  },
  {
   "property": "C48",
   "status": "proved",
   "theorems": [
    "SurfaceSim.C48_expansion"
   ],
   "note": "for every set iteration order"
  },
  {
   "property": "C49",
   "status": "partial",
   "theorems": [
    "SurfaceSim.Props.C49_x_then_z_wrong",
    "SurfaceSim.Props.C49_z_then_x_raises",
    "SurfaceSim.Props.C49_same_basis_partial"
   ],
   "note": "Holds when all bases agree (surface-code layouts, any number); both ways in which it fails for different bases are proved."
  },
  {
   "property": "C50",
   "status": "proved",
   "theorems": [
    "SurfaceSim.Props.C50_rot_css",
    "SurfaceSim.Props.C50_unrot_css"
   ],
   "note": "Rotated and unrotated CSS rounds, any number of layouts of any sizes; stated for calls that return (a merge raises when the instructions of two layouts differ)."
  },
  {
   "property": "C51",
   "status": "proved",
   "theorems": [
    "SurfaceSim.Props.C51_memory_google",
    "SurfaceSim.Props.C51_conj",
    "SurfaceSim.Props.C51_possible",
    "SurfaceSim.Props.C51_frames",
    "SurfaceSim.Props.C51_deterministic",
    "SurfaceSim.Props.C51_memory_rot_css",
    "SurfaceSim.Props.C51_memory_rot_css_pipelined",
    "SurfaceSim.Props.C51_memory_unrot_css",
    "SurfaceSim.Props.C51_memory_xzzx_pipelined",
    "SurfaceSim.Props.C51_memory_xzzx_wrong"
   ],
   "note": "Frame semantics sound and complete for all circuits on pairs of different qubits, signed images of Pauli operators from the matrices, determinism of the memory experiments of the five families of C32; the plain XZZX family is shown not to be deterministic (C51_memory_xzzx_wrong)."
  },
  {
   "property": "C52",
   "status": "proved",
   "theorems": [
    "SurfaceSim.Props.C52_unrot_s",
    "SurfaceSim.Props.C52_rot_s",
    "SurfaceSim.Props.C52_rot_s_pipelined",
    "SurfaceSim.Props.C52_unrot_h",
    "SurfaceSim.Props.C52_unrot_s_quantum",
    "SurfaceSim.Props.C52_rot_s_quantum",
    "SurfaceSim.Props.C52_unrot_h_quantum",
    "SurfaceSim.Props.C52_gate_independent_varies"
   ],
   "note": "S on the unrotated and both rotated CSS families, H on the unrotated family; all numbers of gates and rounds, values in closed form, gauge detectors, record order, and determinism as quantum circuits (C51). Assumes a frame that follows the gates (C52_gate_independent_varies shows that it is needed), a Detectors object for exactly the ancillas of the layout and no initial bit on an ancilla. Values are relative to the circuit without Pauli gates."
  },
  {
   "property": "C53",
   "status": "proved",
   "theorems": [
    "SurfaceSim.Props.C53_fixed",
    "SurfaceSim.Props.C53_returns",
    "SurfaceSim.Props.C53_models",
    "SurfaceSim.Props.C53_circuit_noise_setup",
    "SurfaceSim.Props.C53_deterministic",
    "SurfaceSim.Props.C53_alternating",
    "SurfaceSim.Props.C53_alternating_returns",
    "SurfaceSim.Props.C53_alternating_deterministic",
    "SurfaceSim.Props.C53_alternating_no_rounds"
   ],
   "note": "Rotated and unrotated CSS codes; values of detectors and both observables in closed form, gauge detectors, record order, determinism as quantum circuits. C53_returns: the experiment returns for noise models whose circuits for equally many qubits differ only in targets; C53_models: the noiseless, circuit-level, biased, incoming and phenomenological models are of this kind if no parameter differs between qubits. The experimental and the decoherence models are not covered by C53_models. C53_alternating, C53_alternating_returns, C53_alternating_deterministic: gates in both directions, the sequence of directions being the one the code takes (see C42), at least one round per gate; C53_alternating_no_rounds: without rounds the detectors are wrong. Same assumptions as C52 on frame, Detectors object and initial bits."
  },
  {
   "property": "C54",
   "status": "proved",
   "theorems": [
    "SurfaceSim.Props.C54_positions",
    "SurfaceSim.Props.C54_returns",
    "SurfaceSim.Props.C54_raises",
    "SurfaceSim.Props.C54_rot",
    "SurfaceSim.Props.C54_unrot_one_number",
    "SurfaceSim.Props.C54_unrot_wrong"
   ],
   "note": "Termination with the bound (n+1)^n on the number of iterations, positions for all layouts drawn with diagonal directions, rotated codes of all sizes (connected, so all qubits get coordinates). C54_unrot_one_number and C54_unrot_wrong: what happens for unrotated codes."
  },
  {
   "property": "C55",
   "status": "proved",
   "theorems": [
    "SurfaceSim.Props.C55_path",
    "SurfaceSim.Props.C55_returns_iff",
    "SurfaceSim.Props.C55_isolated_wrong",
    "SurfaceSim.Props.C55_ring_wrong"
   ],
   "note": "Exact condition for returning, values on chains of any length started at an end. C55_isolated_wrong and C55_ring_wrong: deviations from the docstring."
  },
  {
   "property": "C56",
   "status": "partial",
   "theorems": [
    "SurfaceSim.Props.C56_repeated_cnot_alternating",
    "SurfaceSim.Props.C56_models",
    "SurfaceSim.Props.C56_rot_rounds",
    "SurfaceSim.Props.C56_rot_blocks",
    "SurfaceSim.Props.C56_unrot",
    "SurfaceSim.Props.C56_transversal",
    "SurfaceSim.Props.C56_log_xzzx_wrong",
    "SurfaceSim.Props.C56_xzzx_wrong",
    "SurfaceSim.Props.C56_pair_program",
    "SurfaceSim.Props.C56_merged",
    "SurfaceSim.Props.C56_rot_memory",
    "SurfaceSim.Props.C56_unrot_memory",
    "SurfaceSim.Props.C56_repeated_cnot"
   ],
   "note": "All rounds, blocks, gates and merges of C28, and the memory and repeated-CNOT experiments, with exactly one channel per qubit. False for log_x_xzzx/log_z_xzzx (C56_log_xzzx_wrong) and rot_surface_code_xzzx.qec_round (C56_xzzx_wrong)."
  },
  {
   "property": "C57",
   "status": "proved",
   "theorems": [
    "SurfaceSim.Props.C57_rot_css",
    "SurfaceSim.Props.C57_rot_css_pipelined",
    "SurfaceSim.Props.C57_xzzx_pipelined",
    "SurfaceSim.Props.C57_google",
    "SurfaceSim.Props.C57_unrot_css"
   ],
   "note": "Exact circuit distance of the memory experiments of rot_surface_code_css, rot_surface_code_css_pipelined, rot_surface_code_xzzx_pipelined, rot_surface_code_xzzx_google and unrot_surface_code_css, any number of rounds. Not for the plain XZZX experiments, whose rounds are wrong (C29), nor for the experiments with S and H gates; CNOT gates are in C60."
  },
  {
   "property": "C58",
   "status": "proved",
   "theorems": [
    "SurfaceSim.Props.C58_models",
    "SurfaceSim.Props.C58_rot_css",
    "SurfaceSim.Props.C58_rot_css_pipelined",
    "SurfaceSim.Props.C58_xzzx_pipelined",
    "SurfaceSim.Props.C58_google",
    "SurfaceSim.Props.C58_unrot_css"
   ],
   "note": "Noise channels of the returned circuits for the five memory experiments of C57; DecoherenceNoiseModel and ExperimentalNoiseModel cannot be used with the blocks (idle needs a duration)."
  },
  {
   "property": "C59",
   "status": "proved",
   "theorems": [
    "SurfaceSim.Props.C59_detectors_init",
    "SurfaceSim.Props.C59_detectors_init_default",
    "SurfaceSim.Props.C59_anc_coords",
    "SurfaceSim.Props.C59_rot_css",
    "SurfaceSim.Props.C59_rot_others",
    "SurfaceSim.Props.C59_unrot_css",
    "SurfaceSim.Props.C59_distance_one"
   ],
   "note": "Whole workflow of the README for the five memory experiments of C57; sampling and decoding (stim, decoders) are outside the package."
  },
  {
   "property": "C60",
   "status": "proved",
   "theorems": [
    "SurfaceSim.Props.C60_circuit",
    "SurfaceSim.Props.C60_distance",
    "SurfaceSim.Props.C60_noise_circuit",
    "SurfaceSim.Props.C60_noise",
    "SurfaceSim.Props.C60_alternating",
    "SurfaceSim.Props.C60_alternating_distance",
    "SurfaceSim.Props.C60_noise_alternating_circuit",
    "SurfaceSim.Props.C60_noise_alternating"
   ],
   "note": "Rotated and unrotated CSS codes; exact distance for any numbers of gates and rounds. C60_alternating, C60_alternating_distance: gates in both directions (in the order the code gives them, C42) with at least one round after each gate; without rounds the detectors are not fixed (C53_alternating_no_rounds). C60_distance: the experiment also returns for the noise models of C53_models. Frame, Detectors object and initial bits as in C53. C60_noise, C60_noise_circuit (C60_noise_alternating, C60_noise_alternating_circuit): the same for the errors of the noise channels, for the noise models of C58 with equal parameters."
  },
  {
   "property": "C61",
   "status": "proved",
   "theorems": [
    "SurfaceSim.Props.C61_clockwise_sort",
    "SurfaceSim.Props.C61_clockwise_sort_perm",
    "SurfaceSim.Props.C61_shows",
    "SurfaceSim.Props.C61_in_view",
    "SurfaceSim.Props.C61_returns",
    "SurfaceSim.Props.C61_rot",
    "SurfaceSim.Props.C61_unrot",
    "SurfaceSim.Props.C61_unrot_flat",
    "SurfaceSim.Props.C61_label_text",
    "SurfaceSim.Props.C61_label_text_collision",
    "SurfaceSim.Props.C61_rot_labels",
    "SurfaceSim.Props.C61_unrot_labels"
   ],
   "note": "C61_shows, C61_in_view: all layouts and drawing options, whenever plot returns. C61_returns: exact condition and ValueError otherwise, for numeric coordinates and no stored drawing options. C61_clockwise_sort: all finite sets of points in convex position, with any order np.argsort may choose among equal angles. C61_rot, C61_unrot: library codes of all sizes (unrotated: distances of at least two; for one row all patches are flat, C61_unrot_flat). C61_label_text: labels of letters and digits; false for others (C61_label_text_collision), and true for the library codes (C61_rot_labels, C61_unrot_labels). matplotlib is modelled as a record of the calls; angles and means are exact."
  },
  {
   "property": "C62",
   "status": "proved",
   "theorems": [
    "SurfaceSim.Props.C62_unrot_s",
    "SurfaceSim.Props.C62_rot_s",
    "SurfaceSim.Props.C62_rot_s_pipelined",
    "SurfaceSim.Props.C62_unrot_h",
    "SurfaceSim.Props.C62_unrot_plain",
    "SurfaceSim.Props.C62_rot_plain",
    "SurfaceSim.Props.C62_rot_plain_pipelined",
    "SurfaceSim.Props.C62_xzzx_plain_pipelined",
    "SurfaceSim.Props.C62_unrot_s_quantum",
    "SurfaceSim.Props.C62_rot_s_quantum",
    "SurfaceSim.Props.C62_unrot_h_quantum",
    "SurfaceSim.Props.C62_odd_s_varies"
   ],
   "note": "Values are relative to the same circuit without its Pauli gates (as in C52). C62_unrot_s, C62_rot_s, C62_rot_s_pipelined, C62_unrot_h: any list of rounds, logical Paulis and one kind of transversal gate. C62_*_plain: without gate, all rectangular sizes, also XZZX (pipelined). C62_*_quantum: deterministic as quantum circuits. C62_odd_s_varies: the parity condition in the X basis is needed. Programs that mix S and H on one layout are not covered."
  },
  {
   "property": "C63",
   "status": "proved",
   "theorems": [
    "SurfaceSim.Props.C63_values",
    "SurfaceSim.Props.C63_returns",
    "SurfaceSim.Props.C63_deterministic",
    "SurfaceSim.Props.C63_directions_needed"
   ],
   "note": "C63_values: values relative to the same circuit without its Pauli gates, whenever the calls return (as in C53). C63_returns: they return for the noise models of C53_models. C63_deterministic: as quantum circuits. C63_directions_needed: with gates in opposite directions between two rounds the detectors are wrong. The first round has the layouts in the order of the initialization."
  },
  {
   "property": "C64",
   "status": "proved",
   "theorems": [
    "SurfaceSim.Props.C64_faults",
    "SurfaceSim.Props.C64_distance",
    "SurfaceSim.Props.C64_noise_circuit",
    "SurfaceSim.Props.C64_noise"
   ],
   "note": "C64_faults: whenever the calls return; C64_distance: they return for the noise models of C53_models. Faults as in C60, places are the operations of the circuit. Exact distance for any program, also with gates right before the measurement. C64_noise_circuit, C64_noise: the same for the noise of models with one channel per qubit and time step and local channels."
  }
 ]
}