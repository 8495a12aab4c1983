Nnet.Tensor.C01_chunk_table: propext, Classical.choice, Quot.sound
Nnet.Tensor.C01_out_of_range: propext, Classical.choice, Quot.sound
Nnet.Tensor.C02_abort_iff: propext, Quot.sound
Nnet.Tensor.C02_accepts_iff: propext, Classical.choice, Quot.sound
Nnet.Tensor.C02_overflow_iff: propext, Classical.choice, Quot.sound
Nnet.Tensor.C03_copy: propext, Classical.choice, Quot.sound
Nnet.Tensor.C03_default_aborts: propext
Nnet.Tensor.C04_gaussian: propext, Classical.choice, Quot.sound
Nnet.Tensor.C04_ones: propext, Classical.choice, Quot.sound
Nnet.Tensor.C04_others_undisturbed: propext, Quot.sound
Nnet.Tensor.C04_rejects: propext
Nnet.Tensor.C04_zeros: propext, Classical.choice, Quot.sound
Nnet.Tensor.C05_eyes: propext, Classical.choice, Quot.sound
Nnet.Tensor.C05_eyes_abort: propext, Quot.sound
Nnet.Tensor.C05_eyes_overflow: propext, Classical.choice, Quot.sound
Nnet.Tensor.C06_dataless_undefined: propext, Classical.choice, Quot.sound
Nnet.Tensor.C06_deep_copy: propext, Classical.choice, Quot.sound
Nnet.Tensor.C06_writes_independent: propext, Classical.choice, Quot.sound
Nnet.Tensor.C07_copy_assign_partial: propext, Classical.choice, Quot.sound
Nnet.Tensor.C07_grow_indeterminate: propext, Classical.choice, Quot.sound
Nnet.Tensor.C07_null_target: propext, Classical.choice, Quot.sound
Nnet.Tensor.C07_refuted: propext, Classical.choice, Quot.sound
Nnet.Tensor.C07_self_assign: propext, Classical.choice, Quot.sound
Nnet.Tensor.C07_self_assign_dataless: propext, Classical.choice, Quot.sound
Nnet.Tensor.C07_shrink_out_of_bounds: propext, Classical.choice, Quot.sound
Nnet.Tensor.C08_dataless_undefined: propext, Classical.choice, Quot.sound
Nnet.Tensor.C08_move_ctor: propext, Classical.choice, Quot.sound
Nnet.Tensor.C09_leaks: propext, Classical.choice, Quot.sound
Nnet.Tensor.C09_move_assign_partial: propext, Classical.choice, Quot.sound
Nnet.Tensor.C09_no_leak_null_target: propext
Nnet.Tensor.C09_self_move_loses_data: propext, Classical.choice, Quot.sound
Nnet.NN.C100_decay_option: propext, Classical.choice, Quot.sound
Nnet.NN.C100_rest: propext, Classical.choice, Quot.sound
Nnet.NN.C101_conv: propext, Classical.choice, Quot.sound
Nnet.NN.C101_conv_linear: propext, Classical.choice, Quot.sound
Nnet.NN.C101_maxpool: propext, Classical.choice, Quot.sound
Nnet.NN.C101_meanpool: propext, Classical.choice, Quot.sound
Nnet.NN.C101_meanpool_linear: propext, Classical.choice, Quot.sound
Nnet.NN.C102_collapse: propext, Classical.choice, Quot.sound
Nnet.NN.C102_xor: propext, Classical.choice, Quot.sound
Nnet.NN.C102_xor_relu: propext, Classical.choice, Quot.sound
Nnet.NN.C103_activations: propext, Classical.choice, Quot.sound
Nnet.NN.C103_balance: propext, Classical.choice, Quot.sound
Nnet.NN.C103_drift: propext, Classical.choice, Quot.sound
Nnet.NN.C103_rescale: propext, Classical.choice, Quot.sound
Nnet.NN.C103_training_differs: propext, Classical.choice, Quot.sound
Nnet.NN.C104_accuracy: propext, Classical.choice, Quot.sound
Nnet.NN.C104_bad_label: propext, Classical.choice, Quot.sound
Nnet.NN.C104_evaluate: propext, Classical.choice, Quot.sound
Nnet.NN.C104_load: propext, Classical.choice, Quot.sound
Nnet.NN.C104_shuffle: propext, Classical.choice, Quot.sound
Nnet.NN.C104_shuffle_training: propext, Classical.choice, Quot.sound
Nnet.NN.C104_split: propext, Classical.choice, Quot.sound
Nnet.NN.C104_too_few: propext, Classical.choice, Quot.sound
Nnet.NN.C104_trainer: propext, Classical.choice, Quot.sound
Nnet.NN.C104_trainer_name_refuted: propext, Classical.choice, Quot.sound
Nnet.NN.C105_accepted_refuted: propext, Classical.choice, Quot.sound
Nnet.NN.C105_backward: propext, Classical.choice, Quot.sound
Nnet.NN.C105_constructor: propext, Classical.choice, Quot.sound
Nnet.NN.C105_forward: propext, Classical.choice, Quot.sound
Nnet.NN.C105_maxpool: propext, Classical.choice, Quot.sound
Nnet.NN.C105_meanpool: propext, Classical.choice, Quot.sound
Nnet.NN.C105_overflow: propext, Classical.choice, Quot.sound
Nnet.NN.C106_accepted: propext, Classical.choice, Quot.sound
Nnet.NN.C106_index: propext, Classical.choice, Quot.sound
Nnet.NN.C106_no_null: propext, Classical.choice, Quot.sound
Nnet.NN.C106_passes: propext, Classical.choice, Quot.sound
Nnet.NN.C106_setlrate_files: propext, Classical.choice, Quot.sound
Nnet.NN.C107_copies_refuted: propext, Classical.choice, Quot.sound
Nnet.NN.C107_disjoint: propext, Classical.choice, Quot.sound
Nnet.NN.C107_shared: propext, Classical.choice, Quot.sound
Nnet.NN.C108_backward: propext, Classical.choice, Quot.sound
Nnet.NN.C108_forward: propext, Classical.choice, Quot.sound
Nnet.NN.C108_geometry_refuted: propext, Classical.choice, Quot.sound
Nnet.NN.C108_pooling: propext, Classical.choice, Quot.sound
Nnet.NN.C108_rows_refuted: propext, Classical.choice, Quot.sound
Nnet.NN.C108_same: propext, Classical.choice, Quot.sound
Nnet.NN.C108_weights_refuted: propext, Classical.choice, Quot.sound
Nnet.NN.C109_labels: propext, Classical.choice, Quot.sound
Nnet.NN.C109_offset: propext, Classical.choice, Quot.sound
Nnet.NN.C109_sums: propext, Classical.choice, Quot.sound
Nnet.Tensor.C10_destroy_dataless: propext
Nnet.Tensor.C10_destroy_partial: propext
Nnet.Tensor.C10_fresh_destroyable: propext
Nnet.Tensor.C10_scalar_refuted: propext
Nnet.Tensor.C110_assign_partial: propext, Classical.choice, Quot.sound
Nnet.Tensor.C110_assign_refuted: propext, Classical.choice, Quot.sound
Nnet.Tensor.C110_constructors: propext, Classical.choice, Quot.sound
Nnet.Tensor.C110_matmul: propext, Classical.choice, Quot.sound
Nnet.Tensor.C110_move_assign_refuted: propext, Classical.choice, Quot.sound
Nnet.Tensor.C110_move_ctor_refuted: propext, Classical.choice, Quot.sound
Nnet.Tensor.C110_operations: propext, Classical.choice, Quot.sound
Nnet.Tensor.C110_reshape: propext, Classical.choice, Quot.sound
Nnet.Tensor.C110_reshape_refuted: propext, Classical.choice, Quot.sound
Nnet.NN.C111_constant: propext, Classical.choice, Quot.sound
Nnet.NN.C111_invariant: propext, Classical.choice, Quot.sound
Nnet.NN.C111_repeated: propext, Classical.choice, Quot.sound
Nnet.NN.C111_unseen: propext, Classical.choice, Quot.sound
Nnet.NN.C111_unused: propext, Classical.choice, Quot.sound
Nnet.NN.C112_features: propext, Classical.choice, Quot.sound
Nnet.NN.C112_linear: propext, Classical.choice, Quot.sound
Nnet.NN.C112_odd: propext, Classical.choice, Quot.sound
Nnet.NN.C112_signs: propext, Classical.choice, Quot.sound
Nnet.NN.C112_transformed: propext, Classical.choice, Quot.sound
Nnet.NN.Experiment.C113_accepted: propext, Classical.choice, Quot.sound
Nnet.NN.Experiment.C113_cases: propext, Classical.choice, Quot.sound
Nnet.NN.Experiment.C113_distinct_refuted: propext, Classical.choice, Quot.sound
Nnet.NN.Experiment.C113_features: propext, Classical.choice, Quot.sound
Nnet.NN.Experiment.C113_gap: propext, Classical.choice, Quot.sound
Nnet.NN.Experiment.C113_last_line_refuted: propext, Classical.choice, Quot.sound
Nnet.NN.Experiment.C113_merged: propext, Classical.choice, Quot.sound
Nnet.NN.Experiment.C113_named: propext, Classical.choice, Quot.sound
Nnet.NN.Experiment.C113_numbered_partial: propext, Classical.choice, Quot.sound
Nnet.NN.Experiment.C113_sent: propext, Classical.choice, Quot.sound
Nnet.NN.TestData.C114_clock: propext, Classical.choice, Quot.sound
Nnet.NN.TestData.C114_trial: propext, Classical.choice, Quot.sound
Nnet.NN.TestData.C114_trials_refuted: propext, Classical.choice, Quot.sound
Nnet.NN.TestData.C115_repeats: propext, Classical.choice, Quot.sound
Nnet.NN.TestData.C115_restart: propext, Classical.choice, Quot.sound
Nnet.NN.TestData.C115_trials: propext, Classical.choice, Quot.sound
Nnet.NN.TestData.C115_untrained_refuted: propext, Classical.choice, Quot.sound
Nnet.Tensor.C116_apart: propext, Classical.choice, Quot.sound
Nnet.Tensor.C116_shared_refuted: propext, Classical.choice, Quot.sound
Nnet.Tensor.C116_threads: propext, Classical.choice, Quot.sound
Nnet.NN.C117_gains: propext, Classical.choice, Quot.sound
Nnet.NN.C117_outputs: propext, Classical.choice, Quot.sound
Nnet.NN.C117_predictions: propext, Classical.choice, Quot.sound
Nnet.NN.C117_sharp: propext, Classical.choice, Quot.sound
Nnet.NN.C118_activations: propext, Classical.choice, Quot.sound
Nnet.NN.C118_direction: propext, Classical.choice, Quot.sound
Nnet.NN.C118_monotone: propext, Classical.choice, Quot.sound
Nnet.NN.C118_xor: propext, Classical.choice, Quot.sound
Nnet.NN.C119_units: propext, Classical.choice, Quot.sound
Nnet.Tensor.C11_reshape: propext, Classical.choice, Quot.sound
Nnet.Tensor.C11_reshape_abort: propext, Classical.choice, Quot.sound
Nnet.Tensor.C11_reshape_invalid: propext
Nnet.NN.C120_activations: propext, Classical.choice, Quot.sound
Nnet.NN.C120_asleep: propext, Classical.choice, Quot.sound
Nnet.NN.C120_remove: propext, Classical.choice, Quot.sound
Nnet.NN.C121_dies: propext, Classical.choice, Quot.sound
Nnet.NN.C121_misread: propext, Classical.choice, Quot.sound
Nnet.NN.C121_refuted: propext, Classical.choice, Quot.sound
Nnet.NN.C121_runs_partial: propext, Classical.choice, Quot.sound
Nnet.NN.C121_sample: propext, Classical.choice, Quot.sound
Nnet.NN.C121_square: propext, Classical.choice, Quot.sound
Nnet.NN.C122_backward: propext, Classical.choice, Quot.sound
Nnet.NN.C122_factor: propext, Classical.choice, Quot.sound
Nnet.NN.C122_forward: propext, Classical.choice, Quot.sound
Nnet.NN.C122_gradient: propext, Classical.choice, Quot.sound
Nnet.NN.C122_gradient_refuted: propext, Classical.choice, Quot.sound
Nnet.NN.C122_later: propext, Classical.choice, Quot.sound
Nnet.NN.C122_predict: propext, Classical.choice, Quot.sound
Nnet.NN.C122_refuted: propext, Classical.choice, Quot.sound
Nnet.NN.C123_diverges: propext, Classical.choice, Quot.sound
Nnet.NN.C123_history: propext, Classical.choice, Quot.sound
Nnet.NN.C123_invisible: propext, Classical.choice, Quot.sound
Nnet.NN.C123_monotone: propext, Classical.choice, Quot.sound
Nnet.NN.C123_perfect_refuted: propext, Classical.choice, Quot.sound
Nnet.NN.C123_regularised: propext, Classical.choice, Quot.sound
Nnet.NN.C123_runs: propext, Classical.choice, Quot.sound
Nnet.NN.C123_step: propext, Classical.choice, Quot.sound
Nnet.NN.C124_backward: propext, Classical.choice, Quot.sound
Nnet.NN.C124_forward: propext, Classical.choice, Quot.sound
Nnet.NN.C124_frozen: propext, Classical.choice, Quot.sound
Nnet.NN.C124_gradient: propext, Classical.choice, Quot.sound
Nnet.NN.C124_training: propext, Classical.choice, Quot.sound
Nnet.NN.C125_forward: propext, Classical.choice, Quot.sound
Nnet.NN.C125_history: propext, Classical.choice, Quot.sound
Nnet.NN.C125_predict: propext, Classical.choice, Quot.sound
Nnet.NN.C125_training: propext, Classical.choice, Quot.sound
Nnet.NN.C126_left: propext, Classical.choice, Quot.sound
Nnet.NN.C126_poison: propext, Classical.choice, Quot.sound
Nnet.NN.C126_reset: propext, Classical.choice, Quot.sound
Nnet.Tensor.C12_no_leak: propext, Classical.choice, Quot.sound
Nnet.Tensor.C12_programs: propext, Classical.choice, Quot.sound
Nnet.Tensor.C12_step: propext, Classical.choice, Quot.sound
Nnet.Tensor.C13_add: propext, Classical.choice, Quot.sound
Nnet.Tensor.C13_div: propext, Classical.choice, Quot.sound
Nnet.Tensor.C13_mul: propext, Classical.choice, Quot.sound
Nnet.Tensor.C13_pow: propext, Classical.choice, Quot.sound
Nnet.Tensor.C13_sub: propext, Classical.choice, Quot.sound
Nnet.Tensor.C14_broadcast_partial: propext, Classical.choice, Quot.sound
Nnet.Tensor.C14_empty_out_of_bounds: propext
Nnet.Tensor.C14_exact: propext, Classical.choice, Quot.sound
Nnet.Tensor.C14_indices_cover: propext, Classical.choice, Quot.sound
Nnet.Tensor.C14_refuted: propext, Classical.choice, Quot.sound
Nnet.Tensor.C15_arith_rejects: propext, Classical.choice, Quot.sound
Nnet.Tensor.C15_equal_accepts_mismatch: propext, Classical.choice, Quot.sound
Nnet.Tensor.C15_equal_rank_partial: propext, Classical.choice, Quot.sound
Nnet.Tensor.C15_equal_refuted: propext, Classical.choice, Quot.sound
Nnet.Tensor.C15_matmul_rejects: propext, Classical.choice, Quot.sound
Nnet.Tensor.C15_pow_rejects: propext, Classical.choice, Quot.sound
Nnet.Tensor.C16_scalar_ops: propext, Classical.choice, Quot.sound
Nnet.Tensor.C16_unary_ops: propext, Classical.choice, Quot.sound
Nnet.Tensor.C17_eq: propext, Classical.choice, Quot.sound
Nnet.Tensor.C17_equal: propext, Classical.choice, Quot.sound
Nnet.Tensor.C17_negative_eps: propext
Nnet.Tensor.C18_axes_add_up: propext, Classical.choice, Quot.sound
Nnet.Tensor.C18_axis0: propext, Classical.choice, Quot.sound
Nnet.Tensor.C18_axis1: propext, Classical.choice, Quot.sound
Nnet.Tensor.C18_axis1_no_rows: propext, Classical.choice, Quot.sound
Nnet.Tensor.C18_rank: propext, Classical.choice, Quot.sound
Nnet.Tensor.C18_total: propext, Classical.choice, Quot.sound
Nnet.Tensor.C19_axis0: propext, Classical.choice, Quot.sound
Nnet.Tensor.C19_axis1: propext, Classical.choice, Quot.sound
Nnet.Tensor.C19_axis1_no_rows: propext, Classical.choice, Quot.sound
Nnet.Tensor.C19_total: propext, Classical.choice, Quot.sound
Nnet.Tensor.C20_axis0: propext, Classical.choice, Quot.sound
Nnet.Tensor.C20_axis1: propext, Classical.choice, Quot.sound
Nnet.Tensor.C20_no_rows_out_of_bounds: propext
Nnet.Tensor.C20_rank: propext, Classical.choice, Quot.sound
Nnet.Tensor.C20_value_not_index: propext, Classical.choice, Quot.sound
Nnet.Tensor.C21_assoc: propext, Classical.choice, Quot.sound
Nnet.Tensor.C21_eyes_neutral: propext, Classical.choice, Quot.sound
Nnet.Tensor.C21_overflow: propext, Classical.choice, Quot.sound
Nnet.Tensor.C21_product: propext, Classical.choice, Quot.sound
Nnet.Tensor.C22_alias_race: propext
Nnet.Tensor.C22_alias_race_sequential: propext
Nnet.Tensor.C22_larger_keeps_shape: propext, Classical.choice, Quot.sound
Nnet.Tensor.C22_matmul_partial: propext, Classical.choice, Quot.sound
Nnet.Tensor.C22_shape_refuted: propext, Classical.choice, Quot.sound
Nnet.Tensor.C22_smaller_leaks: propext, Classical.choice, Quot.sound
Nnet.Tensor.C23_axis: propext, Classical.choice, Quot.sound
Nnet.Tensor.C23_binary: propext, Classical.choice, Quot.sound
Nnet.Tensor.C23_interleavings: propext, Classical.choice, Quot.sound
Nnet.Tensor.C23_matmul: propext, Classical.choice, Quot.sound
Nnet.Tensor.C23_unary: propext, Classical.choice, Quot.sound
Nnet.Tensor.C24_binary: propext, Classical.choice, Quot.sound
Nnet.Tensor.C24_factories: propext, Classical.choice, Quot.sound
Nnet.Tensor.C24_matmul: propext, Classical.choice, Quot.sound
Nnet.Tensor.C24_unary: propext, Classical.choice, Quot.sound
Nnet.NN.Act.C25_absolute: propext, Classical.choice, Quot.sound
Nnet.NN.Act.C25_arctan: propext, Classical.choice, Quot.sound
Nnet.NN.Act.C25_bipolarsigmoid: propext, Classical.choice, Quot.sound
Nnet.NN.Act.C25_comploglog: propext, Classical.choice, Quot.sound
Nnet.NN.Act.C25_hardtanh: propext, Classical.choice, Quot.sound
Nnet.NN.Act.C25_identity: propext, Classical.choice, Quot.sound
Nnet.NN.Act.C25_kink_values: propext, Classical.choice, Quot.sound
Nnet.NN.Act.C25_kinks: propext, Classical.choice, Quot.sound
Nnet.NN.Act.C25_lecuntanh_partial: propext, Classical.choice, Quot.sound
Nnet.NN.Act.C25_relu: propext, Classical.choice, Quot.sound
Nnet.NN.Act.C25_relucos: propext, Classical.choice, Quot.sound
Nnet.NN.Act.C25_relusin: propext, Classical.choice, Quot.sound
Nnet.NN.Act.C25_sigmoid: propext, Classical.choice, Quot.sound
Nnet.NN.Act.C25_smoothrelu: propext, Classical.choice, Quot.sound
Nnet.NN.Act.C25_tanhyperbolic: propext, Classical.choice, Quot.sound
Nnet.NN.Act.C26_absolute: propext, Classical.choice, Quot.sound
Nnet.NN.Act.C26_arctan: propext, Classical.choice, Quot.sound
Nnet.NN.Act.C26_bipolarsigmoid: propext, Classical.choice, Quot.sound
Nnet.NN.Act.C26_comploglog: propext, Classical.choice, Quot.sound
Nnet.NN.Act.C26_derivative_sign: propext, Classical.choice, Quot.sound
Nnet.NN.Act.C26_hardtanh: propext, Classical.choice, Quot.sound
Nnet.NN.Act.C26_lecuntanh: propext, Classical.choice, Quot.sound
Nnet.NN.Act.C26_relu: propext, Classical.choice, Quot.sound
Nnet.NN.Act.C26_sigmoid: propext, Classical.choice, Quot.sound
Nnet.NN.Act.C26_smoothrelu: propext, Classical.choice, Quot.sound
Nnet.NN.Act.C26_tanh: propext, Classical.choice, Quot.sound
Nnet.NN.C27_addcol: propext, Classical.choice, Quot.sound
Nnet.NN.C27_addcols: propext, Quot.sound
Nnet.NN.C27_addrow: propext, Classical.choice, Quot.sound
Nnet.NN.C27_addrows: propext, Quot.sound
Nnet.NN.C27_exp_log: propext, Classical.choice, Quot.sound
Nnet.NN.C27_funcop: propext, Quot.sound
Nnet.NN.C27_repeat: propext, Quot.sound
Nnet.NN.C27_sums: propext, Classical.choice, Quot.sound
Nnet.NN.C28_layer: propext, Classical.choice, Quot.sound
Nnet.NN.C28_network: propext, Classical.choice, Quot.sound
Nnet.NN.C28_row_alone: propext, Classical.choice, Quot.sound
Nnet.NN.C28_row_independent: propext, Classical.choice, Quot.sound
Nnet.NN.C29_constructors: propext, Classical.choice, Quot.sound
Nnet.NN.C29_crossentropy: propext, Classical.choice, Quot.sound
Nnet.NN.C29_gradient: propext, Classical.choice, Quot.sound
Nnet.NN.C29_kullbackleibler_refuted: propext, Classical.choice, Quot.sound
Nnet.NN.C29_quadratic: propext, Classical.choice, Quot.sound
Nnet.NN.C29_softmax: propext, Classical.choice, Quot.sound
Nnet.NN.C30_crossentropy: propext, Classical.choice, Quot.sound
Nnet.NN.C30_kullbackleibler_refuted: propext, Classical.choice, Quot.sound
Nnet.NN.C30_quadratic: propext, Classical.choice, Quot.sound
Nnet.NN.C30_quadratic_param: propext, Classical.choice, Quot.sound
Nnet.NN.C30_quadratic_param_refuted: propext, Classical.choice, Quot.sound
Nnet.NN.C30_softmax: propext, Classical.choice, Quot.sound
Nnet.NN.C31_crossentropy: propext, Classical.choice, Quot.sound
Nnet.NN.C31_crossentropy_min: propext, Classical.choice, Quot.sound
Nnet.NN.C31_kullbackleibler: propext, Classical.choice, Quot.sound
Nnet.NN.C31_quadratic: propext, Classical.choice, Quot.sound
Nnet.NN.C31_softmax: propext, Classical.choice, Quot.sound
Nnet.NN.C32_argmax: propext, Classical.choice, Quot.sound
Nnet.NN.C32_predict: propext, Classical.choice, Quot.sound
Nnet.NN.C33_descent: propext, Classical.choice, Quot.sound
Nnet.NN.C33_descent_outputs: propext, Classical.choice, Quot.sound
Nnet.NN.C33_kullbackleibler_climbs: propext, Classical.choice, Quot.sound
Nnet.NN.C33_update: propext, Classical.choice, Quot.sound
Nnet.NN.C34_deterministic: propext, Classical.choice, Quot.sound
Nnet.NN.C34_not_standard_deviation: propext, Classical.choice, Quot.sound
Nnet.NN.C34_randominit: propext, Classical.choice, Quot.sound
Nnet.NN.C35_cannot_open: propext, Classical.choice, Quot.sound
Nnet.NN.C35_format: propext, Classical.choice, Quot.sound
Nnet.NN.C35_layout: propext, Classical.choice, Quot.sound
Nnet.NN.C35_library: propext, Classical.choice, Quot.sound
Nnet.NN.C35_precision: propext, Classical.choice, Quot.sound
Nnet.NN.C35_roundtrip: propext, Classical.choice, Quot.sound
Nnet.NN.C35_stable: propext, Classical.choice, Quot.sound
Nnet.NN.C35_ties: propext, Classical.choice, Quot.sound
Nnet.NN.C36_any_file: propext, Classical.choice, Quot.sound
Nnet.NN.C36_crash: propext, Classical.choice, Quot.sound
Nnet.NN.C36_startOf: propext, Classical.choice, Quot.sound
Nnet.NN.C37_copy_partial: propext, Classical.choice, Quot.sound
Nnet.NN.C37_counterexample: propext, Classical.choice, Quot.sound
Nnet.NN.C37_disjoint: propext, Classical.choice, Quot.sound
Nnet.NN.C37_refuted: propext, Classical.choice, Quot.sound
Nnet.NN.C37_shared: propext, Classical.choice, Quot.sound
Nnet.NN.C38_setlrate: propext, Classical.choice, Quot.sound
Nnet.NN.C39_batch_call: propext, Classical.choice, Quot.sound
Nnet.NN.C39_batch_constructed: propext, Classical.choice, Quot.sound
Nnet.NN.C39_constructed: propext, Classical.choice, Quot.sound
Nnet.NN.C39_history: propext, Classical.choice, Quot.sound
Nnet.NN.C39_momentum_call: propext, Classical.choice, Quot.sound
Nnet.NN.C39_sgd_call: propext, Classical.choice, Quot.sound
Nnet.NN.C39_trainer_call: propext, Classical.choice, Quot.sound
Nnet.NN.C40_cost: propext, Classical.choice, Quot.sound
Nnet.NN.C40_like_trainer: propext, Classical.choice, Quot.sound
Nnet.NN.C40_missing_labels: propext, Classical.choice, Quot.sound
Nnet.NN.C40_rows: propext, Classical.choice, Quot.sound
Nnet.NN.C41_batches: propext, Classical.choice, Quot.sound
Nnet.NN.C41_coverage: propext, Classical.choice, Quot.sound
Nnet.NN.C41_throws: propext, Classical.choice, Quot.sound
Nnet.NN.C42_hidden: propext, Classical.choice, Quot.sound
Nnet.NN.C42_output: propext, Classical.choice, Quot.sound
Nnet.NN.C42_step: propext, Classical.choice, Quot.sound
Nnet.NN.C43_counterexample: propext, Classical.choice, Quot.sound
Nnet.NN.C43_direction: propext, Classical.choice, Quot.sound
Nnet.NN.C43_refuted: propext, Classical.choice, Quot.sound
Nnet.NN.C44_assign: propext, Classical.choice, Quot.sound
Nnet.NN.C44_copy_partial: propext, Classical.choice, Quot.sound
Nnet.NN.C44_nodecay: propext, Classical.choice, Quot.sound
Nnet.NN.C44_refuted: propext, Classical.choice, Quot.sound
Nnet.NN.C44_sgd_nodecay: propext, Classical.choice, Quot.sound
Nnet.NN.C44_trainer: propext, Classical.choice, Quot.sound
Nnet.NN.C45_history: propext, Classical.choice, Quot.sound
Nnet.NN.C45_refuted: propext, Classical.choice, Quot.sound
Nnet.NN.C45_span: propext, Classical.choice, Quot.sound
Nnet.NN.C46_backward_refuted: propext, Classical.choice, Quot.sound
Nnet.NN.C46_forward: propext, Classical.choice, Quot.sound
Nnet.NN.C47_constructor: propext, Classical.choice, Quot.sound
Nnet.NN.C47_exact: propext, Classical.choice, Quot.sound
Nnet.NN.C47_forward_partial: propext, Classical.choice, Quot.sound
Nnet.NN.C47_layout: propext, Classical.choice, Quot.sound
Nnet.NN.C47_refuted: propext, Classical.choice, Quot.sound
Nnet.NN.C47_stride: propext, Classical.choice, Quot.sound
Nnet.NN.C48_conv: propext, Classical.choice, Quot.sound
Nnet.NN.C48_conv_fails: propext, Classical.choice, Quot.sound
Nnet.NN.C48_maxpool: propext, Classical.choice, Quot.sound
Nnet.NN.C48_meanpool: propext, Classical.choice, Quot.sound
Nnet.NN.C48_refuted: propext, Classical.choice, Quot.sound
Nnet.NN.C48_single_partial: propext, Classical.choice, Quot.sound
Nnet.NN.C49_after_forward: propext, Classical.choice, Quot.sound
Nnet.NN.C49_exact: propext, Classical.choice, Quot.sound
Nnet.NN.C49_ignores_delta: propext, Classical.choice, Quot.sound
Nnet.NN.C49_refuted: propext, Classical.choice, Quot.sound
Nnet.NN.C49_throws: propext, Classical.choice, Quot.sound
Nnet.NN.C50_assign_loses: propext, Classical.choice, Quot.sound
Nnet.NN.C50_assign_partial: propext, Classical.choice, Quot.sound
Nnet.NN.C50_copy_weights: propext, Classical.choice, Quot.sound
Nnet.NN.C50_refuted: propext, Classical.choice, Quot.sound
Nnet.NN.C50_stride: propext, Classical.choice, Quot.sound
Nnet.NN.C51_backward: propext, Classical.choice, Quot.sound
Nnet.NN.C51_exact: propext, Classical.choice, Quot.sound
Nnet.NN.C51_maxpool_partial: propext, Classical.choice, Quot.sound
Nnet.NN.C51_refuted_channels: propext, Classical.choice, Quot.sound
Nnet.NN.C51_refuted_negative: propext, Classical.choice, Quot.sound
Nnet.NN.C51_refuted_stride: propext, Classical.choice, Quot.sound
Nnet.NN.C51_training_refuted: propext, Classical.choice, Quot.sound
Nnet.NN.C52_backward: propext, Classical.choice, Quot.sound
Nnet.NN.C52_exact: propext, Classical.choice, Quot.sound
Nnet.NN.C52_meanpool_partial: propext, Classical.choice, Quot.sound
Nnet.NN.C52_refuted_channels: propext, Classical.choice, Quot.sound
Nnet.NN.C52_refuted_stride: propext, Classical.choice, Quot.sound
Nnet.NN.C53_assign: propext, Classical.choice, Quot.sound
Nnet.NN.C53_copy_changes_size: propext, Classical.choice, Quot.sound
Nnet.NN.C53_copy_partial: propext, Classical.choice, Quot.sound
Nnet.NN.C53_forwardprop: propext, Classical.choice, Quot.sound
Nnet.NN.C54_costs: propext, Classical.choice, Quot.sound
Nnet.NN.C54_new_layer: propext, Classical.choice, Quot.sound
Nnet.NN.C54_new_net: propext, Classical.choice, Quot.sound
Nnet.NN.C54_new_output: propext, Classical.choice, Quot.sound
Nnet.NN.C54_new_trainers: propext, Classical.choice, Quot.sound
Nnet.NN.C54_training: propext, Classical.choice, Quot.sound
Nnet.NN.C55_model_unchanged: propext, Classical.choice, Quot.sound
Nnet.NN.C55_repeatable: propext, Classical.choice, Quot.sound
Nnet.NN.C56_average: propext, Classical.choice, Quot.sound
Nnet.NN.C56_outputs: propext, Classical.choice, Quot.sound
Nnet.NN.C57_batch_refuted: propext, Classical.choice, Quot.sound
Nnet.NN.C57_momentum: propext, Classical.choice, Quot.sound
Nnet.NN.C57_succeeds: propext, Classical.choice, Quot.sound
Nnet.NN.C57_trainer: propext, Classical.choice, Quot.sound
Nnet.NN.C58_conv_backward: propext, Classical.choice, Quot.sound
Nnet.NN.C58_conv_forward: propext, Classical.choice, Quot.sound
Nnet.NN.C58_maxpool_few: propext, Classical.choice, Quot.sound
Nnet.NN.C58_maxpool_race: propext, Classical.choice, Quot.sound
Nnet.NN.C58_maxpool_refuted: propext, Classical.choice, Quot.sound
Nnet.NN.C58_meanpool_forward: propext, Classical.choice, Quot.sound
Nnet.NN.C59_cost: propext, Classical.choice, Quot.sound
Nnet.NN.C59_prediction: propext, Classical.choice, Quot.sound
Nnet.NN.C59_training: propext, Classical.choice, Quot.sound
Nnet.NN.C60_computecost: propext, Classical.choice, Quot.sound
Nnet.NN.C60_costs: propext, Classical.choice, Quot.sound
Nnet.NN.C60_getcostval: propext, Classical.choice, Quot.sound
Nnet.NN.C60_getoutput_refuted: propext, Classical.choice, Quot.sound
Nnet.NN.C61_accepts_wrong_refuted: propext, Classical.choice, Quot.sound
Nnet.NN.C61_rejects_exact_refuted: propext, Classical.choice, Quot.sound
Nnet.NN.C61_verdict: propext, Classical.choice, Quot.sound
Nnet.NN.C62_behaves_alike: propext, Classical.choice, Quot.sound
Nnet.NN.C62_copy_succeeds: propext, Classical.choice, Quot.sound
Nnet.NN.C63_every_layer_can_be_chosen: propext, Classical.choice, Quot.sound
Nnet.NN.C63_randomize: propext, Classical.choice, Quot.sound
Nnet.NN.C63_sethiddenw: propext, Classical.choice, Quot.sound
Nnet.NN.C63_setoutputw: propext, Classical.choice, Quot.sound
Nnet.NN.C63_update: propext, Classical.choice, Quot.sound
Nnet.NN.C64_resume: propext, Classical.choice, Quot.sound
Nnet.NN.C64_resume_refuted: propext, Classical.choice, Quot.sound
Nnet.NN.C64_weights_alone: propext, Classical.choice, Quot.sound
Nnet.NN.C65_kullbackleibler_refuted: propext, Classical.choice, Quot.sound
Nnet.NN.C65_single: propext, Classical.choice, Quot.sound
Nnet.NN.C65_step: propext, Classical.choice, Quot.sound
Nnet.NN.C65_training: propext, Classical.choice, Quot.sound
Nnet.NN.C66_isolation: propext, Classical.choice, Quot.sound
Nnet.NN.C67_access: propext, Classical.choice, Quot.sound
Nnet.NN.C67_cost: propext, Classical.choice, Quot.sound
Nnet.NN.C67_forward: propext, Classical.choice, Quot.sound
Nnet.NN.C67_input: propext, Classical.choice, Quot.sound
Nnet.NN.C67_label: propext, Classical.choice, Quot.sound
Nnet.NN.C67_parts: propext, Classical.choice, Quot.sound
Nnet.NN.C67_training: propext, Classical.choice, Quot.sound
Nnet.NN.C68_descends: propext, Classical.choice, Quot.sound
Nnet.NN.C68_learns: propext, Classical.choice, Quot.sound
Nnet.NN.C68_optimal: propext, Classical.choice, Quot.sound
Nnet.NN.C68_rate: propext, Classical.choice, Quot.sound
Nnet.NN.C68_single: propext, Classical.choice, Quot.sound
Nnet.NN.C69_determinate: propext, Classical.choice, Quot.sound
Nnet.NN.C69_update_refuted: propext, Classical.choice, Quot.sound
Nnet.NN.C70_costs: propext, Classical.choice, Quot.sound
Nnet.NN.C70_program: propext, Classical.choice, Quot.sound
Nnet.NN.C71_spiral: propext, Classical.choice, Quot.sound
Nnet.NN.C71_spiral_draw: propext, Classical.choice, Quot.sound
Nnet.NN.C71_spiral_load: propext, Classical.choice, Quot.sound
Nnet.NN.C71_spiral_sample: propext, Classical.choice, Quot.sound
Nnet.NN.C71_xor: propext, Classical.choice, Quot.sound
Nnet.NN.C71_xor_draw: propext, Classical.choice, Quot.sound
Nnet.NN.C71_xor_load: propext, Classical.choice, Quot.sound
Nnet.NN.C71_xor_sample: propext, Classical.choice, Quot.sound
Nnet.NN.Flt.C72_derivatives: propext, Classical.choice, Quot.sound
Nnet.NN.Flt.C72_derivatives_overflow: propext, Classical.choice, Quot.sound
Nnet.NN.Flt.C72_derivatives_refuted: propext, Classical.choice, Quot.sound
Nnet.NN.Flt.C72_nan: propext, Classical.choice, Quot.sound
Nnet.NN.Flt.C72_values: propext, Classical.choice, Quot.sound
Nnet.NN.Flt.C73_persist: propext, Classical.choice, Quot.sound
Nnet.NN.Flt.C73_predict_first: propext, Classical.choice, Quot.sound
Nnet.NN.Flt.C73_predict_other: propext, Classical.choice, Quot.sound
Nnet.NN.Flt.C73_spread: propext, Classical.choice, Quot.sound
Nnet.NN.Flt.C74_dead: propext, Classical.choice, Quot.sound
Nnet.NN.Flt.C74_overflow: propext, Classical.choice, Quot.sound
Nnet.NN.Flt.C74_safe: propext, Classical.choice, Quot.sound
Nnet.NN.Flt.C74_second: propext, Classical.choice, Quot.sound
Nnet.NN.Flt.C74_underflow: propext, Classical.choice, Quot.sound
Nnet.NN.Flt.C75_crossentropy: propext, Classical.choice, Quot.sound
Nnet.NN.Flt.C75_crossentropy_safe: propext, Classical.choice, Quot.sound
Nnet.NN.Flt.C75_crossentropy_saturated: propext, Classical.choice, Quot.sound
Nnet.NN.Flt.C75_kullback: propext, Classical.choice, Quot.sound
Nnet.NN.Flt.C75_quadratic: propext, Classical.choice, Quot.sound
Nnet.NN.Flt.C75_softmax: propext, Classical.choice, Quot.sound
Nnet.NN.Flt.C76_forward: propext, Classical.choice, Quot.sound
Nnet.NN.Flt.C76_predict: propext, Classical.choice, Quot.sound
Nnet.NN.Flt.C76_train: propext, Classical.choice, Quot.sound
Nnet.NN.Flt.C77_forward: propext, Classical.choice, Quot.sound
Nnet.NN.Flt.C77_predict: propext, Classical.choice, Quot.sound
Nnet.NN.Flt.C77_tanh: propext, Classical.choice, Quot.sound
Nnet.NN.Flt.C78_bounded: propext, Classical.choice, Quot.sound
Nnet.NN.Flt.C78_train: propext, Classical.choice, Quot.sound
Nnet.NN.Flt.C79_any_file: propext, Classical.choice, Quot.sound
Nnet.NN.Flt.C79_finite: propext, Classical.choice, Quot.sound
Nnet.NN.Flt.C79_nonfinite: propext, Classical.choice, Quot.sound
Nnet.NN.Flt.C79_same_file_refuted: propext, Classical.choice, Quot.sound
Nnet.NN.Flt.C79_typed_file: propext, Classical.choice, Quot.sound
Nnet.NN.C80_renumbering: propext, Classical.choice, Quot.sound
Nnet.NN.C80_twins: propext, Classical.choice, Quot.sound
Nnet.NN.C81_assigned_network: propext, Classical.choice, Quot.sound
Nnet.NN.C81_assigned_trainers: propext, Classical.choice, Quot.sound
Nnet.NN.C81_copied_trainers: propext, Classical.choice, Quot.sound
Nnet.NN.C81_network: propext, Classical.choice, Quot.sound
Nnet.NN.C81_trainers: propext, Classical.choice, Quot.sound
Nnet.NN.C82_agrees: propext, Classical.choice, Quot.sound
Nnet.NN.C82_batch: propext, Classical.choice, Quot.sound
Nnet.NN.C82_missing_labels: propext, Classical.choice, Quot.sound
Nnet.NN.C82_momentum: propext, Classical.choice, Quot.sound
Nnet.NN.C82_not_atomic: propext, Classical.choice, Quot.sound
Nnet.NN.C82_passes: propext, Classical.choice, Quot.sound
Nnet.NN.C82_recovers: propext, Classical.choice, Quot.sound
Nnet.NN.C82_sgd: propext, Classical.choice, Quot.sound
Nnet.NN.C82_step: propext, Classical.choice, Quot.sound
Nnet.NN.C82_trainer: propext, Classical.choice, Quot.sound
Nnet.NN.C82_update: propext, Classical.choice, Quot.sound
Nnet.NN.C82_updateWith: propext, Classical.choice, Quot.sound
Nnet.NN.C83_batch: propext, Classical.choice, Quot.sound
Nnet.NN.C83_first: propext, Classical.choice, Quot.sound
Nnet.NN.C83_later: propext, Classical.choice, Quot.sound
Nnet.NN.C83_momentum: propext, Classical.choice, Quot.sound
Nnet.Tensor.C84_lost: propext, Classical.choice, Quot.sound
Nnet.Tensor.C84_programs: propext, Classical.choice, Quot.sound
Nnet.Tensor.C85_argmax: propext, Classical.choice, Quot.sound
Nnet.Tensor.C85_argmin: propext, Classical.choice, Quot.sound
Nnet.Tensor.C85_broadcast_blind: propext, Classical.choice, Quot.sound
Nnet.Tensor.C85_broadcast_ops: propext, Classical.choice, Quot.sound
Nnet.Tensor.C85_equal: propext, Classical.choice, Quot.sound
Nnet.Tensor.C85_eyes: propext, Classical.choice, Quot.sound
Nnet.Tensor.C85_fill: propext, Classical.choice, Quot.sound
Nnet.Tensor.C85_math_ops: propext, Classical.choice, Quot.sound
Nnet.Tensor.C85_matmul: propext, Classical.choice, Quot.sound
Nnet.Tensor.C85_negate: propext, Classical.choice, Quot.sound
Nnet.Tensor.C85_objects: propext, Classical.choice, Quot.sound
Nnet.Tensor.C85_reduce_mean: propext, Classical.choice, Quot.sound
Nnet.Tensor.C85_reduce_sum: propext, Classical.choice, Quot.sound
Nnet.Tensor.C85_scalar_ops: propext, Classical.choice, Quot.sound
Nnet.Tensor.C85_shapes: propext, Classical.choice, Quot.sound
Nnet.Tensor.C85_tensor_ops: propext, Classical.choice, Quot.sound
Nnet.NN.C86_class: propext, Classical.choice, Quot.sound
Nnet.NN.C86_closed: propext, Classical.choice, Quot.sound
Nnet.NN.C86_margin_needed: propext, Classical.choice, Quot.sound
Nnet.NN.C86_outputs: propext, Classical.choice, Quot.sound
Nnet.NN.C86_reload: propext, Classical.choice, Quot.sound
Nnet.NN.C86_slopes: propext, Classical.choice, Quot.sound
Nnet.NN.C86_slopes_least: propext, Classical.choice, Quot.sound
Nnet.NN.C86_unit_acts: propext, Classical.choice, Quot.sound
Nnet.NN.C87_act_test: propext, Classical.choice, Quot.sound
Nnet.NN.C87_derivative: propext, Classical.choice, Quot.sound
Nnet.NN.C87_dimensions: propext, Classical.choice, Quot.sound
Nnet.NN.C87_kinks: propext, Classical.choice, Quot.sound
Nnet.NN.C87_lecuntanh: propext, Classical.choice, Quot.sound
Nnet.NN.C87_random_init: propext, Classical.choice, Quot.sound
Nnet.NN.C88_converges: propext, Classical.choice, Quot.sound
Nnet.NN.C88_descends: propext, Classical.choice, Quot.sound
Nnet.NN.C88_optimal: propext, Classical.choice, Quot.sound
Nnet.NN.C88_rate: propext, Classical.choice, Quot.sound
Nnet.NN.C88_separable_logistic: propext, Classical.choice, Quot.sound
Nnet.NN.C88_separable_softmax: propext, Classical.choice, Quot.sound
Nnet.NN.C89_default_param: propext, Classical.choice, Quot.sound
Nnet.NN.C89_getpnnodes_refuted: propext, Classical.choice, Quot.sound
Nnet.NN.C89_input_norm: propext, Classical.choice, Quot.sound
Nnet.NN.C89_layer: propext, Classical.choice, Quot.sound
Nnet.NN.C89_negative: propext, Classical.choice, Quot.sound
Nnet.NN.C89_outputs: propext, Classical.choice, Quot.sound
Nnet.NN.C89_setters: propext, Classical.choice, Quot.sound
Nnet.NN.C90_batch: propext, Classical.choice, Quot.sound
Nnet.NN.C90_sgd: propext, Classical.choice, Quot.sound
Nnet.NN.C90_trainer: propext, Classical.choice, Quot.sound
Nnet.NN.C91_energy: propext, Classical.choice, Quot.sound
Nnet.NN.C91_optimal: propext, Classical.choice, Quot.sound
Nnet.NN.C91_regularised: propext, Classical.choice, Quot.sound
Nnet.NN.C91_separable_logistic: propext, Classical.choice, Quot.sound
Nnet.NN.C91_separable_softmax: propext, Classical.choice, Quot.sound
Nnet.Tensor.C92_agree: propext, Classical.choice, Quot.sound
Nnet.Tensor.C92_elementwise: propext, Classical.choice, Quot.sound
Nnet.Tensor.C92_eyes: propext, Classical.choice, Quot.sound
Nnet.Tensor.C92_layer: propext, Classical.choice, Quot.sound
Nnet.Tensor.C92_matmul_add: propext, Classical.choice, Quot.sound
Nnet.Tensor.C92_matmul_assoc: propext, Classical.choice, Quot.sound
Nnet.Tensor.C92_meaning: propext, Classical.choice, Quot.sound
Nnet.Tensor.C92_not_commutative: propext, Classical.choice, Quot.sound
Nnet.Tensor.C92_sub_matmul: propext, Classical.choice, Quot.sound
Nnet.Tensor.C92_sums: propext, Classical.choice, Quot.sound
Nnet.Tensor.C92_total: propext, Classical.choice, Quot.sound
Nnet.NN.C93_cost: propext, Classical.choice, Quot.sound
Nnet.NN.C93_outputs: propext, Classical.choice, Quot.sound
Nnet.NN.C93_predict: propext, Classical.choice, Quot.sound
Nnet.NN.C93_training: propext, Classical.choice, Quot.sound
Nnet.NN.C94_dead_unit: propext, Classical.choice, Quot.sound
Nnet.NN.C95_decay_thaws: propext, Classical.choice, Quot.sound
Nnet.NN.C95_frozen: propext, Classical.choice, Quot.sound
Nnet.NN.C96_conv_assign_refuted: propext, Classical.choice, Quot.sound
Nnet.NN.C96_dense_softmax: propext, Classical.choice, Quot.sound
Nnet.NN.C96_norm_assign: propext, Classical.choice, Quot.sound
Nnet.NN.C96_norm_copy_partial: propext, Classical.choice, Quot.sound
Nnet.NN.C96_norm_copy_refuted: propext, Classical.choice, Quot.sound
Nnet.NN.C96_pool_assign_partial: propext, Classical.choice, Quot.sound
Nnet.NN.C96_pool_copy_refuted: propext, Classical.choice, Quot.sound
Nnet.NN.C97_cost: propext, Classical.choice, Quot.sound
Nnet.NN.C97_duplicates: propext, Classical.choice, Quot.sound
Nnet.NN.C97_repeated: propext, Classical.choice, Quot.sound
Nnet.NN.C97_training: propext, Classical.choice, Quot.sound
Nnet.NN.C98_outputs_partial: propext, Classical.choice, Quot.sound
Nnet.NN.C98_roundtrip_partial: propext, Classical.choice, Quot.sound
Nnet.NN.C98_training_refuted: propext, Classical.choice, Quot.sound
Nnet.NN.C98_untied_partial: propext, Classical.choice, Quot.sound
Nnet.NN.C99_activations: propext, Classical.choice, Quot.sound
Nnet.NN.C99_bounded: propext, Classical.choice, Quot.sound
Nnet.NN.C99_lambda_needed: propext, Classical.choice, Quot.sound
Nnet.NN.C99_outputs: propext, Classical.choice, Quot.sound
