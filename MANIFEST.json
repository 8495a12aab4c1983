{
 "claims": [
  {
   "property": "C01",
   "status": "proved",
   "theorems": [
    "C01_chunk_table",
    "C01_out_of_range"
   ],
   "note": ""
  },
  {
   "property": "C02",
   "status": "proved",
   "theorems": [
    "C02_abort_iff",
    "C02_overflow_iff",
    "C02_accepts_iff"
   ],
   "note": ""
  },
  {
   "property": "C03",
   "status": "proved",
   "theorems": [
    "C03_copy",
    "C03_default_aborts"
   ],
   "note": ""
  },
  {
   "property": "C04",
   "status": "proved",
   "theorems": [
    "C04_zeros",
    "C04_ones",
    "C04_gaussian",
    "C04_rejects",
    "C04_others_undisturbed"
   ],
   "note": ""
  },
  {
   "property": "C05",
   "status": "proved",
   "theorems": [
    "C05_eyes",
    "C05_eyes_abort",
    "C05_eyes_overflow"
   ],
   "note": ""
  },
  {
   "property": "C06",
   "status": "proved",
   "theorems": [
    "C06_deep_copy",
    "C06_writes_independent",
    "C06_dataless_undefined"
   ],
   "note": ""
  },
  {
   "property": "C07",
   "status": "partial",
   "theorems": [
    "C07_copy_assign_partial",
    "C07_self_assign",
    "C07_self_assign_dataless",
    "C07_grow_indeterminate",
    "C07_shrink_out_of_bounds",
    "C07_null_target",
    "C07_refuted"
   ],
   "note": "The full statement is false of the code (C07_refuted): a larger source leaves indeterminate elements, a smaller one reads out of bounds. Proved: equal totals, data-less target of equal total, self assignment; the failing cases are characterised."
  },
  {
   "property": "C08",
   "status": "proved",
   "theorems": [
    "C08_move_ctor",
    "C08_dataless_undefined"
   ],
   "note": ""
  },
  {
   "property": "C09",
   "status": "partial",
   "theorems": [
    "C09_move_assign_partial",
    "C09_no_leak_null_target",
    "C09_leaks",
    "C09_self_move_loses_data"
   ],
   "note": "The transfer of the value is proved for every pair; \"leaks nothing\" is false of the code when the target owns a buffer (C09_leaks) and proved when it does not; self move loses the data."
  },
  {
   "property": "C10",
   "status": "partial",
   "theorems": [
    "C10_destroy_partial",
    "C10_destroy_dataless",
    "C10_fresh_destroyable",
    "C10_scalar_refuted"
   ],
   "note": "True for every array-allocated tensor; false for Tensor(val), which is allocated with scalar new and released with delete[] (C10_scalar_refuted)."
  },
  {
   "property": "C11",
   "status": "proved",
   "theorems": [
    "C11_reshape",
    "C11_reshape_abort",
    "C11_reshape_invalid"
   ],
   "note": ""
  },
  {
   "property": "C12",
   "status": "proved",
   "theorems": [
    "C12_step",
    "C12_programs",
    "C12_no_leak"
   ],
   "note": ""
  },
  {
   "property": "C13",
   "status": "proved",
   "theorems": [
    "C13_add",
    "C13_sub",
    "C13_mul",
    "C13_div",
    "C13_pow"
   ],
   "note": ""
  },
  {
   "property": "C14",
   "status": "partial",
   "theorems": [
    "C14_broadcast_partial",
    "C14_exact",
    "C14_indices_cover",
    "C14_refuted",
    "C14_empty_out_of_bounds"
   ],
   "note": "True when at most one leading dimension is broadcast; with two or more the code leaves elements 0 (C14_refuted; C14_broadcast_exact says exactly which) and for a zero leading dimension writes out of bounds."
  },
  {
   "property": "C15",
   "status": "partial",
   "theorems": [
    "C15_arith_rejects",
    "C15_pow_rejects",
    "C15_equal_rank_partial",
    "C15_equal_accepts_mismatch",
    "C15_equal_refuted",
    "C15_matmul_rejects"
   ],
   "note": "True for +,-,*,/,^ and the matrix product; == and equal compare only the ranks (C15_equal_refuted)."
  },
  {
   "property": "C16",
   "status": "proved",
   "theorems": [
    "C16_scalar_ops",
    "C16_unary_ops"
   ],
   "note": ""
  },
  {
   "property": "C17",
   "status": "proved",
   "theorems": [
    "C17_eq",
    "C17_equal",
    "C17_negative_eps"
   ],
   "note": ""
  },
  {
   "property": "C18",
   "status": "proved",
   "theorems": [
    "C18_total",
    "C18_axis0",
    "C18_axis1",
    "C18_axis1_no_rows",
    "C18_rank",
    "C18_axes_add_up"
   ],
   "note": ""
  },
  {
   "property": "C19",
   "status": "proved",
   "theorems": [
    "C19_total",
    "C19_axis0",
    "C19_axis1",
    "C19_axis1_no_rows"
   ],
   "note": ""
  },
  {
   "property": "C20",
   "status": "proved",
   "theorems": [
    "C20_axis0",
    "C20_axis1",
    "C20_rank",
    "C20_no_rows_out_of_bounds",
    "C20_value_not_index"
   ],
   "note": ""
  },
  {
   "property": "C21",
   "status": "proved",
   "theorems": [
    "C21_product",
    "C21_overflow",
    "C21_eyes_neutral",
    "C21_assoc"
   ],
   "note": ""
  },
  {
   "property": "C22",
   "status": "partial",
   "theorems": [
    "C22_matmul_partial",
    "C22_larger_keeps_shape",
    "C22_smaller_leaks",
    "C22_shape_refuted",
    "C22_alias_race",
    "C22_alias_race_sequential"
   ],
   "note": "Proved for out data-less, smaller or of the exact size as to the elements; the shape of a larger out is not {m,n}, a smaller out leaks (counterexamples proved)."
  },
  {
   "property": "C23",
   "status": "proved",
   "theorems": [
    "C23_interleavings",
    "C23_binary",
    "C23_unary",
    "C23_axis",
    "C23_matmul"
   ],
   "note": ""
  },
  {
   "property": "C24",
   "status": "proved",
   "theorems": [
    "C24_factories",
    "C24_binary",
    "C24_unary",
    "C24_matmul"
   ],
   "note": ""
  },
  {
   "property": "C25",
   "status": "partial",
   "theorems": [
    "C25_identity",
    "C25_sigmoid",
    "C25_arctan",
    "C25_tanhyperbolic",
    "C25_bipolarsigmoid",
    "C25_comploglog",
    "C25_lecuntanh_partial",
    "C25_hardtanh",
    "C25_absolute",
    "C25_relu",
    "C25_relucos",
    "C25_relusin",
    "C25_smoothrelu",
    "C25_kinks",
    "C25_kink_values"
   ],
   "note": "Proved for every activation except lecuntanh, whose actd uses a truncated constant and is therefore nowhere exactly the derivative; C25_lecuntanh_partial gives the exact factor. At kinks actd is a one-sided derivative (C25_kink_values)."
  },
  {
   "property": "C26",
   "status": "proved",
   "theorems": [
    "C26_sigmoid",
    "C26_comploglog",
    "C26_bipolarsigmoid",
    "C26_tanh",
    "C26_lecuntanh",
    "C26_arctan",
    "C26_hardtanh",
    "C26_relu",
    "C26_absolute",
    "C26_smoothrelu",
    "C26_derivative_sign"
   ],
   "note": ""
  },
  {
   "property": "C27",
   "status": "proved",
   "theorems": [
    "C27_addcol",
    "C27_addrow",
    "C27_addrows",
    "C27_addcols",
    "C27_funcop",
    "C27_sums",
    "C27_repeat",
    "C27_exp_log"
   ],
   "note": ""
  },
  {
   "property": "C28",
   "status": "proved",
   "theorems": [
    "C28_layer",
    "C28_network",
    "C28_row_alone",
    "C28_row_independent"
   ],
   "note": ""
  },
  {
   "property": "C29",
   "status": "partial",
   "theorems": [
    "C29_gradient",
    "C29_quadratic",
    "C29_crossentropy",
    "C29_softmax",
    "C29_kullbackleibler_refuted",
    "C29_constructors"
   ],
   "note": "True for every output layer whose delta is the derivative of its cost (C29_gradient) and for the quadratic, cross-entropy and softmax outputs; false for the Kullback-Leibler output, whose every gradient has the wrong sign (C29_kullbackleibler_refuted)."
  },
  {
   "property": "C30",
   "status": "partial",
   "theorems": [
    "C30_quadratic",
    "C30_quadratic_param",
    "C30_quadratic_param_refuted",
    "C30_crossentropy",
    "C30_softmax",
    "C30_kullbackleibler_refuted"
   ],
   "note": "Proved for QuadraticOutput, CrossEntropyOutput and SoftmaxOutput; false for KullbackLeiblerOutput (sign) and for QuadraticOutput built from a LayerParam with another activation (refuted theorems)."
  },
  {
   "property": "C31",
   "status": "proved",
   "theorems": [
    "C31_quadratic",
    "C31_crossentropy",
    "C31_crossentropy_min",
    "C31_softmax",
    "C31_kullbackleibler"
   ],
   "note": ""
  },
  {
   "property": "C32",
   "status": "proved",
   "theorems": [
    "C32_predict",
    "C32_argmax"
   ],
   "note": ""
  },
  {
   "property": "C33",
   "status": "partial",
   "theorems": [
    "C33_update",
    "C33_descent",
    "C33_descent_outputs",
    "C33_kullbackleibler_climbs"
   ],
   "note": "True for every output layer whose delta is the derivative of its cost; false for the Kullback-Leibler output, which climbs (C33_kullbackleibler_climbs)."
  },
  {
   "property": "C34",
   "status": "proved",
   "theorems": [
    "C34_randominit",
    "C34_deterministic",
    "C34_not_standard_deviation"
   ],
   "note": ""
  },
  {
   "property": "C35",
   "status": "proved",
   "theorems": [
    "C35_roundtrip",
    "C35_cannot_open",
    "C35_layout",
    "C35_ties",
    "C35_format",
    "C35_precision",
    "C35_stable",
    "C35_library"
   ],
   "note": "For every architecture and all real weights, for any library conversions satisfying Spec.Converts; C35_format proves that the modelled %.6g/strtod conversions satisfy it with rounding to six significant digits, C35_precision bounds the loss by 5e-6 relative, C35_library puts the two together. Infinities and NaN are not modelled."
  },
  {
   "property": "C36",
   "status": "proved",
   "theorems": [
    "C36_any_file",
    "C36_crash",
    "C36_startOf"
   ],
   "note": "Every crash point; the weight cut in the middle is left open, as in the statement. C36_any_file covers arbitrary file contents."
  },
  {
   "property": "C37",
   "status": "partial",
   "theorems": [
    "C37_disjoint",
    "C37_copy_partial",
    "C37_shared",
    "C37_refuted",
    "C37_counterexample"
   ],
   "note": "False for every network with a hidden layer: copies share the hidden layer objects (C37_shared, C37_refuted, C37_counterexample). Proved: networks without a common hidden layer are independent under every history of operations (C37_disjoint), copies of networks with only an output layer are independent (C37_copy_partial)."
  },
  {
   "property": "C38",
   "status": "proved",
   "theorems": [
    "C38_setlrate"
   ],
   "note": ""
  },
  {
   "property": "C39",
   "status": "proved",
   "theorems": [
    "C39_trainer_call",
    "C39_sgd_call",
    "C39_momentum_call",
    "C39_history",
    "C39_batch_call",
    "C39_constructed",
    "C39_batch_constructed"
   ],
   "note": ""
  },
  {
   "property": "C40",
   "status": "proved",
   "theorems": [
    "C40_rows",
    "C40_like_trainer",
    "C40_missing_labels",
    "C40_cost"
   ],
   "note": ""
  },
  {
   "property": "C41",
   "status": "proved",
   "theorems": [
    "C41_batches",
    "C41_coverage",
    "C41_throws"
   ],
   "note": ""
  },
  {
   "property": "C42",
   "status": "proved",
   "theorems": [
    "C42_output",
    "C42_hidden",
    "C42_step"
   ],
   "note": ""
  },
  {
   "property": "C43",
   "status": "partial",
   "theorems": [
    "C43_counterexample",
    "C43_direction",
    "C43_refuted"
   ],
   "note": "The full statement is false of the code: the factor (iters-1)/iters is an integer division and so 0. C43_direction proves what the direction is (the newest gradient divided by the number of calls), C43_refuted that it equals the average exactly when the earlier gradients sum to 0, C43_counterexample gives a concrete run."
  },
  {
   "property": "C44",
   "status": "partial",
   "theorems": [
    "C44_trainer",
    "C44_assign",
    "C44_copy_partial",
    "C44_refuted",
    "C44_nodecay",
    "C44_sgd_nodecay"
   ],
   "note": "True of Trainer (copy and assignment), of assignment in all classes, and of SGDTrainer copies without decay; false of the copy constructors of SGDTrainer, BatchTrainer and MomentumTrainer in general, which reset the iteration count and switch decay on (C44_copy_partial says exactly what is kept, C44_refuted shows the observable difference)."
  },
  {
   "property": "C45",
   "status": "partial",
   "theorems": [
    "C45_history",
    "C45_span",
    "C45_refuted"
   ],
   "note": "Proved for every history after the first backprop and non-constant inputs (C45_history, C45_span); false before the first backprop, because the factor is uninitialised (C45_refuted)."
  },
  {
   "property": "C46",
   "status": "partial",
   "theorems": [
    "C46_forward",
    "C46_backward_refuted"
   ],
   "note": "Forward part proved for all matrices; the backward part is false for every input and delta (C46_backward_refuted)."
  },
  {
   "property": "C47",
   "status": "partial",
   "theorems": [
    "C47_constructor",
    "C47_exact",
    "C47_forward_partial",
    "C47_stride",
    "C47_refuted",
    "C47_layout"
   ],
   "note": "False of the code in general (C47_refuted). C47_exact says for every geometry and input what forwardprop returns; C47_forward_partial proves the convolution for stride 1 and one sample."
  },
  {
   "property": "C48",
   "status": "partial",
   "theorems": [
    "C48_conv",
    "C48_maxpool",
    "C48_meanpool",
    "C48_conv_fails",
    "C48_refuted",
    "C48_single_partial"
   ],
   "note": "False of the code: every row of the result is computed from the interleaved batch (C48_conv/_maxpool/_meanpool say which), so it holds only for batches of one row (C48_single_partial; C48_refuted)."
  },
  {
   "property": "C49",
   "status": "partial",
   "theorems": [
    "C49_ignores_delta",
    "C49_exact",
    "C49_after_forward",
    "C49_throws",
    "C49_refuted"
   ],
   "note": "False of the code (C49_refuted, C49_ignores_delta). C49_exact is the closed form of what the code stores for stride 1 and spatial = 2*padding+1; C49_throws the other sizes."
  },
  {
   "property": "C50",
   "status": "partial",
   "theorems": [
    "C50_assign_partial",
    "C50_assign_loses",
    "C50_stride",
    "C50_copy_weights",
    "C50_refuted"
   ],
   "note": "False of the code: assignment sets stride := spatial and draws new weights (C50_assign_loses, C50_stride, C50_copy_weights, C50_refuted); C50_assign_partial says what is kept."
  },
  {
   "property": "C51",
   "status": "partial",
   "theorems": [
    "C51_exact",
    "C51_maxpool_partial",
    "C51_refuted_negative",
    "C51_refuted_channels",
    "C51_refuted_stride",
    "C51_backward",
    "C51_training_refuted"
   ],
   "note": "Proved for one channel, stride 1, one sample, nonnegative pixels (C51_maxpool_partial), exact for all inputs (C51_exact); false otherwise (C51_refuted_negative, _channels, _stride). backprop returns its argument, so a network with a pooling layer behind a dense one cannot be trained (C51_backward, C51_training_refuted)."
  },
  {
   "property": "C52",
   "status": "partial",
   "theorems": [
    "C52_exact",
    "C52_meanpool_partial",
    "C52_refuted_channels",
    "C52_refuted_stride",
    "C52_backward"
   ],
   "note": "Proved for one channel, stride 1, one sample (C52_meanpool_partial), exact for all inputs (C52_exact); false otherwise (C52_refuted_channels, _stride); backprop returns an empty matrix (C52_backward)."
  },
  {
   "property": "C53",
   "status": "partial",
   "theorems": [
    "C53_forwardprop",
    "C53_copy_partial",
    "C53_copy_changes_size",
    "C53_assign"
   ],
   "note": "forwardprop and assignment are proved; a copy-constructed InputLayer is one row taller than the original (C53_copy_changes_size)."
  },
  {
   "property": "C54",
   "status": "proved",
   "theorems": [
    "C54_costs",
    "C54_training",
    "C54_new_layer",
    "C54_new_output",
    "C54_new_net",
    "C54_new_trainers"
   ],
   "note": ""
  },
  {
   "property": "C55",
   "status": "proved",
   "theorems": [
    "C55_model_unchanged",
    "C55_repeatable"
   ],
   "note": ""
  },
  {
   "property": "C56",
   "status": "proved",
   "theorems": [
    "C56_average",
    "C56_outputs"
   ],
   "note": ""
  },
  {
   "property": "C57",
   "status": "partial",
   "theorems": [
    "C57_succeeds",
    "C57_momentum",
    "C57_trainer",
    "C57_batch_refuted"
   ],
   "note": "Proved for Trainer and MomentumTrainer (SGDTrainer: C40_cost); false for BatchTrainer, whose costed call throws unless the batch size equals the number of samples (C57_batch_refuted)."
  },
  {
   "property": "C58",
   "status": "partial",
   "theorems": [
    "C58_conv_forward",
    "C58_meanpool_forward",
    "C58_conv_backward",
    "C58_maxpool_race",
    "C58_maxpool_refuted",
    "C58_maxpool_few"
   ],
   "note": "Proved for the convolution layer (C58_conv_forward, C58_conv_backward) and mean pooling (C58_meanpool_forward), failures included. False for max pooling: with 16 or more channels every schedule is a data race (C58_maxpool_race, C58_maxpool_refuted); with fewer the loop is sequential (C58_maxpool_few)."
  },
  {
   "property": "C59",
   "status": "proved",
   "theorems": [
    "C59_cost",
    "C59_training",
    "C59_prediction"
   ],
   "note": ""
  },
  {
   "property": "C60",
   "status": "partial",
   "theorems": [
    "C60_costs",
    "C60_computecost",
    "C60_getcostval",
    "C60_getoutput_refuted"
   ],
   "note": "Proved for computecost (all four library costs) and for an output layer used directly. False through NeuralNet::getoutput(): the copy has no label, so getcostval() throws (C60_getoutput_refuted)."
  },
  {
   "property": "C61",
   "status": "partial",
   "theorems": [
    "C61_verdict",
    "C61_rejects_exact_refuted",
    "C61_accepts_wrong_refuted"
   ],
   "note": "Proved: check() ends, restores the weights and returns true iff every difference quotient differs from the gradient by at least 1e-6 (C61_verdict), i.e. the verdict is inverted; hence false as claimed: an exact gradient is rejected and a wrong one accepted (C61_rejects_exact_refuted, C61_accepts_wrong_refuted)."
  },
  {
   "property": "C62",
   "status": "proved",
   "theorems": [
    "C62_behaves_alike",
    "C62_copy_succeeds"
   ],
   "note": ""
  },
  {
   "property": "C63",
   "status": "proved",
   "theorems": [
    "C63_update",
    "C63_sethiddenw",
    "C63_setoutputw",
    "C63_randomize",
    "C63_every_layer_can_be_chosen"
   ],
   "note": ""
  },
  {
   "property": "C64",
   "status": "partial",
   "theorems": [
    "C64_weights_alone",
    "C64_resume",
    "C64_resume_refuted"
   ],
   "note": "C64_weights_alone is proved in full; resuming is proved when the weights saved survive the text format (C64_resume); with the library format and weights of more than six digits it is false (C64_resume_refuted)."
  },
  {
   "property": "C65",
   "status": "partial",
   "theorems": [
    "C65_step",
    "C65_training",
    "C65_single",
    "C65_kullbackleibler_refuted"
   ],
   "note": "Proved for the quadratic, cross-entropy and softmax outputs. False for the Kullback-Leibler output: at a perfect fit every output bias moves by the learning rate (C65_kullbackleibler_refuted)."
  },
  {
   "property": "C66",
   "status": "proved",
   "theorems": [
    "C66_isolation"
   ],
   "note": ""
  },
  {
   "property": "C67",
   "status": "proved",
   "theorems": [
    "C67_forward",
    "C67_input",
    "C67_label",
    "C67_training",
    "C67_cost",
    "C67_access",
    "C67_parts"
   ],
   "note": ""
  },
  {
   "property": "C68",
   "status": "proved",
   "theorems": [
    "C68_descends",
    "C68_rate",
    "C68_optimal",
    "C68_learns",
    "C68_single"
   ],
   "note": "real arithmetic in place of doubles, as everywhere in the NN model"
  },
  {
   "property": "C69",
   "status": "proved",
   "theorems": [
    "C69_determinate",
    "C69_update_refuted"
   ],
   "note": "the condition on the program is shown necessary by C69_update_refuted; gethidden/getoutput hand the uninitialised gradient to the caller and are excluded for the same reason"
  },
  {
   "property": "C70",
   "status": "proved",
   "theorems": [
    "C70_costs",
    "C70_program"
   ],
   "note": "dense layers; the demo networks of C71 are concrete instances of the hypotheses"
  },
  {
   "property": "C71",
   "status": "proved",
   "theorems": [
    "C71_xor_load",
    "C71_xor_sample",
    "C71_xor_draw",
    "C71_xor",
    "C71_spiral_load",
    "C71_spiral_sample",
    "C71_spiral_draw",
    "C71_spiral"
   ],
   "note": "OpenCV calls other than writing a pixel (windows, waiting for keys, printing the time) are not modelled; a data file that opens but is cut short is covered as arbitrary numbers"
  },
  {
   "property": "C72",
   "status": "partial",
   "theorems": [
    "C72_values",
    "C72_derivatives",
    "C72_derivatives_overflow",
    "C72_derivatives_refuted",
    "C72_nan"
   ],
   "note": "True of all values except smoothrelu from 710 on (infinite) and of ten derivatives; the derivatives of sigmoid (z <= -710), comploglog and smoothrelu (z >= 710) are NaN, proved with the exact condition; relu and hardtanh do hide a NaN (proved). Assumes the laws of double arithmetic listed in class Ieee (FloatSpec.lean) as hypotheses; FloatReal.lean shows that the same code over the reals is the network model of the other properties."
  },
  {
   "property": "C73",
   "status": "proved",
   "theorems": [
    "C73_persist",
    "C73_predict_first",
    "C73_predict_other",
    "C73_spread"
   ],
   "note": "Dense networks that own their layers. Assumes the laws of double arithmetic listed in class Ieee (FloatSpec.lean) as hypotheses; FloatReal.lean shows that the same code over the reals is the network model of the other properties."
  },
  {
   "property": "C74",
   "status": "proved",
   "theorems": [
    "C74_overflow",
    "C74_underflow",
    "C74_second",
    "C74_dead",
    "C74_safe"
   ],
   "note": "Between 600 and 710 nothing is claimed. Assumes the laws of double arithmetic listed in class Ieee (FloatSpec.lean) as hypotheses; FloatReal.lean shows that the same code over the reals is the network model of the other properties."
  },
  {
   "property": "C75",
   "status": "partial",
   "theorems": [
    "C75_crossentropy",
    "C75_crossentropy_saturated",
    "C75_crossentropy_safe",
    "C75_kullback",
    "C75_softmax",
    "C75_quadratic"
   ],
   "note": "The general claim is refuted for three of the four costs; sufficient conditions for each failure and a sufficient condition for a finite cross entropy are proved. Assumes the laws of double arithmetic listed in class Ieee (FloatSpec.lean) as hypotheses; FloatReal.lean shows that the same code over the reals is the network model of the other properties."
  },
  {
   "property": "C76",
   "status": "proved",
   "theorems": [
    "C76_forward",
    "C76_predict",
    "C76_train"
   ],
   "note": "Softmax outputs are covered by C74; Kullback-Leibler is excluded (division by predictions). Assumes the laws of double arithmetic listed in class Ieee (FloatSpec.lean) as hypotheses; FloatReal.lean shows that the same code over the reals is the network model of the other properties."
  },
  {
   "property": "C77",
   "status": "proved",
   "theorems": [
    "C77_forward",
    "C77_predict",
    "C77_tanh"
   ],
   "note": "binary64 with round to nearest even, gradual underflow and signed zeros is defined in Binary64.lean; summation order, fma and the C library are parameters (Platform). Activations with proved estimates: identity, relu, absolute, hardtanh, tanh, arctan, sigmoid. The exact network is the same code at the reals (FloatReal ties it to the model of the other properties)."
  },
  {
   "property": "C78",
   "status": "proved",
   "theorems": [
    "C78_train",
    "C78_bounded"
   ],
   "note": "Estimates are sound, not tight: bounds on weights grow with each step, so the no-overflow conditions limit the number of steps. Derivatives with proved estimates: identity, tanh, arctan, sigmoid; a discontinuous derivative (relu) has no useful estimate. Softmax and Kullback-Leibler deltas have no estimate here (ComputesCost is a hypothesis)."
  },
  {
   "property": "C79",
   "status": "proved",
   "theorems": [
    "C79_finite",
    "C79_nonfinite",
    "C79_any_file",
    "C79_same_file_refuted",
    "C79_typed_file"
   ],
   "note": "Formatting is %.6g of the exact value with ties to even, strtod rounds correctly (glibc), overflow fails the stream (libstdc++): part of the model (FloatFile.lean), not of the repository. Includes the refutation that the second file is always identical."
  },
  {
   "property": "C80",
   "status": "proved",
   "theorems": [
    "C80_renumbering",
    "C80_twins"
   ],
   "note": "Over the reals, for dense hidden layers and any output whose cost derivative accepts matrices of equal size."
  },
  {
   "property": "C81",
   "status": "proved",
   "theorems": [
    "C81_network",
    "C81_assigned_network",
    "C81_trainers",
    "C81_assigned_trainers",
    "C81_copied_trainers"
   ],
   "note": "Copying an indeterminate function pointer is taken to be harmless."
  },
  {
   "property": "C82",
   "status": "proved",
   "theorems": [
    "C82_passes",
    "C82_update",
    "C82_updateWith",
    "C82_step",
    "C82_trainer",
    "C82_sgd",
    "C82_missing_labels",
    "C82_batch",
    "C82_momentum",
    "C82_agrees",
    "C82_recovers",
    "C82_not_atomic"
   ],
   "note": "Dense layers; that an assignment which runs out of memory leaves its target as it was or empty, and W = W - lrate*grad works in place, are assumptions on Armadillo (DESIGN.md)."
  },
  {
   "property": "C83",
   "status": "proved",
   "theorems": [
    "C83_batch",
    "C83_momentum",
    "C83_first",
    "C83_later"
   ],
   "note": "Dense layers. Without decay for BatchTrainer (it applies the decay after the step, Trainer before)."
  },
  {
   "property": "C84",
   "status": "proved",
   "theorems": [
    "C84_programs",
    "C84_lost"
   ],
   "note": "Assignment to a tensor with more or fewer elements by copy stays excluded (C07)."
  },
  {
   "property": "C85",
   "status": "proved",
   "theorems": [
    "C85_scalar_ops",
    "C85_tensor_ops",
    "C85_broadcast_ops",
    "C85_math_ops",
    "C85_negate",
    "C85_fill",
    "C85_eyes",
    "C85_matmul",
    "C85_argmax",
    "C85_argmin",
    "C85_reduce_sum",
    "C85_reduce_mean",
    "C85_equal",
    "C85_shapes",
    "C85_objects",
    "C85_broadcast_blind"
   ],
   "note": "argmax, argmin, sums, means and == in an ordered field (exact arithmetic); all other operations for any element type. Not covered: the statistical expectations of TestCreateGaussianTensor. TestReduceMean compares with an integer quotient, see C85_reduce_mean."
  },
  {
   "property": "C86",
   "status": "proved",
   "theorems": [
    "C86_outputs",
    "C86_class",
    "C86_reload",
    "C86_closed",
    "C86_margin_needed",
    "C86_slopes",
    "C86_unit_acts",
    "C86_slopes_least"
   ],
   "note": "C86_outputs and C86_class: perturbed weights and inputs; C86_reload: save and load with the six digits of the library's format; C86_closed: closed form for activations with slope at most 1 and values in [-1, 1]; C86_slopes: Lipschitz constants of all 13 activations; C86_margin_needed: a network whose every prediction changes when it is saved and loaded. Exact arithmetic (rounding of the forward pass: C77)."
  },
  {
   "property": "C87",
   "status": "proved",
   "theorems": [
    "C87_derivative",
    "C87_lecuntanh",
    "C87_act_test",
    "C87_kinks",
    "C87_random_init",
    "C87_dimensions"
   ],
   "note": "Exact arithmetic: the difference quotient of the tests is computed in double there. The value checks at 6.6, 0 and -6.6 are literals and not generalised (C26, C72 give ranges)."
  },
  {
   "property": "C88",
   "status": "proved",
   "theorems": [
    "C88_descends",
    "C88_rate",
    "C88_optimal",
    "C88_converges",
    "C88_separable_softmax",
    "C88_separable_logistic"
   ],
   "note": "Exact arithmetic. Networks with hidden layers are not convex and are outside the statement (C33 gives local descent for them)."
  },
  {
   "property": "C89",
   "status": "proved",
   "theorems": [
    "C89_layer",
    "C89_default_param",
    "C89_outputs",
    "C89_getpnnodes_refuted",
    "C89_input_norm",
    "C89_negative",
    "C89_setters"
   ],
   "note": "C89_getpnnodes_refuted records that getpnnodes() is not the constructor's argument. An allocation failure for huge sizes is not modelled."
  },
  {
   "property": "C90",
   "status": "proved",
   "theorems": [
    "C90_trainer",
    "C90_sgd",
    "C90_batch"
   ],
   "note": "Exact arithmetic. Trainers with momentum are outside the statement (C42, C43); batch size 1 fails, see C41."
  },
  {
   "property": "C91",
   "status": "proved",
   "theorems": [
    "C91_energy",
    "C91_optimal",
    "C91_regularised",
    "C91_separable_softmax",
    "C91_separable_logistic"
   ],
   "note": "Exact arithmetic. Networks with hidden layers are not convex and are outside the statement."
  },
  {
   "property": "C92",
   "status": "proved",
   "theorems": [
    "C92_meaning",
    "C92_agree",
    "C92_total",
    "C92_matmul_assoc",
    "C92_matmul_add",
    "C92_sub_matmul",
    "C92_eyes",
    "C92_elementwise",
    "C92_sums",
    "C92_layer",
    "C92_not_commutative"
   ],
   "note": "Exact arithmetic in an arbitrary ring; with IEEE elements only the laws that need no reassociation carry over. All dimensions positive and every number of elements an int; rank difference of an operator at most 1 (C14)."
  },
  {
   "property": "C93",
   "status": "proved",
   "theorems": [
    "C93_training",
    "C93_cost",
    "C93_predict",
    "C93_outputs"
   ],
   "note": "Exact arithmetic: with doubles the sums of a layer are added up in another order, so results agree only up to rounding (C82 bounds it). Well-formed dense networks; ties between classes go to the lowest number (C32), so predictions may differ there, as they must."
  },
  {
   "property": "C94",
   "status": "proved",
   "theorems": [
    "C94_dead_unit"
   ],
   "note": "Exact arithmetic; forwardprop, backprop, update on any sequence of batches (what all trainers except the momentum trainer do between learning-rate changes). In deeper layers the inputs of a unit move, so there a silent unit may wake; no claim is made."
  },
  {
   "property": "C95",
   "status": "proved",
   "theorems": [
    "C95_frozen",
    "C95_decay_thaws"
   ],
   "note": "Over the model with exceptions and memory failures (Exn.lean), which C82_agrees ties to the main model. Dense hidden layers and output layers; exact arithmetic (with doubles W - 0*g is W unless g is infinite or not a number). C95_decay_thaws shows why trainers with decay are excluded."
  },
  {
   "property": "C96",
   "status": "partial",
   "theorems": [
    "C96_dense_softmax",
    "C96_norm_assign",
    "C96_norm_copy_partial",
    "C96_norm_copy_refuted",
    "C96_pool_assign_partial",
    "C96_pool_copy_refuted",
    "C96_conv_assign_refuted"
   ],
   "note": "True of dense and softmax layers (C96_dense_softmax) and of assigning norm layers (C96_norm_assign). False of copy-constructed norm layers, which start from uninitialised memory (C96_norm_copy_refuted; they agree after one backprop: C96_norm_copy_partial) and of copy-constructed pooling layers, whose output sizes are uninitialised (C96_pool_copy_refuted); assigned pooling layers agree when the stride is the window size and the two were made with the same sizes (C96_pool_assign_partial; otherwise the stride or the sizes are wrong, C50_stride, C50_assign_loses). False of assigned convolution layers, which keep their own weights (C96_conv_assign_refuted; see also C50)."
  },
  {
   "property": "C97",
   "status": "proved",
   "theorems": [
    "C97_training",
    "C97_cost",
    "C97_repeated",
    "C97_duplicates"
   ],
   "note": "C97_training, C97_duplicates, C97_cost; exact real arithmetic. C97_repeated: a batch written k times has the same shares."
  },
  {
   "property": "C98",
   "status": "partial",
   "theorems": [
    "C98_outputs_partial",
    "C98_untied_partial",
    "C98_roundtrip_partial",
    "C98_training_refuted"
   ],
   "note": "Outputs (C98_outputs_partial, C98_untied_partial) and files (C98_roundtrip_partial) are proved for every pattern of sharing. The claim about training is false: each forward call overwrites the cached input of the previous position and update() runs once per position, so for the network of C98_training_refuted a step with any rate in (0, 1/2) raises the cost."
  },
  {
   "property": "C99",
   "status": "proved",
   "theorems": [
    "C99_bounded",
    "C99_activations",
    "C99_outputs",
    "C99_lambda_needed"
   ],
   "note": "C99_bounded (one bound for all histories), C99_activations and C99_outputs (which activations and outputs qualify), C99_lambda_needed (with lambda = 0 the weight of a one-unit network passes every bound). Exact real arithmetic."
  },
  {
   "property": "C100",
   "status": "proved",
   "theorems": [
    "C100_rest",
    "C100_decay_option"
   ],
   "note": "C100_rest (every weight converges), C100_decay_option (Trainer's decay does not achieve this). The activations and outputs that qualify are those of C99_activations and C99_outputs. Exact real arithmetic."
  },
  {
   "property": "C101",
   "status": "proved",
   "theorems": [
    "C101_conv",
    "C101_maxpool",
    "C101_meanpool",
    "C101_conv_linear",
    "C101_meanpool_linear"
   ],
   "note": "C101_conv, C101_maxpool, C101_meanpool, C101_conv_linear, C101_meanpool_linear. Batches and strides above 1 are excluded by the statement: there the forward pass itself is wrong (C47_refuted, C48_refuted). Exact real arithmetic."
  },
  {
   "property": "C102",
   "status": "proved",
   "theorems": [
    "C102_collapse",
    "C102_xor",
    "C102_xor_relu"
   ],
   "note": "C102_collapse, C102_xor; C102_xor_relu shows the hypothesis on the hidden activation is needed. Exact real arithmetic."
  },
  {
   "property": "C103",
   "status": "proved",
   "theorems": [
    "C103_rescale",
    "C103_activations",
    "C103_balance",
    "C103_drift",
    "C103_training_differs"
   ],
   "note": "C103_rescale, C103_activations, C103_balance, C103_drift, C103_training_differs. Exact real arithmetic."
  },
  {
   "property": "C104",
   "status": "partial",
   "theorems": [
    "C104_shuffle",
    "C104_split",
    "C104_too_few",
    "C104_bad_label",
    "C104_load",
    "C104_accuracy",
    "C104_evaluate",
    "C104_shuffle_training",
    "C104_trainer",
    "C104_trainer_name_refuted"
   ],
   "note": "C104_shuffle, C104_split, C104_too_few, C104_load, C104_bad_label, C104_accuracy, C104_evaluate, C104_shuffle_training. The claim about the trainer's name is false (the comparison of the names is inverted): C104_trainer says what happens for every name and C104_trainer_name_refuted refutes the full statement. Exact real arithmetic; rand() is an arbitrary sequence."
  },
  {
   "property": "C105",
   "status": "partial",
   "theorems": [
    "C105_constructor",
    "C105_forward",
    "C105_maxpool",
    "C105_meanpool",
    "C105_backward",
    "C105_overflow",
    "C105_accepted_refuted"
   ],
   "note": "C105_constructor, C105_forward, C105_maxpool, C105_meanpool, C105_backward, C105_overflow. 'A layer that the constructor accepts can be run' is false: C105_accepted_refuted. C105_backward is for stride 1 and window 2*padding+1."
  },
  {
   "property": "C106",
   "status": "proved",
   "theorems": [
    "C106_no_null",
    "C106_accepted",
    "C106_passes",
    "C106_setlrate_files",
    "C106_index"
   ],
   "note": "C106_no_null (agreement with the model without null pointers), C106_accepted, C106_passes, C106_setlrate_files, C106_index."
  },
  {
   "property": "C107",
   "status": "partial",
   "theorems": [
    "C107_disjoint",
    "C107_shared",
    "C107_copies_refuted"
   ],
   "note": "C107_disjoint: every interleaving, any number of threads. C107_shared and C107_copies_refuted: the copy constructor shares the hidden layers, so with one copy per thread there is an interleaving in which a thread gets the answer for the other thread's input. Statements are atomic in the model; a call of a layer that is not plain dense is one statement; save and load are not among the calls of threads."
  },
  {
   "property": "C108",
   "status": "partial",
   "theorems": [
    "C108_same",
    "C108_forward",
    "C108_pooling",
    "C108_weights_refuted",
    "C108_backward",
    "C108_rows_refuted",
    "C108_geometry_refuted"
   ],
   "note": "C108_same, C108_forward, C108_pooling, C108_backward: the exact behaviour. Refuted part: weights set to a smaller matrix (C108_weights_refuted), a delta with more rows than the last input (C108_rows_refuted) and every layer that changes the size of the picture, when trained (C108_geometry_refuted), terminate the program in a build with OpenMP where a build without throws. The iterations run in order in this model; C58 has their interleavings."
  },
  {
   "property": "C109",
   "status": "proved",
   "theorems": [
    "C109_offset",
    "C109_sums",
    "C109_labels"
   ],
   "note": "C109_offset (two networks through any training), C109_sums (one network), C109_labels (labels of any kind, one step without regularisation). Networks of dense hidden layers; output activation the identity, as the constructors of SoftmaxOutput without LayerParam set it."
  },
  {
   "property": "C110",
   "status": "partial",
   "theorems": [
    "C110_constructors",
    "C110_operations",
    "C110_matmul",
    "C110_assign_partial",
    "C110_assign_refuted",
    "C110_move_ctor_refuted",
    "C110_move_assign_refuted",
    "C110_reshape",
    "C110_reshape_refuted"
   ],
   "note": "C110_constructors, C110_operations, C110_matmul, C110_reshape hold in full. Assignment is not safe: C110_assign_refuted (the buffer must grow and new fails: the target keeps the released buffer, its destructor releases it again), C110_move_ctor_refuted (the new buffer leaks), C110_move_assign_refuted (new buffer with old shape), C110_reshape_refuted (more dimensions: new dimensions with the old chunk table); C110_assign_partial is the case that is safe."
  },
  {
   "property": "C111",
   "status": "proved",
   "theorems": [
    "C111_unseen",
    "C111_invariant",
    "C111_unused",
    "C111_repeated",
    "C111_constant"
   ],
   "note": "C111_unseen (two networks through any training), C111_invariant (one network, any direction), C111_unused, C111_repeated, C111_constant (its three common cases). Networks of dense hidden layers, or none: the first layer may be the output."
  },
  {
   "property": "C112",
   "status": "proved",
   "theorems": [
    "C112_transformed",
    "C112_features",
    "C112_signs",
    "C112_odd",
    "C112_linear"
   ],
   "note": "C112_transformed (any orthogonal changes of features, hidden units and outputs that activations and cost respect), C112_features and C112_signs (its two common cases, stated directly), C112_odd (which activations are odd), C112_linear (identity and quadratic cost respect everything). Networks of dense hidden layers, or none. Over the real numbers."
  },
  {
   "property": "C113",
   "status": "partial",
   "theorems": [
    "C113_features",
    "C113_named",
    "C113_numbered_partial",
    "C113_merged",
    "C113_gap",
    "C113_cases",
    "C113_sent",
    "C113_distinct_refuted",
    "C113_last_line_refuted",
    "C113_accepted"
   ],
   "note": "C113_named, C113_numbered_partial, C113_features, C113_sent: holds when some class is not a number, or the classes are 0..k-1 or 1..k. Missing because false: other numbers. C113_cases lists the only other cases for natural numbers: C113_merged (class 0 occurs and the largest class equals the number of classes: two classes are silently merged; C113_distinct_refuted) and C113_gap (larger gaps: the program stops with an exception). A last line without line end makes its class a different one (C113_last_line_refuted). Negative and fractional class numbers are not treated; the text of the numbers between script and program is not modelled."
  },
  {
   "property": "C114",
   "status": "partial",
   "theorems": [
    "C114_clock",
    "C114_trial",
    "C114_trials_refuted"
   ],
   "note": "C114_clock: independent of the clock, and what is printed. C114_trial: the rates after a trial, for every number of earlier iterations. Missing because false: the same schedule in every trial. The trainer goes on counting, so that a decay that took place in the first trial takes place in no later one: C114_trials_refuted. The reset of the network between trials is C44/C34; the drawing is not modelled."
  },
  {
   "property": "C115",
   "status": "partial",
   "theorems": [
    "C115_restart",
    "C115_trials",
    "C115_repeats",
    "C115_untrained_refuted"
   ],
   "note": "C115_trials: all trials run and report. C115_restart: the exact state after setting back. Missing because false: that trials start from untrained networks. The copy shares its hidden layers with the network and randomize() picks layers at random, so trained weights can remain in all hidden layers, and lowered learning rates always do (C115_untrained_refuted). Conversely, when all hidden layers are picked the drawn weights are always the same ones, so that the trials repeat each other exactly (C115_repeats). The program calls randomize without an argument, which the current API does not have; the model has the argument."
  },
  {
   "property": "C116",
   "status": "proved",
   "theorems": [
    "C116_apart",
    "C116_threads",
    "C116_shared_refuted"
   ],
   "note": "C116_threads: any finite set of threads, all interleavings of calls; C116_apart: a call leaves objects and memory of all variables it does not change alone and does not depend on those it does not name, which is why a call may be taken as one step. C116_shared_refuted: the condition that common tensors are only read is needed."
  },
  {
   "property": "C117",
   "status": "proved",
   "theorems": [
    "C117_outputs",
    "C117_predictions",
    "C117_gains",
    "C117_sharp"
   ],
   "note": "C117_outputs, C117_predictions; C117_gains: the gains with every activation of the library; C117_sharp: the bound is attained."
  },
  {
   "property": "C118",
   "status": "proved",
   "theorems": [
    "C118_direction",
    "C118_monotone",
    "C118_activations",
    "C118_xor"
   ],
   "note": "C118_direction, C118_monotone; C118_xor: no output of such a network computes the exclusive or; C118_activations: which activations of the library are non-decreasing and which are not."
  },
  {
   "property": "C119",
   "status": "proved",
   "theorems": [
    "C119_units"
   ],
   "note": "C119_units."
  },
  {
   "property": "C120",
   "status": "proved",
   "theorems": [
    "C120_remove",
    "C120_asleep",
    "C120_activations"
   ],
   "note": "C120_remove; C120_asleep; C120_activations: which activations are 0 at 0."
  },
  {
   "property": "C121",
   "status": "partial",
   "theorems": [
    "C121_sample",
    "C121_misread",
    "C121_square",
    "C121_refuted",
    "C121_runs_partial",
    "C121_dies"
   ],
   "note": "C121_sample: the layout, for all pictures. False: the sample is written row by row and read column by column, so that the layer convolves another picture (C121_misread, exact for stride 1; C121_square: mirrored at the diagonal if square; C121_refuted: wrong for every size from 2 x 2). C121_runs_partial: the program ends normally with stride 1 and spatial = 2*padding+1; C121_dies: with stride 1 and other windows the first backward pass throws. Missing: strides above 1 (the output is then partly indeterminate, C47_exact)."
  },
  {
   "property": "C122",
   "status": "proved",
   "theorems": [
    "C122_forward",
    "C122_later",
    "C122_backward",
    "C122_gradient",
    "C122_factor",
    "C122_predict",
    "C122_refuted",
    "C122_gradient_refuted"
   ],
   "note": "C122_forward, C122_predict, C122_later, C122_backward, C122_gradient, C122_factor. What a user may expect beyond it is false: C122_refuted (the class of a sample depends on the other samples of the batch and on earlier predictions), C122_gradient_refuted (the reported gradient is not the derivative of the cost, because the range depends on the weights too). The real model has no 0/0: batches with range 0 are excluded by hypothesis."
  },
  {
   "property": "C123",
   "status": "proved",
   "theorems": [
    "C123_step",
    "C123_history",
    "C123_monotone",
    "C123_regularised",
    "C123_runs",
    "C123_invisible",
    "C123_diverges",
    "C123_perfect_refuted"
   ],
   "note": "C123_step, C123_history, C123_monotone, C123_runs, C123_diverges, C123_invisible (a perfect fit keeps all its answers while the biases run away), C123_regularised (closed form and bound with regularisation). The wish that a perfect fit is left alone is refuted: C123_perfect_refuted."
  },
  {
   "property": "C124",
   "status": "proved",
   "theorems": [
    "C124_forward",
    "C124_backward",
    "C124_training",
    "C124_gradient",
    "C124_frozen"
   ],
   "note": "C124_forward, C124_backward, C124_gradient, C124_training, C124_frozen."
  },
  {
   "property": "C125",
   "status": "proved",
   "theorems": [
    "C125_forward",
    "C125_predict",
    "C125_training",
    "C125_history"
   ],
   "note": "C125_forward, C125_predict, C125_training, C125_history. Over the reals: a normalising layer that divides by 0 gives NaNs in C++, not an exception (C46)."
  },
  {
   "property": "C126",
   "status": "proved",
   "theorems": [
    "C126_left",
    "C126_reset",
    "C126_poison"
   ],
   "note": "C126_left, C126_reset, C126_poison. Memory is assumed to suffice in the rejected call."
  }
 ]
}