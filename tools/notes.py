notes={
'C07':('partial','The full statement is false of the code (C07_refuted): a larger source leaves indeterminate elements, a smaller one reads out of bounds. Proved: equal totals, data-less target of equal total, self assignment; the failing cases are characterised.'),
'C09':('partial','The transfer of the value is proved for every pair; "leaks nothing" is false of the code when the target owns a buffer (C09_leaks) and proved when it does not; self move loses the data.'),
'C10':('partial','True for every array-allocated tensor; false for Tensor(val), which is allocated with scalar new and released with delete[] (C10_scalar_refuted).'),
'C14':('partial','True when at most one leading dimension is broadcast; with two or more the code leaves elements 0 (C14_refuted; C14_broadcast_exact says exactly which) and for a zero leading dimension writes out of bounds.'),
'C15':('partial','True for +,-,*,/,^ and the matrix product; == and equal compare only the ranks (C15_equal_refuted).'),
'C22':('partial','Proved for out data-less, smaller or of the exact size as to the elements; the shape of a larger out is not {m,n}, a smaller out leaks (counterexamples proved).'),
'C29':('partial','True for every output layer whose delta is the derivative of its cost (C29_gradient) and for the quadratic, cross-entropy and softmax outputs; false for the Kullback-Leibler output, whose every gradient has the wrong sign (C29_kullbackleibler_refuted).'),
'C30':('partial','Proved for QuadraticOutput, CrossEntropyOutput and SoftmaxOutput; false for KullbackLeiblerOutput (sign) and for QuadraticOutput built from a LayerParam with another activation (refuted theorems).'),

'C43':('partial','The full statement is false of the code: the factor (iters-1)/iters is an integer division and so 0. C43_direction proves what the direction is (the newest gradient divided by the number of calls), C43_refuted that it equals the average exactly when the earlier gradients sum to 0, C43_counterexample gives a concrete run.'),
'C44':('partial','True of Trainer (copy and assignment), of assignment in all classes, and of SGDTrainer copies without decay; false of the copy constructors of SGDTrainer, BatchTrainer and MomentumTrainer in general, which reset the iteration count and switch decay on (C44_copy_partial says exactly what is kept, C44_refuted shows the observable difference).'),
'C53':('partial','forwardprop and assignment are proved; a copy-constructed InputLayer is one row taller than the original (C53_copy_changes_size).'),
'C57':('partial','Proved for Trainer and MomentumTrainer (SGDTrainer: C40_cost); false for BatchTrainer, whose costed call throws unless the batch size equals the number of samples (C57_batch_refuted).'),

'C35':('proved','For every architecture and all real weights, for any library conversions satisfying Spec.Converts; C35_format proves that the modelled %.6g/strtod conversions satisfy it with rounding to six significant digits, C35_precision bounds the loss by 5e-6 relative, C35_library puts the two together. Infinities and NaN are not modelled.'),
'C36':('proved','Every crash point; the weight cut in the middle is left open, as in the statement. C36_any_file covers arbitrary file contents.'),
'C37':('partial','False for every network with a hidden layer: copies share the hidden layer objects (C37_shared, C37_refuted, C37_counterexample). Proved: networks without a common hidden layer are independent under every history of operations (C37_disjoint), copies of networks with only an output layer are independent (C37_copy_partial).'),
'C45':('partial','Proved for every history after the first backprop and non-constant inputs (C45_history, C45_span); false before the first backprop, because the factor is uninitialised (C45_refuted).'),
'C46':('partial','Forward part proved for all matrices; the backward part is false for every input and delta (C46_backward_refuted).'),

'C47':('partial','False of the code in general (C47_refuted). C47_exact says for every geometry and input what forwardprop returns; C47_forward_partial proves the convolution for stride 1 and one sample.'),
'C48':('partial','False of the code: every row of the result is computed from the interleaved batch (C48_conv/_maxpool/_meanpool say which), so it holds only for batches of one row (C48_single_partial; C48_refuted).'),
'C49':('partial','False of the code (C49_refuted, C49_ignores_delta). C49_exact is the closed form of what the code stores for stride 1 and spatial = 2*padding+1; C49_throws the other sizes.'),
'C50':('partial','False of the code: assignment sets stride := spatial and draws new weights (C50_assign_loses, C50_stride, C50_copy_weights, C50_refuted); C50_assign_partial says what is kept.'),
'C51':('partial','Proved for one channel, stride 1, one sample, nonnegative pixels (C51_maxpool_partial), exact for all inputs (C51_exact); false otherwise (C51_refuted_negative, _channels, _stride). backprop returns its argument, so a network with a pooling layer behind a dense one cannot be trained (C51_backward, C51_training_refuted).'),
'C52':('partial','Proved for one channel, stride 1, one sample (C52_meanpool_partial), exact for all inputs (C52_exact); false otherwise (C52_refuted_channels, _stride); backprop returns an empty matrix (C52_backward).'),
'C25':('partial','Proved for every activation except lecuntanh, whose actd uses a truncated constant and is therefore nowhere exactly the derivative; C25_lecuntanh_partial gives the exact factor. At kinks actd is a one-sided derivative (C25_kink_values).'),
'C33':('partial','True for every output layer whose delta is the derivative of its cost; false for the Kullback-Leibler output, which climbs (C33_kullbackleibler_climbs).'),
'C58':('partial','Proved for the convolution layer (C58_conv_forward, C58_conv_backward) and mean pooling (C58_meanpool_forward), failures included. False for max pooling: with 16 or more channels every schedule is a data race (C58_maxpool_race, C58_maxpool_refuted); with fewer the loop is sequential (C58_maxpool_few).'),
'C60':('partial','Proved for computecost (all four library costs) and for an output layer used directly. False through NeuralNet::getoutput(): the copy has no label, so getcostval() throws (C60_getoutput_refuted).'),
'C61':('partial','Proved: check() ends, restores the weights and returns true iff every difference quotient differs from the gradient by at least 1e-6 (C61_verdict), i.e. the verdict is inverted; hence false as claimed: an exact gradient is rejected and a wrong one accepted (C61_rejects_exact_refuted, C61_accepts_wrong_refuted).'),
'C64':('partial','C64_weights_alone is proved in full; resuming is proved when the weights saved survive the text format (C64_resume); with the library format and weights of more than six digits it is false (C64_resume_refuted).'),
'C65':('partial','Proved for the quadratic, cross-entropy and softmax outputs. False for the Kullback-Leibler output: at a perfect fit every output bias moves by the learning rate (C65_kullbackleibler_refuted).'),
'C68':('proved','real arithmetic in place of doubles, as everywhere in the NN model'),
'C69':('proved','the condition on the program is shown necessary by C69_update_refuted; gethidden/getoutput hand the uninitialised gradient to the caller and are excluded for the same reason'),
'C70':('proved','dense layers; the demo networks of C71 are concrete instances of the hypotheses'),
'C71':('proved','OpenCV calls other than writing a pixel (windows, waiting for keys, printing the time) are not modelled; a data file that opens but is cut short is covered as arbitrary numbers'),
'C72':('partial','True of all values except smoothrelu from 710 on (infinite) and of ten derivatives; the derivatives of sigmoid (z <= -710), comploglog and smoothrelu (z >= 710) are NaN, proved with the exact condition; relu and hardtanh do hide a NaN (proved). Assumes the laws of double arithmetic listed in class Ieee (FloatSpec.lean) as hypotheses; FloatReal.lean shows that the same code over the reals is the network model of the other properties.'),
'C73':('proved','Dense networks that own their layers. Assumes the laws of double arithmetic listed in class Ieee (FloatSpec.lean) as hypotheses; FloatReal.lean shows that the same code over the reals is the network model of the other properties.'),
'C74':('proved','Between 600 and 710 nothing is claimed. Assumes the laws of double arithmetic listed in class Ieee (FloatSpec.lean) as hypotheses; FloatReal.lean shows that the same code over the reals is the network model of the other properties.'),
'C75':('partial','The general claim is refuted for three of the four costs; sufficient conditions for each failure and a sufficient condition for a finite cross entropy are proved. Assumes the laws of double arithmetic listed in class Ieee (FloatSpec.lean) as hypotheses; FloatReal.lean shows that the same code over the reals is the network model of the other properties.'),
'C76':('proved','Softmax outputs are covered by C74; Kullback-Leibler is excluded (division by predictions). Assumes the laws of double arithmetic listed in class Ieee (FloatSpec.lean) as hypotheses; FloatReal.lean shows that the same code over the reals is the network model of the other properties.'),
'C77':('proved','binary64 with round to nearest even, gradual underflow and signed zeros is defined in Binary64.lean; summation order, fma and the C library are parameters (Platform). Activations with proved estimates: identity, relu, absolute, hardtanh, tanh, arctan, sigmoid. The exact network is the same code at the reals (FloatReal ties it to the model of the other properties).'),
'C78':('proved','Estimates are sound, not tight: bounds on weights grow with each step, so the no-overflow conditions limit the number of steps. Derivatives with proved estimates: identity, tanh, arctan, sigmoid; a discontinuous derivative (relu) has no useful estimate. Softmax and Kullback-Leibler deltas have no estimate here (ComputesCost is a hypothesis).'),
'C79':('proved','Formatting is %.6g of the exact value with ties to even, strtod rounds correctly (glibc), overflow fails the stream (libstdc++): part of the model (FloatFile.lean), not of the repository. Includes the refutation that the second file is always identical.'),
'C80':('proved','Over the reals, for dense hidden layers and any output whose cost derivative accepts matrices of equal size.'),
'C81':('proved','Copying an indeterminate function pointer is taken to be harmless.'),
'C82':('proved','Dense layers; that an assignment which runs out of memory leaves its target as it was or empty, and W = W - lrate*grad works in place, are assumptions on Armadillo (DESIGN.md).'),
'C83':('proved', 'Dense layers. Without decay for BatchTrainer (it applies the decay after the step, Trainer before).'),
'C84':('proved','Assignment to a tensor with more or fewer elements by copy stays excluded (C07).'),
'C85':('proved','argmax, argmin, sums, means and == in an ordered field (exact arithmetic); all other operations for any element type. Not covered: the statistical expectations of TestCreateGaussianTensor. TestReduceMean compares with an integer quotient, see C85_reduce_mean.'),
'C86':('proved',"C86_outputs and C86_class: perturbed weights and inputs; C86_reload: save and load with the six digits of the library's format; C86_closed: closed form for activations with slope at most 1 and values in [-1, 1]; C86_slopes: Lipschitz constants of all 13 activations; C86_margin_needed: a network whose every prediction changes when it is saved and loaded. Exact arithmetic (rounding of the forward pass: C77)."),
'C87':('proved','Exact arithmetic: the difference quotient of the tests is computed in double there. The value checks at 6.6, 0 and -6.6 are literals and not generalised (C26, C72 give ranges).'),
'C88':('proved','Exact arithmetic. Networks with hidden layers are not convex and are outside the statement (C33 gives local descent for them).'),
'C89':('proved',"C89_getpnnodes_refuted records that getpnnodes() is not the constructor's argument. An allocation failure for huge sizes is not modelled."),
'C90':('proved','Exact arithmetic. Trainers with momentum are outside the statement (C42, C43); batch size 1 fails, see C41.'),
'C91':('proved','Exact arithmetic. Networks with hidden layers are not convex and are outside the statement.'),
'C92':('proved','Exact arithmetic in an arbitrary ring; with IEEE elements only the laws that need no reassociation carry over. All dimensions positive and every number of elements an int; rank difference of an operator at most 1 (C14).'),
'C93':('proved','Exact arithmetic: with doubles the sums of a layer are added up in another order, so results agree only up to rounding (C82 bounds it). Well-formed dense networks; ties between classes go to the lowest number (C32), so predictions may differ there, as they must.'),
'C94':('proved','Exact arithmetic; forwardprop, backprop, update on any sequence of batches (what all trainers except the momentum trainer do between learning-rate changes). In deeper layers the inputs of a unit move, so there a silent unit may wake; no claim is made.'),
'C95':('proved','Over the model with exceptions and memory failures (Exn.lean), which C82_agrees ties to the main model. Dense hidden layers and output layers; exact arithmetic (with doubles W - 0*g is W unless g is infinite or not a number). C95_decay_thaws shows why trainers with decay are excluded.'),
'C96':('partial','True of dense and softmax layers (C96_dense_softmax) and of assigning norm layers (C96_norm_assign). False of copy-constructed norm layers, which start from uninitialised memory (C96_norm_copy_refuted; they agree after one backprop: C96_norm_copy_partial) and of copy-constructed pooling layers, whose output sizes are uninitialised (C96_pool_copy_refuted); assigned pooling layers agree when the stride is the window size and the two were made with the same sizes (C96_pool_assign_partial; otherwise the stride or the sizes are wrong, C50_stride, C50_assign_loses). False of assigned convolution layers, which keep their own weights (C96_conv_assign_refuted; see also C50).'),
'C97':('proved','C97_training, C97_duplicates, C97_cost; exact real arithmetic. C97_repeated: a batch written k times has the same shares.'),
'C98':('partial','Outputs (C98_outputs_partial, C98_untied_partial) and files (C98_roundtrip_partial) are proved for every pattern of sharing. The claim about training is false: each forward call overwrites the cached input of the previous position and update() runs once per position, so for the network of C98_training_refuted a step with any rate in (0, 1/2) raises the cost.'),
'C99':('proved','C99_bounded (one bound for all histories), C99_activations and C99_outputs (which activations and outputs qualify), C99_lambda_needed (with lambda = 0 the weight of a one-unit network passes every bound). Exact real arithmetic.'),
'C100':('proved',"C100_rest (every weight converges), C100_decay_option (Trainer's decay does not achieve this). The activations and outputs that qualify are those of C99_activations and C99_outputs. Exact real arithmetic."),
'C101':('proved','C101_conv, C101_maxpool, C101_meanpool, C101_conv_linear, C101_meanpool_linear. Batches and strides above 1 are excluded by the statement: there the forward pass itself is wrong (C47_refuted, C48_refuted). Exact real arithmetic.'),
'C102':('proved','C102_collapse, C102_xor; C102_xor_relu shows the hypothesis on the hidden activation is needed. Exact real arithmetic.'),
'C103':('proved','C103_rescale, C103_activations, C103_balance, C103_drift, C103_training_differs. Exact real arithmetic.'),
'C104':('partial',"C104_shuffle, C104_split, C104_too_few, C104_load, C104_bad_label, C104_accuracy, C104_evaluate, C104_shuffle_training. The claim about the trainer's name is false (the comparison of the names is inverted): C104_trainer says what happens for every name and C104_trainer_name_refuted refutes the full statement. Exact real arithmetic; rand() is an arbitrary sequence."),
'C105':('partial',"C105_constructor, C105_forward, C105_maxpool, C105_meanpool, C105_backward, C105_overflow. 'A layer that the constructor accepts can be run' is false: C105_accepted_refuted. C105_backward is for stride 1 and window 2*padding+1."),
'C106':('proved','C106_no_null (agreement with the model without null pointers), C106_accepted, C106_passes, C106_setlrate_files, C106_index.'),
'C107':('partial',"C107_disjoint: every interleaving, any number of threads. C107_shared and C107_copies_refuted: the copy constructor shares the hidden layers, so with one copy per thread there is an interleaving in which a thread gets the answer for the other thread's input. Statements are atomic in the model; a call of a layer that is not plain dense is one statement; save and load are not among the calls of threads."),
'C108':('partial','C108_same, C108_forward, C108_pooling, C108_backward: the exact behaviour. Refuted part: weights set to a smaller matrix (C108_weights_refuted), a delta with more rows than the last input (C108_rows_refuted) and every layer that changes the size of the picture, when trained (C108_geometry_refuted), terminate the program in a build with OpenMP where a build without throws. The iterations run in order in this model; C58 has their interleavings.'),
'C109':('proved','C109_offset (two networks through any training), C109_sums (one network), C109_labels (labels of any kind, one step without regularisation). Networks of dense hidden layers; output activation the identity, as the constructors of SoftmaxOutput without LayerParam set it.'),
'C110':('partial','C110_constructors, C110_operations, C110_matmul, C110_reshape hold in full. Assignment is not safe: C110_assign_refuted (the buffer must grow and new fails: the target keeps the released buffer, its destructor releases it again), C110_move_ctor_refuted (the new buffer leaks), C110_move_assign_refuted (new buffer with old shape), C110_reshape_refuted (more dimensions: new dimensions with the old chunk table); C110_assign_partial is the case that is safe.'),
'C111':('proved','C111_unseen (two networks through any training), C111_invariant (one network, any direction), C111_unused, C111_repeated, C111_constant (its three common cases). Networks of dense hidden layers, or none: the first layer may be the output.'),
'C112':('proved','C112_transformed (any orthogonal changes of features, hidden units and outputs that activations and cost respect), C112_features and C112_signs (its two common cases, stated directly), C112_odd (which activations are odd), C112_linear (identity and quadratic cost respect everything). Networks of dense hidden layers, or none. Over the real numbers.'),
'C113':('partial','C113_named, C113_numbered_partial, C113_features, C113_sent: holds when some class is not a number, or the classes are 0..k-1 or 1..k. Missing because false: other numbers. C113_cases lists the only other cases for natural numbers: C113_merged (class 0 occurs and the largest class equals the number of classes: two classes are silently merged; C113_distinct_refuted) and C113_gap (larger gaps: the program stops with an exception). A last line without line end makes its class a different one (C113_last_line_refuted). Negative and fractional class numbers are not treated; the text of the numbers between script and program is not modelled.'),
'C114':('partial','C114_clock: independent of the clock, and what is printed. C114_trial: the rates after a trial, for every number of earlier iterations. Missing because false: the same schedule in every trial. The trainer goes on counting, so that a decay that took place in the first trial takes place in no later one: C114_trials_refuted. The reset of the network between trials is C44/C34; the drawing is not modelled.'),
'C115':('partial','C115_trials: all trials run and report. C115_restart: the exact state after setting back. Missing because false: that trials start from untrained networks. The copy shares its hidden layers with the network and randomize() picks layers at random, so trained weights can remain in all hidden layers, and lowered learning rates always do (C115_untrained_refuted). Conversely, when all hidden layers are picked the drawn weights are always the same ones, so that the trials repeat each other exactly (C115_repeats). The program calls randomize without an argument, which the current API does not have; the model has the argument.'),
'C116':('proved','C116_threads: any finite set of threads, all interleavings of calls; C116_apart: a call leaves objects and memory of all variables it does not change alone and does not depend on those it does not name, which is why a call may be taken as one step. C116_shared_refuted: the condition that common tensors are only read is needed.'),
'C117':('proved','C117_outputs, C117_predictions; C117_gains: the gains with every activation of the library; C117_sharp: the bound is attained.'),
'C118':('proved','C118_direction, C118_monotone; C118_xor: no output of such a network computes the exclusive or; C118_activations: which activations of the library are non-decreasing and which are not.'),
'C119':('proved','C119_units.'),
'C120':('proved','C120_remove; C120_asleep; C120_activations: which activations are 0 at 0.'),
'C121':('partial','C121_sample: the layout, for all pictures. False: the sample is written row by row and read column by column, so that the layer convolves another picture (C121_misread, exact for stride 1; C121_square: mirrored at the diagonal if square; C121_refuted: wrong for every size from 2 x 2). C121_runs_partial: the program ends normally with stride 1 and spatial = 2*padding+1; C121_dies: with stride 1 and other windows the first backward pass throws. Missing: strides above 1 (the output is then partly indeterminate, C47_exact).'),
'C122':('proved','C122_forward, C122_predict, C122_later, C122_backward, C122_gradient, C122_factor. What a user may expect beyond it is false: C122_refuted (the class of a sample depends on the other samples of the batch and on earlier predictions), C122_gradient_refuted (the reported gradient is not the derivative of the cost, because the range depends on the weights too). The real model has no 0/0: batches with range 0 are excluded by hypothesis.'),
'C123':('proved','C123_step, C123_history, C123_monotone, C123_runs, C123_diverges, C123_invisible (a perfect fit keeps all its answers while the biases run away), C123_regularised (closed form and bound with regularisation). The wish that a perfect fit is left alone is refuted: C123_perfect_refuted.'),
'C124':('proved','C124_forward, C124_backward, C124_gradient, C124_training, C124_frozen.'),
'C125':('proved','C125_forward, C125_predict, C125_training, C125_history. Over the reals: a normalising layer that divides by 0 gives NaNs in C++, not an exception (C46).'),
'C126':('proved','C126_left, C126_reset, C126_poison. Memory is assumed to suffice in the rejected call.'),
}
