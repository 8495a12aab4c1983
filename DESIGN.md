# Formal model of kiddos/nnet in Lean 4

## Trusted base

* Lean 4.33.0's kernel. Every theorem depends only on `propext`, `Classical.choice`, `Quot.sound`, or a subset of them; `AXIOMS.txt` lists the
  axioms of every property theorem (produced with `tools/axioms.lean.txt`). No axiom is added, no proof is left open, nothing rests on compiled code.
* The reading of the C++: every definition of the model cites the file and lines it models; simplifications are named there and below.
* Facts about C++ and the libraries that are written into the model:
  * `int` is 32 bits, signed overflow is undefined behaviour (`Stop.ub .signedOverflow` in the tensor half); `unsigned long` and `arma::uword` are 64 bits.
  * The build is the one in `CMakeLists.txt` (Debug), so `assert` aborts (`Stop.abort`).
  * `new T[n]{0}` zero-fills, `new T[n]` leaves elements indeterminate, reading an indeterminate element is undefined, `delete[]` of a
    scalar `new` is undefined.
  * Returned locals are elided (NRVO); the move constructor a non-eliding compiler would run is modelled and gives the same value (C08).
  * Armadillo with its default run-time checks: size mismatches, out-of-range element access with `()` and out-of-range sub-views throw (`Stop.throw`);
    `mat(r, c)` is not zeroed (its contents are the parameter `junk`, the same function for every allocation: theorems hold for every `junk`);
    `sum(m, 1)` of a matrix without columns is a column of zeros; negative sizes become huge and throw.
  * libstdc++: `in >> double` as `num_get::_M_extract_float` plus `strtod`, `out << double` as `%.6g` (File.lean, Text.lean).
  * A crash during `save` leaves some prefix of the characters that a complete run would have written.
  * OpenMP: the iterations of a `parallel for` interleave in any order at the granularity of single element accesses; conflicting unsynchronised accesses are
    undefined behaviour. Reading a slice of an `arma::cube` from several threads is safe.
* C72-C76 only: the laws of `double`, `<cmath>` and Armadillo's sums listed in `class Ieee` (`NN/FloatSpec.lean`) are hypotheses of the theorems (no axioms): IEEE operations on NaN and infinities,
  a monotone rounding that keeps integers up to 2^53, coarse bounds on `exp`, `log`, `tanh`, `atan`, `sin`, `cos` (no correct rounding assumed), sums in any order. `NN/Binary64.lean` defines IEEE binary64 (round to nearest even, gradual underflow, signed zeros; libm, summation order and fused operations are parameters of a `Platform`) and
  `NN/Binary64Ieee.lean` proves all these laws of it for every platform, so C72-C76 hold of real `double`s; C77, C78 and C79 are stated about binary64 itself. C79 also trusts that `out << double` is `%.6g` of the exact value and that `in >> double` is glibc's correctly rounded `strtod` with libstdc++'s rules for failure. What is trusted there: that the compiler evaluates in binary64 without excess precision or reassociation,
  and that libm and BLAS are within the bounds of `Platform` (and `Libm` for C77/C78).

## What is modelled

| Code | Model | Arithmetic |
|---|---|---|
| `src/tensor/tensor_shape.*` | `Tensor/Shape.lean` | C `int` |
| `src/tensor/tensor.*` (all constructors, assignments, destructor, `reshape`, factories, element access) | `Tensor/Heap.lean`, `Tensor/Program.lean` | element type without laws |
| `src/tensor/ops/*.cpp` (`+ - * / ^ == equal`, scalar and unary ops, reductions, argmax/argmin, matmul, their OpenMP loops) | `Tensor/Ops.lean`, `Tensor/Par.lean` | element type without laws |
| `src/tensor/tensor*.cpp`, `src/tensor/ops/*.cpp` again, for requests of memory that fail | `Tensor/Alloc.lean` | element type without laws |
| `src/tensor` again, called from several threads of a client (a call is one step) | `Tensor/Threads.lean` | element type without laws |
| `src/act.*`, `src/matop.*` | `NN/Act.lean`, `NN/Mat.lean` | reals |
| `src/layer/layer.*`, `inputlayer.*`, `outputlayer.*`, `src/output/*` | `NN/Layer.lean` | reals |
| `src/layer/{normlayer,softmaxlayer,conv2dlayer,maxpoollayer,meanpoollayer}.*` | `NN/Special.lean` (sequential), `NN/Par.lean` (interleaved) | reals |
| `src/neuralnet.*` | `NN/Net.lean`; `save`/`load` in `NN/File.lean`, number text in `NN/Text.lean` | reals |
| `src/act.*`, `src/matop.*`, dense layers, outputs and networks again | `NN/Float.lean` | any arithmetic; `Ieee` for C72-C76, binary64 (`NN/Binary64.lean`) for C77-C79, reals by `NN/FloatReal.lean` |
| `src/neuralnet.cpp` save, load again | `NN/FloatFile.lean` | weights of type `double`, texts of infinities, NaN and minus zero (C79) |
| `src/trainer/*` | `NN/Trainer.lean`; default-constructed objects `NN/Default.lean` | reals |
| `test/tensor/*.cpp`, `test/tensor/ops/test_*.cpp` (templates; not the Gaussian statistics) | `Tensor/Tests.lean` | element type without laws, or an ordered field |
| `test/gradient_checker.*` | `NN/Checker.lean` | reals |
| `src/layer/conv2dlayer.cpp`, `maxpoollayer.cpp`, `meanpoollayer.cpp` (sizes and offsets in 32-bit `int`) | `NN/ConvInt.lean` | reals, C `int` |
| `src/neuralnet.*` again, for vectors with null pointers | `NN/NullNet.lean` | reals |
| `src/neuralnet.*`, `src/layer/{layer,inputlayer,outputlayer}.cpp` again, statement by statement, for threads | `NN/NetThread.lean` | reals |
| `src/layer/conv2dlayer.cpp`, `maxpoollayer.cpp`, `meanpoollayer.cpp` again, exceptions in the OpenMP regions | `NN/Omp.lean` | reals |
| `test/model_test.cpp` (data handling, scoring, choice of the trainer) and the copies in `test/test*.cpp` | `NN/TestData.lean` | reals |
| `run_experiment.py` (`process` and the functions it calls, up to the numbers sent) | `NN/Experiment.lean` | reals |
| `test/model_test.cpp` (`train`, the trials of `main`) | `NN/TestTrain.lean` | reals, arbitrary clock |
| `test/convlayer_test.cpp` | `NN/Photo.lean` (all but reading and resizing the picture, clock, printing) | reals |
| `example/xor_problem.cpp`, `example/spiral.cpp` | `NN/Demo.lean` (all but windows, keys, timing output) | reals |

## What is not modelled

* IEEE rounding, infinities and NaN in the `nn::` (Armadillo) half except in C72-C79: it is modelled over the reals, and `log`, `/` and `sqrt` are total there. The `nn::tensor`
  half is modelled over an arbitrary element type with lawless operations, so those theorems are exact for IEEE floats too; only
  statements that mention sums, maxima or algebraic laws ask for more structure.
* Memory exhaustion (except in C82 and C110); `int` overflow in convolution and pooling layers outside C105; matrices with more than 2^31 rows.
* Null pointers among the hidden layers of a network outside C106; default-constructed objects outside C81.
* The test programs under `test/` except the gradient checker, the tensor tests (C85), the convolution test (C121), `model_test.cpp` (C104, C114, C115), the window and printing calls (OpenCV, MathGL) of the modelled demos, downloading and the parameter table of `run_experiment.py`, `-DLIBMAT` builds, printing of tensors and matrices.
* Exceptions (C82, `NN/Exn.lean`): any matrix computation may throw `bad_alloc`; an assignment that fails leaves its target as it was or empty, `W = W - lrate * grad` works in place, and Armadillo checks sizes before it writes. Elsewhere a throw only ends the call.
* Randomness: `std::normal_distribution`, `uniform_real_distribution`, `rand()` are arbitrary sequences; nothing is assumed about the numbers.
* An OpenMP iteration of the convolution loops computes its private values before the first access to the shared matrix of any iteration (nothing it reads
  for them is written in the loop).

## Layout

* `Verif/Core.lean`: outcomes (`ok` / `abort` / `throw` / `ub`), C `int` arithmetic.
* `Verif/Tensor/*.lean`: shapes, heap, tensors, OpenMP loops, operations; `Spec.lean` the pure specification on values; `Props*.lean` property theorems.
* `Verif/NN/*.lean`: matrices, activations, layers, network, trainers, files; `Spec.lean`, `ConvSpec.lean` specifications; `Props*.lean` property theorems.

Model files contain only definitions; proofs live in `*Lemmas.lean`; property theorems in `Props*.lean`, whose small specifications (`Spec.*`) stand at
their heads, with `example`s showing that the hypotheses are met by concrete non-trivial cases. `seeded/LOG.jsonl` records wrong programs tried against the theorems.

## Per property

(C01, C02, C03) `mkShape : List Int -> Res TensorShape` follows the constructor; chunk table by induction on the list; exact
characterisation of abort / overflow / success.

(C04-C11) heap of blocks (cells `Option R`, array/scalar flag, live flag), tensors = shape + optional block id; every constructor, assignment and
destructor is a function on the heap. `Denotes h t dims vals` relates a tensor to its value. Failing parts of C07, C09, C10 are refuted by concrete
executions, the rest kept as `_partial`.

(C12) state machine over named tensors; invariant and refinement to a map from names to (shape, elements), by induction over call lists.

(C13-C20, C24) operations return a tensor denoting the pure specification value; frame condition "heap = old heap ++ one block".
C14 partial: rank difference 0 or 1 proved, exact characterisation for larger differences, refutation of the full claim. C15 partial: `==`/`equal` compare
the first shape with itself; refuted with an out-of-bounds read.

(C21, C22) matmul with the output parameter as heap state; C22 partial (shape not updated, leak on reallocation, aliasing).

(C23) loop iterations as explicit read/compute/write threads, executor driven by an arbitrary schedule oracle, commutation proof.

(C25, C26) real analysis with Mathlib (`HasDerivAt`, order). lecuntanh's constant is truncated: exact claim refuted, exact factor proved.

(C27, C28) matrices as bounded functions; direct computation; induction over depth.

(C29, C30, C33, C56) adjoint method: a matrix D is an adjoint of F at M if along every entrywise differentiable curve through M the derivative of F is the
inner product with D; layers transform adjoints as their `backprop` does; induction over depth. The Kullback-Leibler output has the wrong sign (refuted).

(C31) elementary inequalities (log x <= x-1). (C32) induction over columns. (C34) algebra over the reals.

(C35, C36) character-level file model: sticky failbit, white space, maximal munch; induction over layers/weights/crash prefix. `C35_format` discharges the assumption about
the library's conversions for the modelled `%.6g` and `strtod`.

(C37) hidden layers live in a store and are shared by reference; refuted by a two-network execution for every network with a hidden layer; partial theorem on what is
independent.

(C38-C44, C57) trainers as state machines; induction over call sequences. C43, C44, C57 refuted in part.

(C45) `normval` as an arbitrary initial value; state machine over forward/backward. (C46) softmax algebra; backprop refuted.

(C47-C52) convolution/pooling as written, uninitialised output cells as the arbitrary parameter `junk`; exact closed forms for every geometry and input, refutations for
stride > 1, batches > 1, negative windows, several channels; partial theorems for the working domain.

(C53, C54, C55) invariants over call histories (`Net.WF`, and what a trainer needs).

(C58) the OpenMP loops of convolution and pooling as interleaved loads and stores; equal to the sequential loop for every schedule, or a race (max pooling, >= 16 channels).

(C59) the forward and backward pass commute with a permutation of the rows; the gradient is a sum over the rows; induction over the batches.

(C60) closed forms of the four costs, summed row by row; `getcostval` of a copied output layer refuted.

(C61) `check()` as loops over linear (column-major) element indices; invariant: weights in the store are the original ones except in the layer under test; verdict characterised exactly;
refuted in both directions by concrete executions.

(C62) bisimulation: networks that agree except in the input layer's members and the remembered label; induction over the calls. (C63) list-valued view of the layers; one entry changes (`List.set`), induction over the layers. (C64) `Spec.model` = settings and weights; one step depends on it alone, induction over the batches, composed with C35. (C65) zero delta propagates as zero by induction over the layers; induction over the batches; converse through the bias gradient. (C66) every call depends on and changes only the network's own layers and its file (locality and frame lemmas per member function); simulation, induction over the program. (C67) case analysis of Armadillo's size checks; induction over the layers with the weights' sizes as invariant. (C68) gradient descent on a convex quadratic: the step contracts the squared errors (Cauchy-Schwarz), the distance to any V falls by 2 lrate times the excess cost; telescoping sum; limit with ciInf. (C69) two-run simulation: layers equal up to the gradient matrix until the first backprop, equal afterwards; constructors, methods, trainers and execAll preserve it. (C70) an invariant (well-formed net, sizes, trainers of the recorded kinds) is preserved by each statement; induction on the program. (C71) model of load/loadsample/main/draw of the two demos; loops by induction, training by C70. (C72-C76) the dense code over a lawless arithmetic, IEEE laws as hypotheses (class Ieee); interval reasoning on values, NaN propagation, induction over layers and calls. (C77-C78) binary64 defined from the reals (Binary64.lean), proved to satisfy class Ieee on every platform (Binary64Ieee.lean); forward error analysis: estimates (bound, error) through every operation, relational proof that the double and the exact run stay within them, induction over layers and batches. (C79) save/load of File.lean over any number type, instantiated at binary64 with %.6g and correctly rounded strtod; reading lemma by induction over the pieces of the file; stability by comparing the spacing of doubles with the unit of the sixth digit (three ranges of exponents, one exceptional value). (C80) forward pass, backward pass and update commute with the renumbering (induction over the layers, sums reindexed by the permutation), then induction over the batches; twins are the fixed points of a transposition. (C81) default constructors with indeterminate functions and null pointers as undefined behaviour when used; assignment by simulation over all later calls. (C82) the functions once more, statement by statement, as programs that end with a state also when they throw and that may run out of memory at any matrix computation; agreement with the other model, then invariants of the passes and a prefix description of the updates. (C83) induction over the calls with C41_batches; the momentum call and the trainer call share the passes, the updates are compared entry by entry. (C84) the invariant of C12 with a list of lost buffers; each kind of assignment either keeps or extends it. (C85) the test templates as programs in the language of C12, evaluated by the rules of C84. (C86) Over exact arithmetic, by induction on the layers: a recursive bound on the difference of the outputs of two networks whose weights differ by a fraction; combined with the precision of the file format from C35; Lipschitz constants from the derivatives of C25. (C87) The expressions of the tests as functions of their literals (UnitTests.lean); the difference quotient is bounded by comparing the derivative of its error with a quadratic, using Lipschitz constants of the derivatives; the layer tests by evaluating the constructors and passes of the model. (C88) Gradient descent on a smooth convex function over weight tables (Convex.lean): descent lemma, distance recursion, strong convexity; the three costs are shown convex with the stated curvature (ConvexLoss.lean, log-sum-exp by a second derivative bound); the training round of the model is shown to be exactly one such step. (C89) The constructors of the model are evaluated for symbolic sizes and compared with a specification of a fresh layer; the setters by evaluating the next pass. (C90) Cyclic (block) Kaczmarz iteration: the distance to any fitting weights never rises, the fall bounds the residual, a limit point exists by compactness and fits all batches, hence is the limit (Kaczmarz.lean). The trainers are reduced to sequences of batches by C40 and C41. (C91) Heavy-ball iteration on a smooth convex function (HeavyBall.lean): the energy falls by a share of |v|^2, so the averaged gradients are square summable; z = W - lrate*m/(1-m)*v makes plain gradient steps, its distance to an optimum plus a multiple of the objective is quasi-monotone, and a cluster point is the limit. The trainer's call is shown to be one such step. (C92) Typed expressions (Expr.lean), evaluated with the modelled operators on the heap; denotation in Mathlib's matrices; induction over the expression with C04, C05, C13, C14, C16, C18, C21. The laws are then Mathlib's. (C93) Generalises C80: the forward pass, backprop and update commute with permuting rows and columns of weights, inputs and labels; induction over layers, then over batches; the library's costs commute with reordering columns. (C94) A silent relu unit has activation 0 and derivative 0, so its column of the layer's gradient and its row of the next layer's gradient are only lambda*W; induction over the batches, silence being kept because its pre-activation is scaled by a positive factor. (C95) A relation between the states before and after a statement, kept by every statement whether it throws or not (Keeps); induction over the history. (C96) SpecialCopy.lean models the copy operations of every layer class; a bisimulation between original and copy (same members as far as any call reads them), by induction on the calls. (C97) by C56 the gradient of a batch is the average of a function of its (sample, label) pairs; grouping equal pairs turns it into a sum weighted by their shares; induction over the batches. (C98) induction over the hidden layers without the assumption that they are different objects; files by comparison with the untied network; training refuted by an explicit 1-1-1-1 linear network computed for every rate. (C99) the bound of the output delta gives, layer by layer from the output backwards, a bound of the data part of the gradient; a step of rate r with regularisation l takes W to (1 - r l) W - r g, a convex combination of W and -g/l, so max(start, G/l) is invariant. (C100) by induction from the output backwards, weights that start within M stay within M + S G where S is the sum of the rates and G bounds the data part of the gradient; so step t moves every weight by at most K r_t, the weights form Cauchy sequences. The decay option: one-unit network of C99, rates bounded below. (C101) from the exact forward formulas C47, C51, C52: zero padding commutes with moving the picture; sums and maxima over windows follow. (C102) two consecutive affine layers are one affine layer, by exchanging sums; induction over the hidden layers; C28 and C32 carry it to forwardprop and predict; xor is not linearly separable. (C103) positive homogeneity passes the factor through the activation; z f'(z) = f(z) turns the sum over incoming weights times gradient into that over outgoing weights, by exchanging sums over samples; induction over the layers. (C104) the body of the shuffling loop is a reordering by a transposition; invariant: the state is the input reordered by a permutation of the row numbers; the split is two sub-views of it; accuracy by induction over the rows; evaluation from C32 and C55; training from C59. (C105) every int operation of the layers is a checked operation; loops with checked bodies equal the idealised loops when the largest offset fits (monotonicity of the products); otherwise the first product that does not fit is found by evaluation. (C106) the loops over the layers with checked dereferences; they split at the first null pointer, and up to there agree with the loops without. (C107) the member functions as sequences of statements, any interleaving; threads with disjoint networks and layers commute, by an invariant over schedules; a witness schedule for shared layers. (C108) the loops again with the structured block of a parallel region turning an exception into the end of the program; loop invariants on the sizes. (C109) softmax does not see a common offset and its delta rows add up to zero; two runs related step by step, by induction over the batches. (C110) the tensor functions in a monad in which each request for memory may fail; each is compared with the model without failures: either bad_alloc and only released blocks in addition, or the same outcome. (C111) the gradient of the first layer is a combination of the samples, so has no component along a direction orthogonal to them; two runs related step by step, by induction over the batches. (C112) forward pass, backward pass and update commute with orthogonal changes of coordinates; two runs related step by step, by induction over layers and batches. (C113) loops over columns and rows by invariants; names are numbered by the count of different names before the first occurrence; composed with C104. (C114) the watched and the plain run are related iteration by iteration (same trainer, settings, weights, cost) by an invariant of the loop; composed with C57, C32, C104, C39. (C115) the restart by an invariant of the loop of randomize calls; training keeps configuration, sizes and (without decay) settings; runs from equal weights are related through the plain training history of C114; the trials by a loop invariant. (C116) programs of C84 per thread; a statement depends on and changes only the variables it names (frame lemmas for the specification, env frame for the calls); invariant: every thread is at a point of its own run, with the values of its variables and the shared ones. (C117, C118) induction over the layers of the closed form of C28. (C119) the new first-layer weights are given in closed form; the sum over features is rearranged and the rest of the network is unchanged. (C120) sums over units are regrouped by the unit they are merged into; induction over the training steps for units of zero weights. (C121) `resizeimg` as three nested loops over a row vector; `main` with its three times 1000 passes; loop invariants on top of the closed forms of C47 and C49. (C122) simulation between the network and its plain version (a normalising layer against a dense layer `divider`), layer by layer forwards and backwards; C28, C29 and C32 for the plain version; two concrete networks for the refutations. (C123) one step traced through forwardprop, backprop and update around the two layers, the rest of the network opaque (Outside); the value handed to the dense layer is a row of probabilities, so the bias gradient is positive and sums to the number of rows; induction over the history. (C124) split of the three loops over the hidden layers at the cut (hiddenForward_append, hiddenBackward_append, hiddenUpdate_split), what a loop leaves alone (Outside) and that a loop depends on its own layers only (Agree, from C66); induction over the history. (C125) induction over the hidden layers for each of the three loops: dense layers as in C67, normalising layers throw for empty matrices only, softmax layers never; sizes and classes are preserved (SameShape), so the condition is the same before each step; induction over the batches. (C126) the calls with the state they leave when they throw (Exn.lean); the step of the normalising layer is computed, and the loop over the other layers leaves it alone whatever happens (Keeps, Spares); the network of C122_refuted for the consequence.

## Defects of the code the theorems establish

C07 (copy assignment with other sizes), C09 (leak), C10 (`delete[]` of scalar new), C14 (broadcast over two or more dimensions), C15 (`==` accepts different
shapes), C20 (argmax of a tensor without rows), C22 (output parameter), C25 (lecuntanh), C29/C30/C33 (Kullback-Leibler sign; activation ignored with
LayerParam), C34 (the scale is not the standard deviation), C37 (shared hidden layers), C43 (integer division), C44 (copied trainers), C45 (uninitialised factor),
C46 (softmax backprop), C47-C52 (convolution and pooling), C53 (input layer copy), C57 (BatchTrainer cost), C58 (max pooling race), C60 (getcostval through getoutput),
C61 (the gradient checker's comparison is inverted), C72 (NaN derivatives; relu and hardtanh hide NaN), C74 (softmax overflow), C75 (NaN costs).
