import json
mods=["Verif.NN."+m for m in "Binary64 Binary64Lemmas Binary64Ieee RoundSpec RoundLemmas PropsRound RoundAct PropsRoundTanh".split()]
props=[
["C77","Rounding errors of forward passes and predictions","A forward pass in IEEE binary64 fails exactly if the exact one does; otherwise each output is a finite number within an explicit error of the output of the exact network. For tanh networks with weights up to M, at most N units a layer, inputs up to B and h hidden layers the error is at most (2 N^2 M B 2^-53 + 2 N 2^-1074 + d)(1 + NM + ... + (NM)^h), d being the error of the C library's tanh. If one class exceeds the others by more than twice the error in exact arithmetic, predict answers that class.","all platforms (any summation order, fused or not, any C library accurate to d), networks of dense layers, data, depths and widths for which the stated bounds do not overflow","all values, sizes, depths and orders of summation; tests compare with the same rounded arithmetic",["src/neuralnet.cpp:forwardprop,predict","src/layer/layer.cpp:forwardprop","src/layer/outputlayer.cpp:argmax","src/act.cpp"]],
["C78","Rounding errors of training","Training in IEEE binary64 on any sequence of batches (forwardprop, backprop, update) fails exactly if exact training does; otherwise every weight of the trained network is a finite number within an explicit, recursively computed error of the exact weight, and later forward passes are within the errors of C77 for those weights.","all platforms, networks of dense layers with identity, tanh, arctan or sigmoid activations (and others with a given estimate), quadratic or cross entropy output, batch sequences of any length for which the bounds do not overflow","all histories of training and orders of summation",["src/neuralnet.cpp:forwardprop,backprop,update","src/layer/layer.cpp","src/layer/outputlayer.cpp:backprop","src/output/quadraticoutput.cpp","src/output/crossentropyoutput.cpp","src/act.cpp"]]]
notes={
"C77":["proved","binary64 with round to nearest even, gradual underflow and signed zeros is defined in Binary64.lean; summation order, fma and the C library are parameters (Platform). Activations with proved estimates: identity, relu, absolute, hardtanh, tanh, arctan, sigmoid. The exact network is the same code at the reals (FloatReal ties it to the model of the other properties)."],
"C78":["proved","Estimates are sound, not tight: bounds on weights grow with each step, so the no-overflow conditions limit the number of steps. Derivatives with proved estimates: identity, tanh, arctan, sigmoid; a discontinuous derivative (relu) has no useful estimate. Softmax and Kullback-Leibler deltas have no estimate here (ComputesCost is a hypothesis)."]}
json.dump({"mods":mods,"props":props,"notes":notes,"design":"(C77-C78) binary64 defined from the reals (Binary64.lean), proved to satisfy class Ieee on every platform (Binary64Ieee.lean); forward error analysis: estimates (bound, error) through every operation, relational proof that the double and the exact run stay within them, induction over layers and batches."},open('/tmp/gen/r77.json','w'))
