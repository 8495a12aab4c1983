import json
r={"mods":["Verif.NN.PropsSoftNet"],"props":[["C123","Training below a softmax layer",
"Training (forwardprop; backprop; update) a network in which a dense layer without regularisation feeds a SoftmaxLayer moves every bias of that dense layer down at every step, if the derivative of its activation is positive, whatever the data, labels and current error are. Without an activation, and if that layer is the first, the sum of its biases goes down by the learning rate times the number of samples at each step, so that repeated training never settles and drives a bias below every bound, even if the network answers every sample perfectly; in that case, without regularisation, no answer of the network changes meanwhile, on any input.",
"all networks with a dense layer feeding a softmax layer, anything before and behind it; all weights, learning rates, activations with positive derivative, samples, labels, cost functions; all numbers of training steps",
"all data, labels, networks and numbers of steps; a test runs a few steps of one network.",
["src/layer/softmaxlayer.cpp: SoftmaxLayer::backprop","src/neuralnet.cpp: forwardprop, backprop, update","src/layer/layer.cpp: backprop, update"]]],
"notes":{"C123":["proved","C123_step, C123_history, C123_monotone, C123_runs, C123_diverges, C123_invisible (a perfect fit keeps all its answers while the biases run away). The wish that a perfect fit is left alone is refuted: C123_perfect_refuted."]},
"design":"(C123) one step traced through forwardprop, backprop and update around the two layers, the rest of the network opaque (Outside); the value handed to the dense layer is a row of probabilities, so the bias gradient is positive and sums to the number of rows; induction over the history."}
json.dump(r,open('/tmp/gen/r123.json','w'))
