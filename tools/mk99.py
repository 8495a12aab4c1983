import json
r={"mods":["Verif.NN.PropsDecayBound"],"props":[["C99","With regularisation the weights stay bounded for ever",
"If every layer is regularised (lambda > 0, rate * lambda <= 1), the hidden activations are bounded with bounded derivatives (sigmoid, arctan, tanhyperbolic, bipolarsigmoid, comploglog, lecuntanh, hardtanh) and the output is sigmoid with cross-entropy or quadratic cost, or softmax, then there is one bound, fixed before training starts, that no weight ever exceeds, whatever the number, size and content of the batches, as long as their inputs stay within a fixed bound and their labels between 0 and 1. Without regularisation no such bound exists, whatever the learning rate.",
"all dense networks of any depth and width with those settings, all finite training histories on batches of any size with bounded inputs and labels in [0,1], all learning rates",
"the bound must hold after any number of steps on any data; a test runs a few steps on one data set.",
["src/layer/layer.cpp: backprop, update","src/layer/outputlayer.cpp: backprop","src/output/crossentropy.cpp, quadratic.cpp, softmax.cpp: costd","src/act.cpp"]]],
"notes":{"C99":["proved","C99_bounded (one bound for all histories), C99_activations and C99_outputs (which activations and outputs qualify), C99_lambda_needed (with lambda = 0 the weight of a one-unit network passes every bound). Exact real arithmetic."]},
"design":"(C99) the bound of the output delta gives, layer by layer from the output backwards, a bound of the data part of the gradient; a step of rate r with regularisation l takes W to (1 - r l) W - r g, a convex combination of W and -g/l, so max(start, G/l) is invariant."}
json.dump(r,open('/tmp/gen/r99.json','w'))
