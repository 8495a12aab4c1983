import json
r={"mods":["Verif.NN.PropsUnseen","Verif.NN.PropsUnseenEx"],"props":[["C111","What the training data cannot tell apart is never learned",
"If no training sample has a component along a direction of the input (counting the bias as a constant input), then training never changes the first layer's weights along that direction, except for the factor 1 - rate * lambda that regularisation applies for each batch, whatever the labels. Two networks that differ in the first layer only by such directions stay equal everywhere else through any training and compute equal outputs for every sample of that kind. So the weights from a feature that is always zero keep their random initial values, two features that are always equal keep the difference of their weights, and a constant feature is tied to the bias.",
"all dense networks, activation functions and library costs, all sequences of batches of any sizes, all directions orthogonal to the samples, all inputs",
"all networks, all data sets of a kind and training histories of any length.",
["src/layer/layer.cpp: forwardprop, backprop, update","src/layer/outputlayer.cpp: backprop","src/neuralnet.cpp: forwardprop, backprop, update"]]],
"notes":{"C111":["proved","C111_unseen (two networks through any training), C111_invariant (one network, any direction), C111_unused, C111_repeated, C111_constant (its three common cases). Networks of dense hidden layers, or none: the first layer may be the output."]},
"design":"(C111) the gradient of the first layer is a combination of the samples, so has no component along a direction orthogonal to them; two runs related step by step, by induction over the batches."}
json.dump(r,open('/tmp/gen/r111.json','w'))
