import json
r={"mods":["Verif.NN.PropsHead"],"props":[["C124","The back part of a network is trained like a network of its own",
"Cut the hidden layers of a network anywhere, so that no layer object is on both sides. The network answers x with what the back part, as a network of its own, answers to the features the front makes of x. Backpropagation leaves the same gradients in the back part as in that network, and they are the derivatives of the cost of the whole network whenever they are those of the back part's, whatever kinds of layers the front has. Any sequence of training steps changes the back part exactly as training it on the features that the front computes before each step; and if the front consists of softmax layers and of dense layers with learning rate zero, these are the features it computes at the beginning, so they can be computed once.",
"all networks, layers of any kinds, cuts, data, labels and numbers of training steps that do not throw",
"all architectures and histories; a test can only try some.",
["src/neuralnet.cpp: forwardprop, backprop, update"]]],
"notes":{"C124":["proved","C124_forward, C124_backward, C124_gradient, C124_training, C124_frozen."]},
"design":"(C124) split of the three loops over the hidden layers at the cut (hiddenForward_append, hiddenBackward_append, hiddenUpdate_split), what a loop leaves alone (Outside) and that a loop depends on its own layers only (Agree, from C66); induction over the history."}
json.dump(r,open('/tmp/gen/r124.json','w'))
