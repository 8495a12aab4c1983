import json
r={"mods":["Verif.NN.PropsStable","Verif.NN.PropsDirection"],"props":[["C117","Small changes of the input",
"Outputs cannot jump: if the features of a sample change by at most eps, the outputs of a dense network change by at most eps times the product of the gains of its layers, where the gain of a layer is the slope of its activation times the largest sum of absolute weights of a unit; and a sample whose best output leads by more than twice that keeps its predicted class.",
"all dense networks, weights, batches, samples and changes of the features",
"all inputs and all perturbations of them: a test sees single points.",
["src/neuralnet.cpp: forwardprop, predict","src/layer/layer.cpp: forwardprop","src/act.cpp"]],
["C118","The direction of influence",
"If features and units can be given directions (up or down) such that every weight has the sign its two ends ask for, and the activations are non-decreasing, then moving features in their directions never moves an output against its direction. In particular with weights that are not negative, raising features never lowers an output.",
"all dense networks with such signs, all biases, samples and movements of the features",
"all pairs of inputs: a test sees single pairs.",
["src/neuralnet.cpp: forwardprop","src/layer/layer.cpp: forwardprop","src/act.cpp"]]],
"notes":{"C117":["proved","C117_outputs, C117_predictions; C117_gains: the gains with every activation of the library; C117_sharp: the bound is attained."],
"C118":["proved","C118_direction, C118_monotone; C118_activations: which activations of the library are non-decreasing and which are not."]},
"design":"(C117, C118) induction over the layers of the closed form of C28."}
json.dump(r,open('/tmp/gen/r117.json','w'))
