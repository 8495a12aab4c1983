import json
r={"mods":["Verif.NN.PropsOffset","Verif.NN.PropsOffsetEx"],"props":[["C109","A common offset of the weights of all classes means nothing to a softmax network",
"Adding the same vector to the output weights of all classes of a softmax network changes neither the predicted classes nor the cost, now or after any training with labels that add up to one for each sample: both networks keep equal hidden weights, and the offset only shrinks by the regularisation. Training keeps the sum over the classes of the weights from each hidden unit, and of the biases, up to the factor 1 - rate * lambda for each batch; with labels that do not add up to one the biases drift by exactly the excess.",
"all dense networks with softmax output, offsets, sequences of batches, inputs and labels",
"all networks, all offsets and training histories of any length.",
["src/output/softmaxoutput.cpp: costfunc, costfuncdelta","src/layer/outputlayer.cpp: backprop, argmax","src/layer/layer.cpp: update","src/neuralnet.cpp: forwardprop, backprop, update, predict, computecost"]]],
"notes":{"C109":["proved","C109_offset (two networks through any training), C109_sums (one network), C109_labels (labels of any kind, one step without regularisation). Networks of dense hidden layers; output activation the identity, as the constructors of SoftmaxOutput without LayerParam set it."]},
"design":"(C109) softmax does not see a common offset and its delta rows add up to zero; two runs related step by step, by induction over the batches."}
json.dump(r,open('/tmp/gen/r109.json','w'))
