import json
r={"mods":["Verif.NN.PropsTied"],"props":[["C98","One layer object at several positions of a network",
"A network may use the same layer object at several positions (the constructor takes shared pointers). Its outputs are those of a network with a separate layer of the same weights at each position; saving and loading preserve its weights; and training with a small enough learning rate lowers the cost of the batch, as for networks with separate layers.",
"all dense networks with any pattern of repeated layer objects, all inputs, files and learning rates",
"every pattern of sharing is quantified over; the repository's tests use each layer once.",
["src/neuralnet.h: NeuralNet(input, output, layers)","src/neuralnet.cpp: forwardprop, backprop, update, save, load","src/layer/layer.cpp: forwardprop, backprop, update"]]],
"notes":{"C98":["partial","Outputs (C98_outputs_partial, C98_untied_partial) and files (C98_roundtrip_partial) are proved for every pattern of sharing. The claim about training is false: each forward call overwrites the cached input of the previous position and update() runs once per position, so for the network of C98_training_refuted a step with any rate in (0, 1/2) raises the cost."]},
"design":"(C98) induction over the hidden layers without the assumption that they are different objects; files by comparison with the untied network; training refuted by an explicit 1-1-1-1 linear network computed for every rate."}
json.dump(r,open('/tmp/gen/r98.json','w'))
